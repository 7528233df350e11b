import Verif.Reader.RoundTrip
/-!
Properties C01 (chunk independence), C02 (Content-Length round trip), C03 (line round trip).
-/

namespace Reader
open Spec NetCommand

/-- **C01.** The messages processed, and the way the session ends, depend only on the bytes sent and
not on how the network cuts them into (non-empty) reads. The premise excludes only sessions that,
fed in one piece, meet a header announcing a *negative* length (see `c01_negative_length_splits`). -/
theorem c01_chunk_independence (kill : Nat → Bool) (raises : Bytes → Bool)
    (chunks₁ chunks₂ : List Bytes) (h₁ : ∀ c ∈ chunks₁, c ≠ []) (h₂ : ∀ c ∈ chunks₂, c ≠ [])
    (hsame : chunks₁.flatten = chunks₂.flatten)
    (hlen : ∀ k, Ev.header k ∈ (loop kill raises 0 (-1) chunks₁.flatten []).1 → 0 ≤ k) :
    session kill raises chunks₁ = session kill raises chunks₂ := by
  unfold session
  rw [loop_flat kill raises 0 (-1) (.inl rfl) [] chunks₁ h₁ (by simpa using hlen),
    loop_flat kill raises 0 (-1) (.inl rfl) [] chunks₂ h₂ (by rw [← hsame]; simpa using hlen)]
  simp [hsame]

/-- C01, other half: feeding the bytes in one piece is one of the admissible cuts, so every cut gives
the one-piece result. -/
theorem c01_one_piece (kill : Nat → Bool) (raises : Bytes → Bool)
    (chunks : List Bytes) (h : ∀ c ∈ chunks, c ≠ []) (hne : chunks ≠ [])
    (hlen : ∀ k, Ev.header k ∈ (session kill raises [chunks.flatten]).1 → 0 ≤ k) :
    session kill raises chunks = session kill raises [chunks.flatten] := by
  have hf : chunks.flatten ≠ [] := by
    cases chunks with
    | nil => exact absurd rfl hne
    | cons c cs => have := h c (by simp); simp [this]
  have key : session kill raises [chunks.flatten] = loop kill raises 0 (-1) chunks.flatten [] := by
    unfold session
    rw [loop_eq kill raises 0 (-1) [] [chunks.flatten], loop_eq kill raises 0 (-1) chunks.flatten []]
    have : readLine [] [chunks.flatten] = readLine chunks.flatten [] := by
      conv => lhs; unfold readLine
      simp [splitLine, hf]
    rw [this]
  rw [key] at hlen ⊢
  unfold session
  rw [loop_flat kill raises 0 (-1) (.inl rfl) [] chunks h (by simpa using hlen)]
  simp

/-- Non-vacuity of C01: a stream with a JSON message and a line command, cut byte by byte and in two
pieces; the premise holds and messages are really delivered. -/
example :
    session (fun _ => false) (fun _ => false)
      [b!"Content-Le", b!"ngth: 2\r", b!"\n\r\n{", b!"}501\t1", b!"\t\n"] =
    ([.header 2, .json b!"{}", .cmd 501 1 []], .closed) := by decide +kernel
example :
    session (fun _ => false) (fun _ => false)
      [b!"Content-Length: 2\r\n\r\n{}501\t1\t\n"] =
    ([.header 2, .json b!"{}", .cmd 501 1 []], .closed) := by decide +kernel

/-- Outside the premise C01 is false of the code: with a negative length the message depends on what
happens to be buffered (`_read` slices with a negative index, 204-207). -/
theorem c01_negative_length_splits :
    ∃ c₁ c₂ : List Bytes, (∀ c ∈ c₁, c ≠ []) ∧ (∀ c ∈ c₂, c ≠ []) ∧ c₁.flatten = c₂.flatten ∧
      session (fun _ => false) (fun _ => false) c₁ ≠ session (fun _ => false) (fun _ => false) c₂ := by
  refine ⟨[b!"Content-Length: -2\r\n\r\n", b!"abcd"], [b!"Content-Length: -2\r\n\r\nabcd"],
    by decide, by decide, by decide, ?_⟩
  decide +kernel

/-- **C02/C03.** Whatever messages one side sends — any mixture of `Content-Length` payloads and
line-protocol commands with arbitrary bytes in them — and however the network cuts the bytes, the
reader delivers exactly these messages, in order, reports no malformed input, and ends only because
the connection is closed. -/
theorem c02_c03_wire_roundtrip (raises : Bytes → Bool) (hr : ∀ p, raises p = false)
    (msgs : List Message) (hs : ∀ m ∈ msgs, Sendable m)
    (chunks : List Bytes) (hc : ∀ c ∈ chunks, c ≠ []) (hw : chunks.flatten = msgs.flatMap encode) :
    (session (fun _ => false) raises chunks).1.filterMap understood = msgs ∧
    (∀ l, Ev.bad l ∉ (session (fun _ => false) raises chunks).1) ∧
    (session (fun _ => false) raises chunks).2 = .closed := by
  obtain ⟨h1, h2, h3⟩ := loop_wire raises hr msgs hs 0
  have key : session (fun _ => false) raises chunks =
      loop (fun _ => false) raises 0 (-1) (msgs.flatMap encode) [] := by
    unfold session
    rw [loop_flat (fun _ => false) raises 0 (-1) (.inl rfl) [] chunks hc]
    · simp [hw]
    · intro k hk
      rw [List.nil_append, hw] at hk
      exact (h3 _ hk).2 k rfl
  rw [key]
  exact ⟨h1, fun l hl => (h3 _ hl).1 l rfl, h2⟩

/-- **C02.** Payloads sent with `Content-Length` framing are delivered unchanged. -/
theorem c02_http_roundtrip (raises : Bytes → Bool) (hr : ∀ p, raises p = false)
    (payloads : List Bytes) (hne : ∀ p ∈ payloads, p ≠ [])
    (chunks : List Bytes) (hc : ∀ c ∈ chunks, c ≠ [])
    (hw : chunks.flatten = payloads.flatMap frameHttp) :
    (session (fun _ => false) raises chunks).1.filterMap understood = payloads.map .http := by
  refine (c02_c03_wire_roundtrip raises hr (payloads.map .http) ?_ chunks hc ?_).1
  · intro m hm
    simp only [List.mem_map] at hm
    obtain ⟨p, hp, rfl⟩ := hm
    exact hne p hp
  · rw [hw, List.flatMap_map]; rfl

/-- Non-vacuity of C02: a payload that itself looks like framing. -/
example : (session (fun _ => false) (fun _ => false)
      [frameHttp b!"Content-Length: -7\r\n\r\n", frameHttp b!"{}"]).1.filterMap understood =
    [.http b!"Content-Length: -7\r\n\r\n", .http b!"{}"] := by decide +kernel

/-- **C03.** A line-protocol message is one line, and its text is recovered by percent-decoding. -/
theorem c03_line_roundtrip (id seq : Int) (text : Bytes) :
    (∃ body, frameLine id seq text = body ++ [10] ∧ (10 : UInt8) ∉ body) ∧
    ∀ (raises : Bytes → Bool) (chunks : List Bytes), (∀ p, raises p = false) →
      (∀ c ∈ chunks, c ≠ []) → chunks.flatten = frameLine id seq text →
      (session (fun _ => false) raises chunks).1.filterMap understood = [.line id seq text] := by
  constructor
  · refine ⟨Py.asciiBytes (Py.intStr id) ++ [9] ++ Py.asciiBytes (Py.intStr seq) ++ [9] ++ quote text,
      rfl, ?_⟩
    simp only [List.mem_append, not_or]
    refine ⟨⟨⟨⟨?_, by decide⟩, ?_⟩, by decide⟩, ?_⟩
    · intro h; exact (intBytes_clean _ _ h).1 rfl
    · intro h; exact (intBytes_clean _ _ h).1 rfl
    · intro h; exact (quote_clean _ _ h).1 rfl
  · intro raises chunks hr hc hw
    exact (c02_c03_wire_roundtrip raises hr [.line id seq text] (by simp [Sendable]) chunks hc
      (by simpa [encode] using hw)).1

example : frameLine 501 (-3) b!"a%\nb" = b!"501\t-3\ta%25%0Ab\n" := by decide +kernel
example : (session (fun _ => false) (fun _ => false) [b!"501\t-3\ta%25%0Ab\n"]).1.filterMap understood =
    [.line 501 (-3) b!"a%\nb"] := by decide +kernel

end Reader
