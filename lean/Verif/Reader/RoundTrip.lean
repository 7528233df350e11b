import Verif.Reader.Lemmas
/-! Helper lemmas for the wire round trips. -/

namespace Reader
open NetCommand Spec

/-- A fact checked for every byte value holds for every byte. -/
theorem forall_byte {p : UInt8 → Prop} (h : ∀ n : Fin 256, p (UInt8.ofNat n.val)) : ∀ x, p x := by
  intro x
  have := h ⟨x.toNat, x.toNat_lt⟩
  simpa using this

theorem hex_roundtrip : ∀ x : UInt8,
    ∃ p q, hexVal (hexDigit (x / 16)) = some p ∧ hexVal (hexDigit (x % 16)) = some q ∧
      16 * p + q = x := by
  have h : ∀ x : UInt8, hexVal (hexDigit (x / 16)) = some (x / 16) ∧
      hexVal (hexDigit (x % 16)) = some (x % 16) ∧ 16 * (x / 16) + (x % 16) = x := by
    apply forall_byte; decide +kernel
  intro x
  exact ⟨_, _, h x⟩

theorem quoteByte_clean : ∀ x : UInt8, ∀ y ∈ quoteByte x, y ≠ 10 ∧ y < 0x80 := by
  apply forall_byte; decide +kernel

theorem not_safe_percent : isSafe 37 = false := by decide

theorem quote_clean (t : Bytes) : ∀ y ∈ quote t, y ≠ 10 ∧ y < 0x80 := by
  intro y hy
  simp only [quote, List.mem_flatMap] at hy
  obtain ⟨x, _, h⟩ := hy
  exact quoteByte_clean x y h

theorem unquote_cons {x : UInt8} (h : x ≠ 37) (r : Bytes) : unquote (x :: r) = x :: unquote r := by
  match r with
  | [] => rfl
  | [a] => rfl
  | a :: b :: r => rw [unquote, if_neg h]

theorem unquote_quote (t : Bytes) : unquote (quote t) = t := by
  induction t with
  | nil => rfl
  | cons x xs ih =>
    have : quote (x :: xs) = quoteByte x ++ quote xs := rfl
    rw [this]
    unfold quoteByte
    split
    · rename_i hs
      have : x ≠ 37 := by rintro rfl; rw [not_safe_percent] at hs; cases hs
      rw [List.singleton_append, unquote_cons this, ih]
    · obtain ⟨p, q, hp, hq, hx⟩ := hex_roundtrip x
      simp only [List.cons_append, List.nil_append]
      rw [unquote, if_pos rfl, hp, hq]
      simp only
      rw [ih, hx]

theorem splitLine_line {a : Bytes} (h : (10 : UInt8) ∉ a) (b : Bytes) :
    splitLine (a ++ 10 :: b) = some (a ++ [10], b) := by
  induction a with
  | nil => simp [splitLine]
  | cons x xs ih =>
    simp only [List.mem_cons, not_or] at h
    have hx : x ≠ 10 := fun e => h.1 e.symm
    simp [splitLine, hx, ih h.2]

theorem intBytes_clean (i : Int) : ∀ x ∈ Py.asciiBytes (Py.intStr i), x ≠ 10 ∧ x ≠ 9 ∧ x < 0x80 ∧ x ≠ 67 := by
  intro x hx
  simp only [Py.asciiBytes, List.mem_map] at hx
  obtain ⟨c, hc, rfl⟩ := hx
  have hsp := Py.intStr_not_space i c hc
  have hd : Py.isDigit c = true ∨ c = '-' := by
    cases i with
    | ofNat n => exact .inl (Py.natStr_digits n c hc)
    | negSucc n =>
      simp only [Py.intStr, List.mem_cons] at hc
      rcases hc with rfl | hc
      · exact .inr rfl
      · exact .inl (Py.natStr_digits _ c hc)
  have h0 : '0'.toNat = 48 := rfl
  have h9 : '9'.toNat = 57 := rfl
  have hm : '-'.toNat = 45 := rfl
  have hb : c.toNat = 45 ∨ (48 ≤ c.toNat ∧ c.toNat ≤ 57) := by
    rcases hd with hd | rfl
    · simp only [Py.isDigit, Bool.and_eq_true, decide_eq_true_eq, h0, h9] at hd; exact .inr hd
    · exact .inl hm
  have key : (UInt8.ofNat c.toNat).toNat = c.toNat := by
    rw [UInt8.toNat_ofNat_of_lt' (by simp [UInt8.size]; omega)]
  refine ⟨?_, ?_, ?_, ?_⟩
  · intro h; rw [h] at key; simp at key; omega
  · intro h; rw [h] at key; simp at key; omega
  · rw [UInt8.lt_iff_toNat_lt, key]; simp; omega
  · intro h; rw [h] at key; simp at key; omega

theorem parseInt_asChars (i : Int) :
    Py.parseInt (Py.asChars (Py.asciiBytes (Py.intStr i))) = some i := by
  rw [Py.asChars_asciiBytes (Py.intStr_ascii i), Py.parseInt_intStr]

theorem isSuffixOf_append_self (a b : Bytes) : b.isSuffixOf (a ++ b) = true := by
  rw [List.isSuffixOf_iff_suffix]; exact ⟨a, rfl⟩

theorem chomp_line {a : Bytes} (h : (10 : UInt8) ∉ a) : chomp (a ++ [10]) = a := by
  unfold chomp
  rw [if_neg, if_pos (isSuffixOf_append_self a _)]
  · simp
  · intro hs
    rw [List.isSuffixOf_iff_suffix] at hs
    obtain ⟨t, ht⟩ := hs
    have : t ++ [10] = a := by
      have h2 : (t ++ [10]) ++ [10] = a ++ [10] := by simpa using ht
      exact List.append_cancel_right h2
    exact h (by simp [← this])

theorem cutTab_line {a : Bytes} (h : (9 : UInt8) ∉ a) (b : Bytes) :
    cutTab (a ++ 9 :: b) = some (a, b) := by
  induction a with
  | nil => simp [cutTab]
  | cons x xs ih =>
    simp only [List.mem_cons, not_or] at h
    have hx : x ≠ 9 := fun e => h.1 e.symm
    simp [cutTab, hx, ih h.2]

/-- One step of the loop when a whole line is in the buffer, and there is no kill. -/
theorem loop_line (raises : Bytes → Bool) (n : Nat) (clen : Int) {s l rest : Bytes}
    (hs : splitLine s = some (l, rest)) :
    loop (fun _ => false) raises n clen s [] =
      if header.isPrefixOf l then
        match contentLen l with
        | none => ([], .readError)
        | some k =>
          (.header k :: (loop (fun _ => false) raises (n + 1) k rest []).1,
            (loop (fun _ => false) raises (n + 1) k rest []).2)
      else if clen ≠ -1 then
        if l = b!"\r\n" then
          let r := read clen rest []
          if r.1 = [] then ([], .emptyBody)
          else if raises r.1 then ([.json r.1], .readError)
          else
            (.json r.1 :: (loop (fun _ => false) raises (n + 2) (-1) r.2.1 r.2.2).1,
              (loop (fun _ => false) raises (n + 2) (-1) r.2.1 r.2.2).2)
        else loop (fun _ => false) raises (n + 1) clen rest []
      else
        if Py.utf8Valid (chomp l) then
          (parseCommand (chomp l) :: (loop (fun _ => false) raises (n + 1) clen rest []).1,
            (loop (fun _ => false) raises (n + 1) clen rest []).2)
        else ([], .decodeError) := by
  rw [loop_eq, readLine_some [] hs]
  have := (splitLine_append hs).2
  simp only [if_neg this, Bool.false_eq_true, if_false]
  rfl

/-- The reader on one HTTP-framed payload. -/
theorem loop_http (raises : Bytes → Bool) (n : Nat) (p rest : Bytes) (hp : p ≠ [])
    (hr : raises p = false) :
    loop (fun _ => false) raises n (-1) (frameHttp p ++ rest) [] =
      (.header p.length :: .json p :: (loop (fun _ => false) raises (n + 3) (-1) rest []).1,
        (loop (fun _ => false) raises (n + 3) (-1) rest []).2) := by
  have hplen : 0 < p.length := List.length_pos_iff.2 hp
  have hline : splitLine (frameHttp p ++ rest) =
      some (b!"Content-Length: " ++ Py.asciiBytes (Py.intStr p.length) ++ b!"\r\n",
        b!"\r\n" ++ (p ++ rest)) := by
    have hn : (10 : UInt8) ∉ b!"Content-Length: " ++ Py.asciiBytes (Py.intStr p.length) ++ [13] := by
      simp only [List.mem_append, not_or]
      refine ⟨⟨by decide, ?_⟩, by decide⟩
      intro h; exact (intBytes_clean _ _ h).1 rfl
    have := splitLine_line hn (b!"\r\n" ++ (p ++ rest))
    simp only [frameHttp, List.append_assoc, List.cons_append, List.nil_append] at this ⊢
    exact this
  rw [loop_line _ _ _ hline]
  have hpre : header.isPrefixOf
      (b!"Content-Length: " ++ Py.asciiBytes (Py.intStr p.length) ++ b!"\r\n") = true := by
    rw [List.isPrefixOf_iff_prefix]
    exact ⟨[32] ++ (Py.asciiBytes (Py.intStr p.length) ++ b!"\r\n"), by simp [header]⟩
  have hcl : contentLen (b!"Content-Length: " ++ Py.asciiBytes (Py.intStr p.length) ++ b!"\r\n") =
      some (p.length : Int) := by
    have hd : (b!"Content-Length: " ++ Py.asciiBytes (Py.intStr p.length) ++ b!"\r\n").drop
        header.length = [32] ++ (Py.asciiBytes (Py.intStr p.length) ++ b!"\r\n") := by
      simp [header]
    unfold contentLen
    rw [hd]
    have hm : Py.asChars ([32] ++ (Py.asciiBytes (Py.intStr p.length) ++ b!"\r\n")) =
        c!" " ++ Py.intStr p.length ++ c!"\r\n" := by
      have := Py.asChars_asciiBytes (Py.intStr_ascii p.length)
      simp only [Py.asChars, List.map_append] at this ⊢
      rw [this]
      rfl
    rw [hm]
    exact Py.parseInt_wrap _ (by decide) (by decide)
  rw [if_pos hpre, hcl]
  simp only
  have hline2 : splitLine (b!"\r\n" ++ (p ++ rest)) = some (b!"\r\n", p ++ rest) := by
    simp [splitLine]
  have hread : read (p.length : Int) (p ++ rest) [] = (p, rest, []) := by
    unfold read
    by_cases h : rest = []
    · simp [h]
    · have : 0 < rest.length := List.length_pos_iff.2 h
      rw [if_neg (by simp only [List.length_append]; omega),
        if_pos (by simp only [List.length_append]; omega)]
      simp [sliceTo, sliceFrom]
  rw [loop_line _ _ _ hline2]
  have h1 : header.isPrefixOf (b!"\r\n") = false := by decide
  rw [h1, if_neg (by simp), if_pos (by omega), if_pos rfl, hread]
  simp [hp, hr]

/-- The reader on one line-protocol command. -/
theorem loop_cmd (raises : Bytes → Bool) (n : Nat) (id seq : Int) (t rest : Bytes) :
    loop (fun _ => false) raises n (-1) (frameLine id seq t ++ rest) [] =
      (.cmd id seq (quote t) :: (loop (fun _ => false) raises (n + 1) (-1) rest []).1,
        (loop (fun _ => false) raises (n + 1) (-1) rest []).2) := by
  have hn : (10 : UInt8) ∉ Py.asciiBytes (Py.intStr id) ++ 9 :: (Py.asciiBytes (Py.intStr seq) ++
      9 :: quote t) := by
    simp only [List.mem_append, List.mem_cons, not_or]
    refine ⟨?_, by decide, ?_, by decide, ?_⟩
    · intro h; exact (intBytes_clean _ _ h).1 rfl
    · intro h; exact (intBytes_clean _ _ h).1 rfl
    · intro h; exact (quote_clean _ _ h).1 rfl
  have hline := splitLine_line hn rest
  have hs : frameLine id seq t ++ rest = Py.asciiBytes (Py.intStr id) ++ 9 ::
      (Py.asciiBytes (Py.intStr seq) ++ 9 :: quote t) ++ 10 :: rest := by
    simp [frameLine]
  rw [hs, loop_line _ _ _ hline]
  have hpre : header.isPrefixOf (Py.asciiBytes (Py.intStr id) ++ 9 ::
      (Py.asciiBytes (Py.intStr seq) ++ 9 :: quote t) ++ [10]) = false := by
    cases hh : Py.asciiBytes (Py.intStr id) with
    | nil =>
      have : Py.intStr id = [] := by simpa [Py.asciiBytes] using hh
      exact absurd this (Py.intStr_ne_nil id)
    | cons x xs =>
      have := (intBytes_clean id x (by simp [hh])).2.2.2
      have h67 : ((67 : UInt8) == x) = false := by simpa using fun e => this (by rw [← e])
      simp only [header, List.cons_append, List.isPrefixOf]
      simp [h67]
  rw [hpre, if_neg (by simp), if_neg (by simp), chomp_line hn]
  rw [if_pos]
  · have hp : parseCommand (Py.asciiBytes (Py.intStr id) ++ 9 ::
        (Py.asciiBytes (Py.intStr seq) ++ 9 :: quote t)) = .cmd id seq (quote t) := by
      unfold parseCommand
      rw [cutTab_line (fun h => (intBytes_clean _ _ h).2.1 rfl)]
      simp only
      rw [cutTab_line (fun h => (intBytes_clean _ _ h).2.1 rfl)]
      simp only [parseInt_asChars]
    rw [hp]
  · apply Py.utf8Valid_ascii
    intro x hx
    simp only [List.mem_append, List.mem_cons] at hx
    rcases hx with h | rfl | h | rfl | h
    · exact (intBytes_clean _ _ h).2.2.1
    · decide
    · exact (intBytes_clean _ _ h).2.2.1
    · decide
    · exact (quote_clean _ _ h).2

theorem loop_nil (raises : Bytes → Bool) (n : Nat) (clen : Int) :
    loop (fun _ => false) raises n clen [] [] = ([], .closed) := by
  rw [loop_eq]; simp [readLine, splitLine]

/-- The reader on a whole wire, in one piece. -/
theorem loop_wire (raises : Bytes → Bool) (hr : ∀ p, raises p = false) (msgs : List Message)
    (hs : ∀ m ∈ msgs, Sendable m) (n : Nat) :
    ((loop (fun _ => false) raises n (-1) (msgs.flatMap encode) []).1.filterMap understood = msgs) ∧
    (loop (fun _ => false) raises n (-1) (msgs.flatMap encode) []).2 = .closed ∧
    (∀ e ∈ (loop (fun _ => false) raises n (-1) (msgs.flatMap encode) []).1,
      (∀ l, e ≠ .bad l) ∧ ∀ k, e = .header k → 0 ≤ k) := by
  induction msgs generalizing n with
  | nil => simp [loop_nil]
  | cons m ms ih =>
    have hm := hs m (by simp)
    have ih := fun n => ih (fun x hx => hs x (by simp [hx])) n
    rw [List.flatMap_cons]
    cases m with
    | http p =>
      simp only [encode]
      rw [loop_http raises n p _ hm (hr p)]
      obtain ⟨h1, h2, h3⟩ := ih (n + 3)
      refine ⟨?_, h2, ?_⟩
      · simp only [List.filterMap_cons, understood, h1]
      · intro e he
        simp only [List.mem_cons] at he
        rcases he with rfl | rfl | he
        · simp
        · simp
        · exact h3 e he
    | line id seq t =>
      simp only [encode]
      rw [loop_cmd]
      obtain ⟨h1, h2, h3⟩ := ih (n + 1)
      refine ⟨?_, h2, ?_⟩
      · simp only [List.filterMap_cons, understood, h1, unquote_quote]
      · intro e he
        simp only [List.mem_cons] at he
        rcases he with rfl | he
        · simp
        · exact h3 e he

end Reader
