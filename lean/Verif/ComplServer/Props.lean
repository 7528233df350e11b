import Verif.ComplServer.Lemmas
/-!
C122: the completion server. However the requests arrive in pieces, each is handled once, in order, with the text the
client asked for; each answer can be read back; errors do not end the server; and `sys.path` is what was asked for.
-/

namespace ComplServer
open Spec

/-! ### Reading -/

/-- texts of requests: `@@…END@@` with no other `@`, in ASCII -/
theorem wire_shape {r : Req} {text : Str} (h : Wire r text) :
    ∃ mid, text = c!"@@" ++ mid ++ msgEnd ∧ '@' ∉ mid ∧ ∀ c ∈ text, c.toNat < 128 := by
  have hq : ∀ (pre : Str) {t q : Str}, Quoted t q → '@' ∉ pre → (∀ c ∈ pre, c.toNat < 128) →
      ∃ mid, c!"@@" ++ pre ++ q ++ c!"END@@" = c!"@@" ++ mid ++ msgEnd ∧ '@' ∉ mid ∧ ∀ c ∈ c!"@@" ++ pre ++ q ++ c!"END@@", c.toNat < 128 := by
    intro pre t q hqu hp ha
    refine ⟨pre ++ q, by simp [msgEnd], by simp [hp, hqu.1], ?_⟩
    intro c hc
    simp only [List.append_assoc, List.mem_append] at hc
    rcases hc with hc | hc | hc | hc
    · have h : ∀ c ∈ c!"@@", c.toNat < 128 := by decide
      exact h c hc
    · exact ha c hc
    · exact quoted_ascii hqu c hc
    · have h : ∀ c ∈ c!"END@@", c.toNat < 128 := by decide
      exact h c hc
  cases h with
  | kill => exact ⟨c!"KILL_SERVER_", by decide, by decide, by decide⟩
  | initialPath => exact ⟨c!"PYTHONPATH_", by decide, by decide, by decide⟩
  | imports h => exact hq c!"IMPORTS:" h (by decide) (by decide)
  | jedi h => exact hq c!"MSG_JEDI:" h (by decide) (by decide)
  | search h => exact hq c!"SEARCH" h (by decide) (by decide)
  | path h => exact hq c!"CHANGE_PYTHONPATH:" h (by decide) (by decide)
  | dir h => exact hq c!"CHANGE_DIR:" h (by decide) (by decide)

theorem run_ended (w : World) (s : St) (bs : List Bytes) (h : s.ended.isSome) : run w s bs = s := by
  induction bs with
  | nil => rfl
  | cons b bs ih =>
    show run w (recv w s b) bs = s
    rw [show recv w s b = s by unfold recv; rw [if_pos h], ih]

theorem asChars_append (a b : Bytes) : Py.asChars (a ++ b) = Py.asChars a ++ Py.asChars b := by
  simp [Py.asChars]

/-- a request in pieces is handled once, as a whole -/
theorem recv_pieces (w : World) {mid : Str} (hm : '@' ∉ mid) (pieces : List Bytes) (s : St) (he : s.ended = none)
    (ha : ∀ p ∈ pieces, ∀ x ∈ p, x < 0x80) (hne : ∀ p ∈ pieces, p ≠ [])
    (h : s.data ++ Py.asChars pieces.flatten = c!"@@" ++ mid ++ msgEnd) (hn : Py.isIn msgEnd s.data = false) :
    run w s pieces = handle w (c!"@@" ++ mid ++ msgEnd) { s with data := [] } := by
  induction pieces generalizing s with
  | nil =>
    exfalso
    rw [List.flatten_nil, show Py.asChars [] = [] from rfl, List.append_nil] at h
    rw [h] at hn
    have : Py.isIn msgEnd (c!"@@" ++ mid ++ msgEnd) = true := isIn_iff.2 ⟨c!"@@" ++ mid, [], by simp⟩
    rw [this] at hn; cases hn
  | cons p ps ih =>
    show run w (recv w s p) ps = _
    have hr : recv w s p = if Py.isIn msgEnd (s.data ++ Py.asChars p) then handle w (s.data ++ Py.asChars p) { s with data := [] }
        else { s with data := s.data ++ Py.asChars p } := by
      unfold recv
      rw [he, if_neg (by simp), if_neg (hne p (by simp)), decode_ascii (ha p (by simp))]
    rw [List.flatten_cons, asChars_append, ← List.append_assoc] at h
    rw [hr]
    split
    · rename_i hin
      obtain ⟨a, b, hab⟩ := isIn_iff.1 hin
      have h1 := h
      rw [hab, List.append_assoc] at h1
      have h2 := (end_only hm h1.symm).1
      rw [List.append_eq_nil_iff] at h2
      have h3 : ps.flatten = [] := by
        have := h2.2
        unfold Py.asChars at this
        exact List.map_eq_nil_iff.1 this
      have h4 : ps = [] := by
        cases ps with
        | nil => rfl
        | cons x xs =>
          exfalso
          rw [List.flatten_cons, List.append_eq_nil_iff] at h3
          exact hne x (by simp) h3.1
      rw [h4] at h ⊢
      rw [List.flatten_nil, show Py.asChars [] = [] from rfl, List.append_nil] at h
      rw [h]
      rfl
    · rename_i hin
      exact ih { s with data := s.data ++ Py.asChars p } he (fun q hq => ha q (by simp [hq])) (fun q hq => hne q (by simp [hq])) h
        (by simpa using hin)

theorem asChars_wire {r : Req} {text : Str} (h : Wire r text) : Py.asChars (Py.asciiBytes text) = text := by
  obtain ⟨_, _, _, ha⟩ := wire_shape h
  exact Py.asChars_asciiBytes ha

theorem ascii_lt {text : Str} (h : ∀ c ∈ text, c.toNat < 128) : ∀ x ∈ Py.asciiBytes text, x < 0x80 := by
  intro x hx
  obtain ⟨c, hc, rfl⟩ := List.mem_map.1 hx
  have := h c hc
  rw [UInt8.lt_iff_toNat_lt, UInt8.toNat_ofNat_of_lt' (by simp [UInt8.size]; omega)]
  exact this

/-! ### Handling -/

/-- paths that survive the wire: not empty, without `|` and without white space at their ends -/
def Clean (ps : List Str) : Prop :=
  ∀ p ∈ ps, p ≠ [] ∧ '|' ∉ p ∧ ∀ c, p.head? = some c ∨ p.getLast? = some c → Py.isSpace c = false

/-- the files of the suggestions have no `(` in their names -/
def Plain (w : World) : Prop :=
  ∀ path t f cs, (w.tips path t = .ok (f, cs) ∨ w.jedi path t = .ok (f, cs) ∨ w.search path t = .ok (f, cs)) → '(' ∉ f

/-- paths are clean, and none begins with the directory that was asked for last -/
def Clear : Asked → List Req → Prop
  | _, [] => True
  | a, r :: rs => (∀ ps, r = .path ps → Clean ps ∧ ∀ d, a.last = some d → ps.head? ≠ some d) ∧ Clear (a.next r) rs

structure Inv (a : Asked) (s : St) : Prop where
  path : s.path = a.path
  dir : s.currDir = a.last
  data : s.data = []
  ended : s.ended = none
  front : ∀ d, a.front = some d → a.last = some d
  base : a.front = none → ∀ d, a.last = some d → a.base.head? ≠ some d

theorem strip_of {p : Str} (h : ∀ c, p.head? = some c ∨ p.getLast? = some c → Py.isSpace c = false) : Py.strip p = p := by
  have h1 : Py.lstrip p = p := by
    unfold Py.lstrip
    cases p with
    | nil => rfl
    | cons c p => rw [List.dropWhile_cons, h c (.inl rfl)]; rfl
  unfold Py.strip Py.rstrip
  rw [h1]
  cases hr : p.reverse with
  | nil => rw [List.reverse_eq_nil_iff.1 hr]; rfl
  | cons c l =>
    have hl : p = l.reverse ++ [c] := by rw [← List.reverse_reverse p, hr]; simp
    rw [List.dropWhile_cons, h c (.inr (by rw [hl]; simp)), hl]
    simp

theorem changePath_eq {ps : List Str} (h : Clean ps) (s : St) : changePythonPath (Py.join1 '|' ps) s = { s with path := ps } := by
  unfold changePythonPath
  have : ((Py.split1 '|' (Py.join1 '|' ps)).map Py.strip).filter (fun x => decide (x.length > 0)) = ps := by
    by_cases hn : ps = []
    · subst hn; decide
    · rw [Py.split1_join1 _ _ hn fun w hw => (h w hw).2.1]
      have : ps.map Py.strip = ps := by
        conv => rhs; rw [← List.map_id ps]
        exact List.map_congr_left fun p hp => strip_of (h p hp).2.2
      rw [this, List.filter_eq_self]
      intro p hp
      simpa [List.length_pos_iff] using (h p hp).1
  rw [this]

theorem says_found {r : Except Str (Str × List Comp)} (h : ∀ f cs, r = .ok (f, cs) → '(' ∉ f) (s : St) :
    ∃ m, sendFound r s = send m s ∧ Says m (answerOf r) := by
  match r with
  | .ok (f, cs) =>
    refine ⟨_, rfl, ?_⟩
    show Spec.read _ = _
    rw [read_message f cs (h f cs rfl)]
    simp
  | .error e =>
    refine ⟨_, rfl, ?_⟩
    show Spec.read _ = _
    rw [read_message _ _ (by decide)]
    rfl

/-- the handling of a request that is not `kill` or `initialPath` -/
theorem handle_data (w : World) (pre q : Str) (s : St) (c : Char) (pre' : Str) (hp : pre = '@' :: '@' :: c :: pre')
    (hc : c ≠ 'K' ∧ c ≠ 'P') (h1 : '@' ∉ c :: pre') (hq : '@' ∉ q) :
    handle w (pre ++ q ++ c!"END@@") s =
      (if Py.startsWith (pre ++ q) msgImports then sendFound (w.tips s.path (payload msgImports (pre ++ q))) s
      else if Py.startsWith (pre ++ q) msgChangePythonpath then send msgOk (changePythonPath (payload msgChangePythonpath (pre ++ q)) s)
      else if Py.startsWith (pre ++ q) msgJedi then sendFound (w.jedi s.path (payload msgJedi (pre ++ q))) s
      else if Py.startsWith (pre ++ q) msgSearch then sendFound (w.search s.path (payload msgSearch (pre ++ q))) s
      else if Py.startsWith (pre ++ q) msgChangeDir then send msgOk (completeFromDir (payload msgChangeDir (pre ++ q)) s)
      else send msgInvalid s) := by
  have hm : '@' ∉ c :: pre' ++ q := by
    rw [List.mem_append, not_or]; exact ⟨h1, hq⟩
  have e : pre ++ q ++ c!"END@@" = c!"@@" ++ (c :: pre' ++ q) ++ msgEnd := by rw [hp]; simp [msgEnd]
  have e2 : pre ++ q = c!"@@" ++ (c :: pre' ++ q) := by rw [hp]; rfl
  have hk : Py.isIn msgKill (c!"@@" ++ (c :: pre' ++ q) ++ msgEnd) = false := by
    rw [← Bool.not_eq_true]
    intro h
    have := start_only (c := 'K') (p := c!"ILL_SERVER_END@@") hm (by decide) h
    obtain ⟨b, hb⟩ := this
    simp only [List.cons_append, List.nil_append, List.cons.injEq] at hb
    exact hc.1 hb.2.2.1.symm
  have hpp : Py.isIn msgPythonpath (c!"@@" ++ (c :: pre' ++ q) ++ msgEnd) = false := by
    rw [← Bool.not_eq_true]
    intro h
    have := start_only (c := 'P') (p := c!"YTHONPATH_END@@") hm (by decide) h
    obtain ⟨b, hb⟩ := this
    simp only [List.cons_append, List.nil_append, List.cons.injEq] at hb
    exact hc.2 hb.2.2.1.symm
  rw [e]
  unfold handle
  rw [hk, hpp, if_neg (by decide), if_neg (by decide)]
  dsimp only
  rw [rfind_end hm, e2]

theorem payload_eq {pre t q : Str} (h : Quoted t q) : payload pre (pre ++ q) = t := by
  unfold payload
  rw [List.drop_left, unquotePlus_of h]

theorem starts_self (pre q : Str) : Py.startsWith (pre ++ q) pre = true := by
  rw [Py.startsWith_iff]; exact List.prefix_append _ _

/-- one request -/
theorem handle_wire {w : World} (hw : Plain w) {r : Req} {text : Str} {a : Asked} {s : St} (h : Wire r text) (hi : Inv a s)
    (hc : ∀ ps, r = .path ps → Clean ps ∧ ∀ d, a.last = some d → ps.head? ≠ some d) :
    ∃ m, (handle w text s).sent = s.sent ++ [m] ∧ Says m (answer w a r) ∧ (r = .kill → (handle w text s).ended = some .killed) ∧
      (r ≠ .kill → Inv (a.next r) (handle w text s)) := by
  have send_inv : ∀ m, Inv a (send m s) := fun m => ⟨hi.path, hi.dir, hi.data, hi.ended, hi.front, hi.base⟩
  cases h with
  | kill =>
    have e : handle w c!"@@KILL_SERVER_END@@" s =
        { send (formatMessage c!"None" [⟨c!"Exit:", c!"SystemExit", [[]]⟩]) s with ended := some .killed } := by
      unfold handle; rw [if_pos (by decide)]
    rw [e]
    refine ⟨_, rfl, ?_, fun _ => rfl, fun h => absurd rfl h⟩
    show Spec.read _ = _
    rw [read_message _ _ (by decide)]
    rfl
  | initialPath =>
    have e : handle w c!"@@PYTHONPATH_END@@" s = send (formatMessage c!"None" (w.initial.map fun p => ⟨p, [' '], []⟩)) s := by
      unfold handle; rw [if_neg (by decide), if_pos (by decide)]
    rw [e]
    refine ⟨_, rfl, ?_, fun h => (by cases h), fun _ => send_inv _⟩
    show Spec.read _ = _
    rw [read_message _ _ (by decide)]
    simp [texts, Function.comp_def]
  | @imports t q hq =>
    rw [handle_data w _ q s 'I' c!"MPORTS:" rfl (by decide) (by decide) hq.1, if_pos (show Py.startsWith (c!"@@IMPORTS:" ++ q) msgImports = true from starts_self _ _)]
    rw [show payload msgImports (c!"@@IMPORTS:" ++ q) = t from payload_eq hq, hi.path]
    obtain ⟨m, hm, hs⟩ := says_found (r := w.tips a.path t) (fun f cs h => hw _ _ f cs (.inl h)) s
    rw [hm]
    exact ⟨m, rfl, hs, fun h => (by cases h), fun _ => send_inv _⟩
  | @jedi t q hq =>
    rw [handle_data w _ q s 'M' c!"SG_JEDI:" rfl (by decide) (by decide) hq.1, if_neg (by simp [Py.startsWith, msgImports]),
      if_neg (by simp [Py.startsWith, msgChangePythonpath]), if_pos (show Py.startsWith (c!"@@MSG_JEDI:" ++ q) msgJedi = true from starts_self _ _)]
    rw [show payload msgJedi (c!"@@MSG_JEDI:" ++ q) = t from payload_eq hq, hi.path]
    obtain ⟨m, hm, hs⟩ := says_found (r := w.jedi a.path t) (fun f cs h => hw _ _ f cs (.inr (.inl h))) s
    rw [hm]
    exact ⟨m, rfl, hs, fun h => (by cases h), fun _ => send_inv _⟩
  | @search t q hq =>
    rw [handle_data w _ q s 'S' c!"EARCH" rfl (by decide) (by decide) hq.1, if_neg (by simp [Py.startsWith, msgImports]),
      if_neg (by simp [Py.startsWith, msgChangePythonpath]), if_neg (by simp [Py.startsWith, msgJedi]), if_pos (show Py.startsWith (c!"@@SEARCH" ++ q) msgSearch = true from starts_self _ _)]
    rw [show payload msgSearch (c!"@@SEARCH" ++ q) = t from payload_eq hq, hi.path]
    obtain ⟨m, hm, hs⟩ := says_found (r := w.search a.path t) (fun f cs h => hw _ _ f cs (.inr (.inr h))) s
    rw [hm]
    exact ⟨m, rfl, hs, fun h => (by cases h), fun _ => send_inv _⟩
  | @path ps q hq =>
    rw [handle_data w _ q s 'C' c!"HANGE_PYTHONPATH:" rfl (by decide) (by decide) hq.1, if_neg (by simp [Py.startsWith, msgImports]),
      if_pos (show Py.startsWith (c!"@@CHANGE_PYTHONPATH:" ++ q) msgChangePythonpath = true from starts_self _ _)]
    rw [show payload msgChangePythonpath (c!"@@CHANGE_PYTHONPATH:" ++ q) = Py.join1 '|' ps from payload_eq hq, changePath_eq (hc ps rfl).1]
    refine ⟨_, rfl, rfl, fun h => (by cases h), fun _ => ⟨?_, hi.dir, hi.data, hi.ended, ?_, ?_⟩⟩
    · rfl
    · intro d hd; cases hd
    · intro _ d hd
      exact (hc ps rfl).2 d hd
  | @dir d q hq =>
    rw [handle_data w _ q s 'C' c!"HANGE_DIR:" rfl (by decide) (by decide) hq.1, if_neg (by simp [Py.startsWith, msgImports]),
      if_neg (by simp [Py.startsWith, msgChangePythonpath]), if_neg (by simp [Py.startsWith, msgJedi]),
      if_neg (by simp [Py.startsWith, msgSearch]), if_pos (show Py.startsWith (c!"@@CHANGE_DIR:" ++ q) msgChangeDir = true from starts_self _ _)]
    rw [show payload msgChangeDir (c!"@@CHANGE_DIR:" ++ q) = d from payload_eq hq]
    refine ⟨_, rfl, rfl, fun h => (by cases h), fun _ => ⟨?_, rfl, hi.data, hi.ended, ?_, ?_⟩⟩
    · show d :: _ = d :: a.base
      rw [hi.dir, hi.path]
      congr 1
      cases hl : a.last with
      | none =>
        cases hf : a.front with
        | none => simp [Asked.path, hf]
        | some x => rw [hi.front x hf] at hl; cases hl
      | some x =>
        cases hf : a.front with
        | none =>
          have := hi.base hf x hl
          simp [Asked.path, hf, this]
        | some y =>
          have := hi.front y hf
          rw [hl] at this
          cases this
          simp [Asked.path, hf]
    · intro x hx; exact hx
    · intro h; cases h

/-! ### The theorems -/

/-- **C122**: a client that sends each request in any number of pieces and waits for its answer gets exactly the answers
to its requests, in order, each readable; after `kill` there are no more. An error while completions are looked for is an
answer like the others, and does not end the server. -/
theorem c122_answers {w : World} (hw : Plain w) {rs : List Req} {bs : List Bytes} (h : Sent rs bs) (path : List Str)
    (hc : Clear ⟨path, none, none⟩ rs) :
    SaysAll (run w { path := path } bs).sent (answers w ⟨path, none, none⟩ rs) := by
  have main : ∀ (a : Asked) (s : St), Inv a s → Clear a rs → ∃ ms, (run w s bs).sent = s.sent ++ ms ∧ SaysAll ms (answers w a rs) := by
    clear hc
    induction h with
    | nil => intro a s _ _; exact ⟨[], by simp [run], trivial⟩
    | @cons r rs text pieces bs hwire hfl hne _ ih =>
      intro a s hi hc
      obtain ⟨mid, ht, hm, ha⟩ := wire_shape hwire
      have hrun : run w s pieces = handle w text s := by
        have := recv_pieces w hm pieces s hi.ended
          (fun p hp x hx => ascii_lt ha x (by rw [← hfl]; exact List.mem_flatten.2 ⟨p, hp, hx⟩)) hne
          (by rw [hi.data, hfl, asChars_wire hwire, List.nil_append, ht]) (by rw [hi.data]; decide)
        rw [this, ← ht]
        congr 1
        have := hi.data
        cases s
        simp_all
      have happ : run w s (pieces ++ bs) = run w (handle w text s) bs := by
        unfold run at hrun ⊢
        rw [List.foldl_append, hrun]
      obtain ⟨m, h1, h2, h3, h4⟩ := handle_wire hw hwire hi hc.1
      rw [happ]
      by_cases hk : r = .kill
      · subst hk
        rw [run_ended _ _ _ (by rw [h3 rfl]; rfl), h1]
        exact ⟨[m], rfl, h2, trivial⟩
      · obtain ⟨ms, g1, g2⟩ := ih _ _ (h4 hk) hc.2
        refine ⟨m :: ms, by rw [g1, h1]; simp, ?_⟩
        have : answers w a (r :: rs) = answer w a r :: answers w (a.next r) rs := by
          cases r <;> first | rfl | exact absurd rfl hk
        rw [this]
        exact ⟨h2, g2⟩
  obtain ⟨ms, h1, h2⟩ := main ⟨path, none, none⟩ { path := path } ⟨rfl, rfl, rfl, rfl, fun d h => (by cases h), fun _ d h => (by cases h)⟩ hc
  rw [h1]
  simpa using h2

/-- **C122**: the module search path is what was asked for: the paths of the last request for paths, preceded by the
directory of a later request for a directory. -/
theorem c122_path {w : World} (hw : Plain w) {rs : List Req} {bs : List Bytes} (h : Sent rs bs) (hk : Req.kill ∉ rs) (path : List Str)
    (hc : Clear ⟨path, none, none⟩ rs) :
    (run w { path := path } bs).path = (rs.foldl Asked.next ⟨path, none, none⟩).path ∧ (run w { path := path } bs).ended = none := by
  have main : ∀ (a : Asked) (s : St), Inv a s → Clear a rs → Inv (rs.foldl Asked.next a) (run w s bs) := by
    clear hc
    induction h with
    | nil => intro a s hi _; exact hi
    | @cons r rs text pieces bs hwire hfl hne _ ih =>
      intro a s hi hc
      obtain ⟨mid, ht, hm, ha⟩ := wire_shape hwire
      have hrun : run w s pieces = handle w text s := by
        have := recv_pieces w hm pieces s hi.ended
          (fun p hp x hx => ascii_lt ha x (by rw [← hfl]; exact List.mem_flatten.2 ⟨p, hp, hx⟩)) hne
          (by rw [hi.data, hfl, asChars_wire hwire, List.nil_append, ht]) (by rw [hi.data]; decide)
        rw [this, ← ht]
        congr 1
        have := hi.data
        cases s
        simp_all
      have happ : run w s (pieces ++ bs) = run w (handle w text s) bs := by
        unfold run at hrun ⊢
        rw [List.foldl_append, hrun]
      obtain ⟨m, _, _, _, h4⟩ := handle_wire hw hwire hi hc.1
      rw [happ, List.foldl_cons]
      exact ih (fun h => hk (by simp [h])) _ _ (h4 fun h => hk (by simp [h])) hc.2
  have := main ⟨path, none, none⟩ { path := path } ⟨rfl, rfl, rfl, rfl, fun d h => (by cases h), fun _ d h => (by cases h)⟩ hc
  exact ⟨this.path, this.ended⟩

/-- **C122**: a message with suggestions ends where its only `END@@` is, so a client that reads up to it has all of it. -/
theorem c122_message_end (f : Str) (cs : List Comp) (hf : '@' ∉ f) {a b : Str} (h : formatMessage f cs = a ++ c!"END@@" ++ b) : b = [] := by
  have e : formatMessage f cs = c!"@@" ++ (c!"COMPLETIONS(" ++ f ++ cs.flatMap formatComp ++ [')']) ++ msgEnd := by
    simp [formatMessage, msgCompletions]
  rw [e] at h
  refine (end_only ?_ h).1
  have hcs : '@' ∉ cs.flatMap formatComp := by
    intro hm
    obtain ⟨t, _, ht⟩ := List.mem_flatMap.1 hm
    rw [formatComp_eq] at ht
    simp only [List.mem_cons, List.mem_append, List.not_mem_nil, or_false] at ht
    rcases ht with h | h | h | h
    · cases h
    · cases h
    · exact inner_not (by decide) (by decide) (by decide) (by decide) (by decide) h
    · cases h
  simp [hf, hcs]

/-- **C122**: two messages with the same text carry the same file and suggestions. -/
theorem c122_message_injective {f g : Str} {cs ds : List Comp} (hf : '(' ∉ f) (hg : '(' ∉ g) (h : formatMessage f cs = formatMessage g ds) :
    f = g ∧ cs.map texts = ds.map texts := by
  have h1 := read_message f cs hf
  rw [h, read_message g ds hg] at h1
  simp only [Option.some.injEq, Prod.mk.injEq] at h1
  refine ⟨h1.1.symm, ?_⟩
  have h2 := h1.2.symm
  clear h h1 hf hg
  induction cs generalizing ds with
  | nil => cases ds with | nil => rfl | cons d ds => cases h2
  | cons c cs ih =>
    cases ds with
    | nil => cases h2
    | cons d ds =>
      simp only [List.map_cons, List.cons.injEq] at h2 ⊢
      refine ⟨?_, ih h2.2⟩
      have inj : ∀ {l m : List Str}, l.map Py.utf8 = m.map Py.utf8 → l = m := by
        intro l
        induction l with
        | nil => intro m hm; cases m with | nil => rfl | cons x m => cases hm
        | cons y l ihl =>
          intro m hm
          cases m with
          | nil => cases hm
          | cons x m =>
            simp only [List.map_cons, List.cons.injEq] at hm
            rw [Py.utf8_inj hm.1, ihl hm.2]
      exact inj h2.1

/-! ### Cases -/

def quiet : World :=
  { tips := fun _ t => if t = c!"bad name" then .error c!"ImportError" else .ok (c!"/a, b/m.py", [⟨c!"f(x)", [], [c!"(x, é)", c!"2"]⟩]),
    jedi := fun _ _ => .error c!"ValueError", search := fun p _ => .ok (c!"f.py", [⟨p.headD [], c!"0", []⟩]), initial := [c!"/lib"] }

example : Plain quiet := by
  intro path t f cs h
  rcases h with h | h | h
  · simp only [quiet] at h
    split at h
    · cases h
    · cases h; decide
  · cases h
  · cases h; decide

/-- a history with an error in the middle -/
def history : List Req := [.dir c!"/src", .imports c!"bad name", .path [c!"/b", c!"/c"], .dir c!"/e", .search c!"x"]

def pieces : List Bytes := [b!"@@CHANGE_", b!"DIR:%2Fsr", b!"cEN", b!"D@@", b!"@@IMPORTS:bad+nameEND@@", b!"@@CHANGE_PYTHONPATH:/b|/c", b!"END@", b!"@",
  b!"@@CHANGE_DIR:/eEND@@", b!"@@SEARCHxEND@@"]

theorem history_sent : Sent history pieces := by
  refine .cons (pieces := pieces.take 4) (bs := pieces.drop 4) (text := c!"@@CHANGE_DIR:%2FsrcEND@@")
    (.dir (q := c!"%2Fsrc") (by unfold Quoted; decide +kernel)) (by decide) (by decide) ?_
  refine .cons (pieces := (pieces.drop 4).take 1) (bs := pieces.drop 5) (text := c!"@@IMPORTS:bad+nameEND@@")
    (.imports (q := c!"bad+name") (by unfold Quoted; decide +kernel)) (by decide) (by decide) ?_
  refine .cons (pieces := (pieces.drop 5).take 3) (bs := pieces.drop 8) (text := c!"@@CHANGE_PYTHONPATH:/b|/cEND@@")
    (.path (q := c!"/b|/c") (by unfold Quoted; decide +kernel)) (by decide) (by decide) ?_
  refine .cons (pieces := (pieces.drop 8).take 1) (bs := pieces.drop 9) (text := c!"@@CHANGE_DIR:/eEND@@")
    (.dir (q := c!"/e") (by unfold Quoted; decide +kernel)) (by decide) (by decide) ?_
  exact .cons (pieces := pieces.drop 9) (bs := []) (text := c!"@@SEARCHxEND@@")
    (.search (q := c!"x") (by unfold Quoted; decide +kernel)) (by decide) (by decide) .nil

theorem history_clear : Clear ⟨[c!"/lib"], none, none⟩ history := by
  refine ⟨fun _ h => (by cases h), fun _ h => (by cases h), ?_, fun _ h => (by cases h), fun _ h => (by cases h), trivial⟩
  intro ps h
  cases h
  refine ⟨?_, ?_⟩
  · intro p hp
    simp only [List.mem_cons, List.not_mem_nil, or_false] at hp
    rcases hp with rfl | rfl
    · refine ⟨by decide, by decide, ?_⟩
      intro c hc; simp at hc; rcases hc with rfl | rfl <;> decide
    · refine ⟨by decide, by decide, ?_⟩
      intro c hc; simp at hc; rcases hc with rfl | rfl <;> decide
  · intro d hd
    cases hd
    decide

example : (run quiet { path := [c!"/lib"] } pieces).sent = [c!"@@MSG_OK_END@@", c!"@@COMPLETIONS(None,(ERROR%3A,ImportError, ))END@@",
    c!"@@MSG_OK_END@@", c!"@@MSG_OK_END@@", c!"@@COMPLETIONS(f.py,(%2Fe,0))END@@"] := by decide +kernel

example : formatMessage c!"/a, b/m.py" [⟨c!"f(x)", [], [c!"(x, é)", c!"2"]⟩] =
    c!"@@COMPLETIONS(/a, b/m.py,(f%28x%29, ,%28x%2C+%C3%A9%29,2))END@@" := by decide +kernel

/-! ### Where it fails -/

/-- Two requests that arrive together are taken as one: the directory is `/aEND@@@@CHANGE_DIR:/b`, and there is one answer. -/
theorem c122_together_witness : (run quiet { path := [] } [b!"@@CHANGE_DIR:/aEND@@@@CHANGE_DIR:/bEND@@"]).path = [c!"/aEND@@@@CHANGE_DIR:/b"] ∧
    (run quiet { path := [] } [b!"@@CHANGE_DIR:/aEND@@@@CHANGE_DIR:/bEND@@"]).sent = [c!"@@MSG_OK_END@@"] := by decide +kernel

/-- A character of several bytes that is split between two reads ends the server, although the whole text is well-formed. -/
theorem c122_split_character_witness : (run quiet { path := [] } [b!"@@CHANGE_DIR:/" ++ [0xC3], [0xA9] ++ b!"END@@"]).ended = some .crashed ∧
    Py.utf8Valid (b!"@@CHANGE_DIR:/" ++ [0xC3] ++ [0xA9] ++ b!"END@@") = true := by decide +kernel

/-- When the new paths begin with the directory that was asked for last, the next request for a directory removes it from
the paths. -/
theorem c122_path_lost_witness : (run quiet { path := [] } [b!"@@CHANGE_DIR:/aEND@@", b!"@@CHANGE_PYTHONPATH:/a|/bEND@@", b!"@@CHANGE_DIR:/cEND@@"]).path =
    [c!"/c", c!"/b"] := by decide +kernel

/-- The name of the file is not quoted: two different answers have the same text. -/
theorem c122_file_not_quoted_witness : formatMessage c!"f,(a,b)" [] = formatMessage c!"f" [⟨c!"a", c!"b", []⟩] := by decide +kernel

/-- The answer to a request that is not understood has no end marker: a client that reads up to it waits forever. -/
theorem c122_invalid_request_witness : (run quiet { path := [] } [b!"@@WHATEND@@"]).sent = [c!"@@INVALID_REQUEST"] ∧
    Py.isIn c!"END@@" c!"@@INVALID_REQUEST" = false := by decide +kernel

end ComplServer
