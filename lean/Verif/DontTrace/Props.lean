import Verif.DontTrace.Model
/-!
# C80: which functions are not traced
-/
namespace DontTrace

/-! ## Specification -/

/-- The line has a comment, from its first `#` on, with the tag in it. -/
def Tagged (l : Line) : Prop := ∃ code a b, l = code ++ '#' :: a ++ tag ++ b ∧ '#' ∉ code

/-- The line is a decorator. -/
def Deco (sp : Char → Bool) (l : Line) : Prop := ∃ w r, l = w ++ '@' :: r ∧ (∀ c ∈ w, sp c = true)

/-- A line (from 0) is covered by a tag: it is tagged, or only decorators are between it, itself
included, and a tagged line. -/
def Covered (sp : Char → Bool) (lines : List Line) (i : Nat) : Prop :=
  ∃ j t, lines[j]? = some t ∧ Tagged t ∧
    ((i ≤ j ∧ ∀ k, i ≤ k → k < j → ∃ d, lines[k]? = some d ∧ Deco sp d) ∨
     (j ≤ i ∧ ∀ k, j < k → k ≤ i → ∃ d, lines[k]? = some d ∧ Deco sp d))

/-- A tag is on the last line, or followed by decorators only. -/
def TagAtEnd (sp : Char → Bool) (lines : List Line) : Prop :=
  ∃ (j : Nat) (t : Line), lines[j]? = some t ∧ Tagged t ∧ ∀ (k : Nat) d, j < k → lines[k]? = some d → Deco sp d

/-- What should be skipped: functions whose first line, or the line before it, is covered. Lines of code
start at one. -/
def Skip (sp : Char → Bool) (lines : List Line) (first : Nat) : Prop :=
  ∃ i, Covered sp lines i ∧ (i + 1 = first ∨ i + 2 = first)

/-! ## Proof -/

theorem isDeco_iff (sp : Char → Bool) (l : Line) : isDeco sp l = true ↔ Deco sp l := by
  induction l with
  | nil => simp [isDeco, Deco]
  | cons c cs ih =>
    simp only [isDeco, Bool.or_eq_true, beq_iff_eq, Bool.and_eq_true, ih]
    constructor
    · rintro (rfl | ⟨h, w, r, rfl, hw⟩)
      · exact ⟨[], cs, rfl, by simp⟩
      · exact ⟨c :: w, r, rfl, by simp [h]; exact hw⟩
    · rintro ⟨w, r, h, hw⟩
      cases w with
      | nil => simp at h; exact .inl h.1
      | cons d w =>
        simp only [List.cons_append, List.cons.injEq] at h
        obtain ⟨rfl, rfl⟩ := h
        exact .inr ⟨hw c (by simp), w, r, rfl, fun x hx => hw x (by simp [hx])⟩

theorem find_hash (l : Line) :
    match Py.find ['#'] l with
    | none => '#' ∉ l
    | some j => ∃ a b, l = a ++ '#' :: b ∧ '#' ∉ a ∧ l.drop j = '#' :: b := by
  induction l with
  | nil => simp [Py.find]
  | cons c cs ih =>
    simp only [Py.find]
    by_cases h : c = '#'
    · subst h
      rw [if_pos (by simp [List.isPrefixOf])]
      exact ⟨[], cs, rfl, by simp, rfl⟩
    · rw [if_neg (by simp [List.isPrefixOf]; exact fun e => h e.symm)]
      cases hf : Py.find ['#'] cs with
      | none =>
        rw [hf] at ih
        simp only [Option.map_none, List.mem_cons, not_or]
        exact ⟨fun e => h e.symm, ih⟩
      | some j =>
        rw [hf] at ih
        obtain ⟨a, b, h1, h2, h3⟩ := ih
        refine ⟨c :: a, b, by simp [h1], ?_, by simpa using h3⟩
        simp only [List.mem_cons, not_or]
        exact ⟨fun e => h e.symm, h2⟩

theorem isIn_iff (p s : Line) : Py.isIn p s = true ↔ ∃ a b, s = a ++ p ++ b := by
  induction s with
  | nil =>
    simp only [Py.isIn, Py.find]
    by_cases h : p = []
    · subst h; simp
    · simp [h]
  | cons c cs ih =>
    simp only [Py.isIn, Py.find] at ih ⊢
    by_cases h : p.isPrefixOf (c :: cs)
    · rw [if_pos h]
      simp only [Option.isSome_some, true_iff]
      rw [List.isPrefixOf_iff_prefix] at h
      obtain ⟨t, ht⟩ := h
      exact ⟨[], t, by simp [ht]⟩
    · rw [if_neg h, Option.isSome_map, ih]
      constructor
      · rintro ⟨a, b, rfl⟩; exact ⟨c :: a, b, rfl⟩
      · rintro ⟨a, b, e⟩
        cases a with
        | nil => exact absurd (by rw [List.isPrefixOf_iff_prefix]; exact ⟨b, by simpa using e.symm⟩) h
        | cons d a =>
          simp only [List.cons_append, List.cons.injEq] at e
          exact ⟨a, b, e.2⟩

theorem first_hash {a b a' b' : Line} (e : a ++ '#' :: b = a' ++ '#' :: b') (h : '#' ∉ a) (h' : '#' ∉ a') : a = a' ∧ b = b' := by
  induction a generalizing a' with
  | nil =>
    cases a' with
    | nil => simpa using e
    | cons d a' => simp only [List.nil_append, List.cons_append, List.cons.injEq] at e; exact absurd (by rw [e.1]; simp) h'
  | cons c a ih =>
    cases a' with
    | nil => simp only [List.nil_append, List.cons_append, List.cons.injEq] at e; exact absurd (by rw [e.1]; simp) h
    | cons d a' =>
      simp only [List.cons_append, List.cons.injEq] at e
      obtain ⟨h1, h2⟩ := ih e.2 (fun m => h (by simp [m])) (fun m => h' (by simp [m]))
      exact ⟨by rw [e.1, h1], h2⟩

theorem hasTag_iff (l : Line) : hasTag l = true ↔ Tagged l := by
  have hf := find_hash l
  unfold hasTag
  cases hj : Py.find ['#'] l with
  | none =>
    rw [hj] at hf
    simp only [Bool.false_eq_true, false_iff]
    rintro ⟨code, a, b, rfl, _⟩
    exact hf (by simp)
  | some j =>
    rw [hj] at hf
    obtain ⟨a, b, h1, h2, h3⟩ := hf
    simp only [h3, isIn_iff]
    constructor
    · rintro ⟨x, y, e⟩
      cases x with
      | nil => simp [tag] at e
      | cons c x =>
        simp only [List.cons_append, List.cons.injEq] at e
        exact ⟨a, x, y, by rw [h1, e.2]; simp, h2⟩
    · rintro ⟨code, x, y, e, hc⟩
      rw [h1] at e
      have e : a ++ '#' :: b = code ++ '#' :: (x ++ tag ++ y) := by rw [e]; simp
      obtain ⟨-, rfl⟩ := first_hash e h2 hc
      exact ⟨'#' :: x, y, by simp⟩

theorem mem_markUp (sp : Char → Bool) (lines : List Line) (k : Nat) (hk : k ≤ lines.length) (acc : List Nat) (i : Nat) :
    i ∈ markUp sp lines k acc ↔ i ∈ acc ∨ (i < k ∧ ∀ m, i ≤ m → m < k → ∃ d, lines[m]? = some d ∧ Deco sp d) := by
  induction k generalizing acc with
  | zero => simp [markUp]
  | succ k ih =>
    have hl : lines[k]? = some (lines.getD k []) := by
      simp [List.getD_eq_getElem?_getD, List.getElem?_eq_getElem (show k < lines.length by omega)]
    rw [markUp]
    by_cases hd : isDeco sp (lines.getD k [])
    · rw [if_pos hd, ih (by omega)]
      rw [isDeco_iff] at hd
      constructor
      · rintro (h | ⟨h1, h2⟩)
        · rcases List.mem_cons.1 h with rfl | h
          · refine .inr ⟨by omega, ?_⟩
            intro m h1 h2
            have : m = i := by omega
            subst this
            exact ⟨_, hl, hd⟩
          · exact .inl h
        · refine .inr ⟨by omega, ?_⟩
          intro m h3 h4
          by_cases e : m = k
          · subst e; exact ⟨_, hl, hd⟩
          · exact h2 m h3 (by omega)
      · rintro (h | ⟨h1, h2⟩)
        · exact .inl (by simp [h])
        · by_cases e : i = k
          · exact .inl (by simp [e])
          · exact .inr ⟨by omega, fun m h3 h4 => h2 m h3 (by omega)⟩
    · rw [if_neg hd]
      rw [isDeco_iff] at hd
      constructor
      · exact .inl
      · rintro (h | ⟨h1, h2⟩)
        · exact h
        · obtain ⟨d, h3, h4⟩ := h2 k (by omega) (by omega)
          rw [hl] at h3
          simp only [Option.some.injEq] at h3
          rw [h3] at hd
          exact absurd h4 hd

/-- The loop downwards, from the lines which are left. -/
theorem markDown_spec (sp : Char → Bool) (ls : List Line) (k : Nat) (acc : List Nat) :
    match markDown sp ls k acc with
    | none => ∀ d ∈ ls, Deco sp d
    | some r => (∃ d ∈ ls, ¬ Deco sp d) ∧ ∀ i, i ∈ r ↔ i ∈ acc ∨ (k ≤ i ∧ ∀ m, k ≤ m → m ≤ i → ∃ d, ls[m - k]? = some d ∧ Deco sp d) := by
  induction ls generalizing k acc with
  | nil => simp [markDown]
  | cons l ls ih =>
    rw [markDown]
    by_cases hd : isDeco sp l
    · rw [if_pos hd]
      rw [isDeco_iff] at hd
      have ih := ih (k + 1) (k :: acc)
      cases hm : markDown sp ls (k + 1) (k :: acc) with
      | none =>
        rw [hm] at ih
        intro d h
        rcases List.mem_cons.1 h with rfl | h
        · exact hd
        · exact ih d h
      | some r =>
        rw [hm] at ih
        obtain ⟨⟨d, h1, h2⟩, ih⟩ := ih
        refine ⟨⟨d, by simp [h1], h2⟩, ?_⟩
        intro i
        rw [ih]
        constructor
        · rintro (h | ⟨h1, h2⟩)
          · rcases List.mem_cons.1 h with rfl | h
            · refine .inr ⟨by omega, ?_⟩
              intro m h1 h2
              have : m = i := by omega
              subst this
              exact ⟨l, by simp, hd⟩
            · exact .inl h
          · refine .inr ⟨by omega, ?_⟩
            intro m h3 h4
            by_cases e : m = k
            · subst e; exact ⟨l, by simp, hd⟩
            · obtain ⟨d, h5, h6⟩ := h2 m (by omega) h4
              refine ⟨d, ?_, h6⟩
              rw [show m - k = (m - (k + 1)) + 1 by omega, List.getElem?_cons_succ]
              exact h5
        · rintro (h | ⟨h1, h2⟩)
          · exact .inl (by simp [h])
          · by_cases e : i = k
            · exact .inl (by simp [e])
            · refine .inr ⟨by omega, ?_⟩
              intro m h3 h4
              obtain ⟨d, h5, h6⟩ := h2 m (by omega) h4
              rw [show m - k = (m - (k + 1)) + 1 by omega, List.getElem?_cons_succ] at h5
              exact ⟨d, h5, h6⟩
    · rw [if_neg hd]
      rw [isDeco_iff] at hd
      refine ⟨⟨l, by simp, hd⟩, ?_⟩
      intro i
      constructor
      · exact .inl
      · rintro (h | ⟨h1, h2⟩)
        · exact h
        · obtain ⟨d, h3, h4⟩ := h2 k (by omega) h1
          simp at h3
          subst h3
          exact absurd h4 hd

/-- Covered by a tag at line `j`. -/
def CoveredBy (sp : Char → Bool) (lines : List Line) (i j : Nat) : Prop :=
  (i ≤ j ∧ ∀ k, i ≤ k → k < j → ∃ d, lines[k]? = some d ∧ Deco sp d) ∨
  (j ≤ i ∧ ∀ k, j < k → k ≤ i → ∃ d, lines[k]? = some d ∧ Deco sp d)

theorem scan_spec (sp : Char → Bool) (pre ls : List Line) (acc : List Nat) :
    match scan sp (pre ++ ls) ls pre.length acc with
    | none => ∃ (j : Nat) (t : Line), ls[j]? = some t ∧ Tagged t ∧ ∀ (k : Nat) d, j < k → ls[k]? = some d → Deco sp d
    | some r => (¬ ∃ (j : Nat) (t : Line), ls[j]? = some t ∧ Tagged t ∧ ∀ (k : Nat) d, j < k → ls[k]? = some d → Deco sp d) ∧
      ∀ i, i ∈ r ↔ i ∈ acc ∨ ∃ j t, ls[j]? = some t ∧ Tagged t ∧ CoveredBy sp (pre ++ ls) i (pre.length + j) := by
  induction ls generalizing pre acc with
  | nil => simp [scan]
  | cons l ls ih =>
    have shift : ∀ acc', scan sp (pre ++ l :: ls) ls (pre.length + 1) acc' = scan sp ((pre ++ [l]) ++ ls) ls (pre ++ [l]).length acc' := by
      intro acc'; simp
    rw [scan]
    by_cases ht : hasTag l
    · rw [if_pos ht]
      rw [hasTag_iff] at ht
      have hd := markDown_spec sp ls (pre.length + 1) (markUp sp (pre ++ l :: ls) pre.length (pre.length :: acc))
      cases hm : markDown sp ls (pre.length + 1) (markUp sp (pre ++ l :: ls) pre.length (pre.length :: acc)) with
      | none =>
        rw [hm] at hd
        refine ⟨0, l, rfl, ht, ?_⟩
        intro k d hk h
        obtain ⟨k, rfl⟩ : ∃ k', k = k' + 1 := ⟨k - 1, by omega⟩
        rw [List.getElem?_cons_succ] at h
        exact hd d (List.mem_of_getElem? h)
      | some acc' =>
        rw [hm] at hd
        obtain ⟨⟨d, hd1, hd2⟩, hd⟩ := hd
        simp only
        rw [shift]
        have ih := ih (pre ++ [l]) acc'
        cases hs : scan sp ((pre ++ [l]) ++ ls) ls (pre ++ [l]).length acc' with
        | none =>
          rw [hs] at ih
          obtain ⟨j, t, h1, h2, h3⟩ := ih
          refine ⟨j + 1, t, by simpa using h1, h2, ?_⟩
          intro k d hk h
          obtain ⟨k, rfl⟩ : ∃ k', k = k' + 1 := ⟨k - 1, by omega⟩
          exact h3 k d (by omega) (by simpa using h)
        | some r =>
          rw [hs] at ih
          obtain ⟨i1, i2⟩ := ih
          constructor
          · rintro ⟨j, t, h1, h2, h3⟩
            cases j with
            | zero =>
              obtain ⟨k, hk⟩ := List.getElem?_of_mem hd1
              exact hd2 (h3 (k + 1) d (by omega) (by simpa using hk))
            | succ j =>
              exact i1 ⟨j, t, by simpa using h1, h2, fun k d hk h => h3 (k + 1) d (by omega) (by simpa using h)⟩
          · intro i
            rw [i2, hd, mem_markUp _ _ _ (by simp)]
            have hget : ∀ m, pre.length + 1 ≤ m → (pre ++ l :: ls)[m]? = ls[m - (pre.length + 1)]? := by
              intro m hm
              rw [List.getElem?_append_right (by omega), show m - pre.length = (m - (pre.length + 1)) + 1 by omega,
                List.getElem?_cons_succ]
            have tail : (∃ j t, ls[j]? = some t ∧ Tagged t ∧ CoveredBy sp ((pre ++ [l]) ++ ls) i ((pre ++ [l]).length + j)) ↔
                ∃ j t, (l :: ls)[j + 1]? = some t ∧ Tagged t ∧ CoveredBy sp (pre ++ l :: ls) i (pre.length + (j + 1)) := by
              have (j : Nat) : pre.length + 1 + j = pre.length + (j + 1) := by omega
              simp [this]
            rw [tail]
            constructor
            · rintro (((h | h) | h) | ⟨j, t, h⟩)
              · rcases List.mem_cons.1 h with rfl | h
                · exact .inr ⟨0, l, rfl, ht, .inl ⟨by omega, fun k h1 h2 => by omega⟩⟩
                · exact .inl h
              · exact .inr ⟨0, l, rfl, ht, .inl ⟨by omega, fun k h1 h2 => h.2 k h1 (by omega)⟩⟩
              · refine .inr ⟨0, l, rfl, ht, .inr ⟨by omega, ?_⟩⟩
                intro k h1 h2
                rw [hget k (by omega)]
                exact h.2 k (by omega) h2
              · exact .inr ⟨j + 1, t, h⟩
            · rintro (h | ⟨j, t, h1, h2, h3⟩)
              · exact .inl (.inl (.inl (by simp [h])))
              · cases j with
                | zero =>
                  rcases h3 with ⟨h4, h5⟩ | ⟨h4, h5⟩
                  · by_cases e : i = pre.length
                    · exact .inl (.inl (.inl (by simp [e])))
                    · exact .inl (.inl (.inr ⟨by omega, fun m h6 h7 => h5 m h6 (by omega)⟩))
                  · by_cases e : i = pre.length
                    · exact .inl (.inl (.inl (by simp [e])))
                    · refine .inl (.inr ⟨by omega, ?_⟩)
                      intro m h6 h7
                      rw [← hget m h6]
                      exact h5 m (by omega) h7
                | succ j => exact .inr ⟨j, t, h1, h2, h3⟩
    · rw [if_neg ht, shift]
      rw [hasTag_iff] at ht
      have ih := ih (pre ++ [l]) acc
      cases hs : scan sp ((pre ++ [l]) ++ ls) ls (pre ++ [l]).length acc with
      | none =>
        rw [hs] at ih
        obtain ⟨j, t, h1, h2, h3⟩ := ih
        refine ⟨j + 1, t, by simpa using h1, h2, ?_⟩
        intro k d hk h
        obtain ⟨k, rfl⟩ : ∃ k', k = k' + 1 := ⟨k - 1, by omega⟩
        exact h3 k d (by omega) (by simpa using h)
      | some r =>
        rw [hs] at ih
        obtain ⟨i1, i2⟩ := ih
        constructor
        · rintro ⟨j, t, h1, h2, h3⟩
          cases j with
          | zero => simp at h1; subst h1; exact ht h2
          | succ j =>
            exact i1 ⟨j, t, by simpa using h1, h2, fun k d hk h => h3 (k + 1) d (by omega) (by simpa using h)⟩
        · intro i
          rw [i2]
          have tail : (∃ j t, ls[j]? = some t ∧ Tagged t ∧ CoveredBy sp ((pre ++ [l]) ++ ls) i ((pre ++ [l]).length + j)) ↔
              ∃ j t, (l :: ls)[j + 1]? = some t ∧ Tagged t ∧ CoveredBy sp (pre ++ l :: ls) i (pre.length + (j + 1)) := by
            have (j : Nat) : pre.length + 1 + j = pre.length + (j + 1) := by omega
            simp [this]
          rw [tail]
          constructor
          · rintro (h | ⟨j, t, h⟩)
            · exact .inl h
            · exact .inr ⟨j + 1, t, h⟩
          · rintro (h | ⟨j, t, h1, h2, h3⟩)
            · exact .inl h
            · cases j with
              | zero => simp at h1; subst h1; exact absurd h2 ht
              | succ j => exact .inr ⟨j, t, h1, h2, h3⟩

/-- What is computed for a file. -/
theorem scan_file (sp : Char → Bool) (lines : List Line) :
    match scan sp lines lines 0 [] with
    | none => TagAtEnd sp lines
    | some r => ¬ TagAtEnd sp lines ∧ ∀ i, i ∈ r ↔ Covered sp lines i := by
  have h := scan_spec sp [] lines []
  simp only [List.nil_append, List.length_nil] at h
  cases hs : scan sp lines lines 0 [] with
  | none => rw [hs] at h; exact h
  | some r =>
    rw [hs] at h
    refine ⟨h.1, ?_⟩
    intro i
    rw [h.2]
    simp [Covered, CoveredBy]

theorem answer_spec (sp : Char → Bool) (lines : List Line) (r : List Nat) (hr : ∀ i, i ∈ r ↔ Covered sp lines i) (first : Nat) :
    answer r first = false ↔ Skip sp lines first := by
  simp only [answer, Bool.not_eq_false', Bool.or_eq_true, Bool.and_eq_true, decide_eq_true_eq, List.contains_eq_mem, hr]
  constructor
  · rintro (⟨h1, h2⟩ | ⟨h1, h2⟩)
    · exact ⟨_, h2, .inr (by omega)⟩
    · exact ⟨_, h2, .inl (by omega)⟩
  · rintro ⟨i, h1, h2 | h2⟩
    · exact .inr ⟨by omega, by rw [show first - 1 = i by omega]; exact h1⟩
    · exact .inl ⟨by omega, by rw [show first - 2 = i by omega]; exact h1⟩

/-! ## The theorems -/

/-- A function of a file not asked about yet is skipped exactly if its first line or the line before it
is covered by a tag, unless a tag is at the end of the file, when the question fails. -/
theorem c80_skipped (sp : Char → Bool) (s : State) (file first : Nat) (h : Py.Dict.get s.cache file = none)
    (he : ¬ TagAtEnd sp (s.disk file)) :
    ∃ b, (shouldTrace sp s file first).2 = some b ∧ (b = false ↔ Skip sp (s.disk file) first) := by
  have hs := scan_file sp (s.disk file)
  unfold shouldTrace
  rw [h]
  cases hc : scan sp (s.disk file) (s.disk file) 0 [] with
  | none => rw [hc] at hs; exact absurd hs he
  | some r =>
    rw [hc] at hs
    exact ⟨_, rfl, answer_spec sp _ r hs.2 first⟩

/-- If a tag is at the end of the file, every question about functions of that file fails. -/
theorem c80_fails (sp : Char → Bool) (s : State) (file first : Nat) (h : Py.Dict.get s.cache file = none)
    (he : TagAtEnd sp (s.disk file)) : shouldTrace sp s file first = (s, none) := by
  have hs := scan_file sp (s.disk file)
  unfold shouldTrace
  rw [h]
  cases hc : scan sp (s.disk file) (s.disk file) 0 [] with
  | none => rfl
  | some r => rw [hc] at hs; exact absurd he hs.1

theorem run_keeps (sp : Char → Bool) (s : State) (as : List Act) (hn : ∀ a ∈ as, a ≠ .clear) (file : Nat) (r : List Nat)
    (h : Py.Dict.get s.cache file = some r) : Py.Dict.get (run sp s as).cache file = some r := by
  induction as generalizing s with
  | nil => exact h
  | cons a as ih =>
    refine ih (step sp s a).1 (fun b hb => hn b (by simp [hb])) ?_
    cases a with
    | clear => exact absurd rfl (hn .clear (by simp))
    | edit f ls => exact h
    | ask f n =>
      simp only [step, shouldTrace]
      split
      · exact h
      · rename_i hf
        split
        · exact h
        · simp only [Py.Dict.get_set]
          by_cases e : file = f
          · subst e; rw [h] at hf; simp at hf
          · simp [e, h, Ne.symm e]

/-- Until code is reloaded, all answers about a file go by the lines it had when it was first asked
about, whatever else is asked and however the file is edited. -/
theorem c80_history (sp : Char → Bool) (s : State) (file n : Nat) (h : Py.Dict.get s.cache file = none)
    (he : ¬ TagAtEnd sp (s.disk file)) (as : List Act) (hn : ∀ a ∈ as, a ≠ .clear) (first : Nat) :
    ∃ b, (shouldTrace sp (run sp (shouldTrace sp s file n).1 as) file first).2 = some b ∧
      (b = false ↔ Skip sp (s.disk file) first) := by
  have hs := scan_file sp (s.disk file)
  cases hc : scan sp (s.disk file) (s.disk file) 0 [] with
  | none => rw [hc] at hs; exact absurd hs he
  | some r =>
    rw [hc] at hs
    have h1 : Py.Dict.get (shouldTrace sp s file n).1.cache file = some r := by
      simp [shouldTrace, h, hc, Py.Dict.get_set]
    have h2 := run_keeps sp _ as hn file r h1
    refine ⟨answer r first, ?_, answer_spec sp _ r hs.2 first⟩
    generalize run sp (shouldTrace sp s file n).1 as = s' at h2
    simp [shouldTrace, h2]

/-- After code was reloaded no file counts as asked about. -/
theorem c80_reloaded (sp : Char → Bool) (s : State) (file : Nat) : Py.Dict.get (step sp s .clear).1.cache file = none := rfl

/-- When a file was edited and the code reloaded, the new lines say what is skipped; other files are as they were. -/
theorem c80_edited (sp : Char → Bool) (s : State) (file : Nat) (ls : List Line) (f first : Nat)
    (he : ¬ TagAtEnd sp (if f = file then ls else s.disk f)) :
    ∃ b, (shouldTrace sp (run sp s [.edit file ls, .clear]) f first).2 = some b ∧
      (b = false ↔ Skip sp (if f = file then ls else s.disk f) first) := by
  have hd : (run sp s [.edit file ls, .clear]).disk f = if f = file then ls else s.disk f := rfl
  rw [← hd] at he ⊢
  exact c80_skipped sp _ f first rfl he

/-! ## Cases -/

def isSp : Char → Bool := (· == ' ')

/-- A tag above a decorated function covers the decorators, so the function, which begins with them, is
skipped; so is one with the tag on its own line; another one is not. -/
theorem c80_example :
    let lines := ["# @DontTrace".toList, "@deco".toList, "@other".toList, "def f():".toList, "  pass".toList,
      "def g(): #@DontTrace".toList, "  pass".toList, "def h():".toList, "  pass".toList]
    let s : State := ⟨fun _ => lines, []⟩
    (shouldTrace isSp s 0 2).2 = some false ∧ (shouldTrace isSp s 0 6).2 = some false ∧
    (shouldTrace isSp s 0 8).2 = some true := by decide

theorem c80_example_end : ¬ TagAtEnd isSp ["# @DontTrace".toList, "def f():".toList] := by
  have := scan_file isSp ["# @DontTrace".toList, "def f():".toList]
  have h : scan isSp ["# @DontTrace".toList, "def f():".toList] ["# @DontTrace".toList, "def f():".toList] 0 [] = some [0] := by decide
  rw [h] at this
  exact this.1

/-- A one-line function with the tag hides the function on the next line too. -/
theorem c80_next_line_witness :
    let lines := ["def f(): pass  # @DontTrace".toList, "def g(): pass".toList, "g()".toList]
    (shouldTrace isSp ⟨fun _ => lines, []⟩ 0 2).2 = some false := by decide

/-- A tag on the last line makes questions about any function of the file fail. -/
theorem c80_last_line_witness :
    let lines := ["def f(): pass".toList, "def g(): pass".toList, "".toList, "def h(): pass  # @DontTrace".toList]
    (shouldTrace isSp ⟨fun _ => lines, []⟩ 0 1).2 = none := by decide

/-- The tag counts in a string too. -/
theorem c80_string_witness :
    let lines := ["def f(x='#@DontTrace'):".toList, "  pass".toList]
    (shouldTrace isSp ⟨fun _ => lines, []⟩ 0 1).2 = some false := by decide

end DontTrace
