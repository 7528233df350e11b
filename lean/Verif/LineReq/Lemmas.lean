import Verif.LineReq.Model
/-! Lemmas about cutting at tabs and about restoring lines and tabs. -/

namespace LineReq

theorem splitN_cons (n : Nat) (w s : Str) (h : '\t' ∉ w) : splitN (n + 1) (w ++ '\t' :: s) = w :: splitN n s := by
  have hp : ∀ x ∈ w, x ≠ '\t' := fun x hx e => h (e ▸ hx)
  have h1 : (w ++ '\t' :: s).takeWhile (· ≠ '\t') = w := by
    rw [List.takeWhile_append_of_pos (by simpa using hp)]; simp
  have h2 : (w ++ '\t' :: s).dropWhile (· ≠ '\t') = '\t' :: s := by
    rw [List.dropWhile_append_of_pos (by simpa using hp)]; simp
  rw [splitN, if_pos (by simp), h1, h2]; rfl

theorem splitN_last (n : Nat) (w : Str) (h : '\t' ∉ w) : splitN n w = [w] := by
  cases n with
  | zero => rfl
  | succ n => rw [splitN, if_neg h]

theorem splitN_zero (w : Str) : splitN 0 w = [w] := rfl

/-- `n + 1` fields come out as they were joined; only the last may contain a tab. -/
theorem splitN_join (ws : List Str) (w : Str) (h : ∀ x ∈ ws, '\t' ∉ x) :
    splitN ws.length (Py.join1 '\t' (ws ++ [w])) = ws ++ [w] := by
  induction ws with
  | nil => rfl
  | cons x xs ih =>
    rw [List.cons_append, Py.join1_cons _ _ _ (by simp), List.length_cons,
      splitN_cons _ _ _ (h x (by simp)), ih (fun y hy => h y (by simp [hy]))]

/-- Fewer fields than cuts: all come out. -/
theorem splitN_few (n : Nat) (ws : List Str) (hne : ws ≠ []) (h : ∀ x ∈ ws, '\t' ∉ x) (hl : ws.length ≤ n + 1) :
    splitN n (Py.join1 '\t' ws) = ws := by
  induction ws generalizing n with
  | nil => exact absurd rfl hne
  | cons x xs ih =>
    cases xs with
    | nil => exact splitN_last n x (h x (by simp))
    | cons y ys =>
      cases n with
      | zero => simp at hl
      | succ n =>
        rw [Py.join1_cons _ _ _ (by simp), splitN_cons _ _ _ (h x (by simp)),
          ih n (by simp) (fun z hz => h z (by simp_all)) (by simp at hl ⊢; omega)]

/-! ### restoring -/

/-- One character as the client writes it. -/
def encC (c : Char) : Str := if c = '\n' then nlTag else if c = '\t' then tabTag else [c]

/-- Only tabs are written as tags. -/
def encT (c : Char) : Str := if c = '\t' then tabTag else [c]

theorem not_prefix_cons {p c : Char} {ps cs : Str} (h : p ≠ c) : ¬ (p :: ps).isPrefixOf (c :: cs) = true := by
  simp [List.isPrefixOf, h]

theorem replace_skip (pat new : Str) (c : Char) (cs : Str) (h : ¬ pat.isPrefixOf (c :: cs) = true) :
    Py.replaceAll pat new (c :: cs) = c :: Py.replaceAll pat new cs := by
  rw [Py.replaceAll, dif_neg (fun hh => h hh.2)]

/-- A word without tags, tabs and newlines in front of written text is in front of the text. -/
theorem enc_prefix (f : Char → Str) (w s : Str) (hf : ∀ c, f c = [c] ∨ ∃ r, f c = '@' :: r) (hw : '@' ∉ w)
    (h : w <+: s.flatMap f) : w <+: s := by
  induction w generalizing s with
  | nil => exact List.nil_prefix
  | cons x xs ih =>
    simp only [List.mem_cons, not_or] at hw
    cases s with
    | nil => simp at h
    | cons c cs =>
      rw [List.flatMap_cons] at h
      rcases hf c with hc | ⟨r, hc⟩
      · rw [hc, List.singleton_append, List.cons_prefix_cons] at h
        rw [List.cons_prefix_cons]
        exact ⟨h.1, ih cs hw.2 h.2⟩
      · rw [hc, List.cons_append, List.cons_prefix_cons] at h
        exact absurd h.1.symm hw.1

theorem encC_form (c : Char) : encC c = [c] ∨ ∃ r, encC c = '@' :: r := by
  unfold encC; split
  · right; exact ⟨_, rfl⟩
  · split
    · right; exact ⟨_, rfl⟩
    · left; rfl

theorem encT_form (c : Char) : encT c = [c] ∨ ∃ r, encT c = '@' :: r := by
  unfold encT; split
  · right; exact ⟨_, rfl⟩
  · left; rfl

/-- The new-line tag is not found inside a tab tag. -/
theorem nl_over_tab (r : Str) (h1 : ¬ c!"NEW_LINE_CHAR" <+: r) (h2 : ¬ c!"_@N" <+: r) :
    Py.replaceAll nlTag ['\n'] (tabTag ++ r) = tabTag ++ Py.replaceAll nlTag ['\n'] r := by
  have e : tabTag ++ r = '@' :: '_' :: '@' :: 'T' :: 'A' :: 'B' :: '_' :: 'C' :: 'H' :: 'A' :: 'R' :: '@' :: '_' :: '@' :: r := rfl
  have e2 : tabTag ++ Py.replaceAll nlTag ['\n'] r = '@' :: '_' :: '@' :: 'T' :: 'A' :: 'B' :: '_' :: 'C' :: 'H' :: 'A' :: 'R' :: '@' :: '_' :: '@' :: Py.replaceAll nlTag ['\n'] r := rfl
  rw [e, e2]
  iterate 11 rw [replace_skip _ _ _ _ (by simp [nlTag, List.isPrefixOf])]
  rw [replace_skip, replace_skip, replace_skip]
  · intro h
    apply h2
    simp only [nlTag, List.isPrefixOf, Bool.and_eq_true, beq_self_eq_true, true_and] at h
    rw [List.isPrefixOf_iff_prefix] at h
    exact (List.prefix_append c!"_@N" c!"EW_LINE_CHAR@_@").trans h
  · simp [nlTag, List.isPrefixOf]
  · intro h
    apply h1
    simp only [nlTag, List.isPrefixOf, Bool.and_eq_true, beq_self_eq_true, true_and] at h
    rw [List.isPrefixOf_iff_prefix] at h
    exact (List.prefix_append c!"NEW_LINE_CHAR" c!"@_@").trans h

/-- What the text must not contain for the tags to be unambiguous. -/
structure Clear (s : Str) : Prop where
  a : ¬ c!"@_" <:+: s
  b : ¬ c!"_@" <:+: s
  c : ¬ c!"\tNEW_LINE_CHAR" <:+: s

theorem Clear.tail {c : Char} {s : Str} (h : Clear (c :: s)) : Clear s :=
  ⟨fun x => h.a (List.infix_cons x), fun x => h.b (List.infix_cons x), fun x => h.c (List.infix_cons x)⟩

theorem at_skip (f : Char → Str) (hf : ∀ c, f c = [c] ∨ ∃ r, f c = '@' :: r) (p : Str) (s : Str) (ha : ¬ c!"@_" <:+: '@' :: s) :
    ¬ ('@' :: '_' :: p).isPrefixOf ('@' :: s.flatMap f) = true := by
  intro h
  simp only [List.isPrefixOf, Bool.and_eq_true, beq_self_eq_true, true_and] at h
  rw [List.isPrefixOf_iff_prefix] at h
  have h' : c!"_" <+: s.flatMap f := (List.prefix_append c!"_" p).trans h
  have h'' := enc_prefix f c!"_" s hf (by decide) h'
  exact ha (List.IsPrefix.isInfix (by rw [List.cons_prefix_cons]; exact ⟨rfl, h''⟩))

theorem nl_pass (s : Str) (h : Clear s) : Py.replaceAll nlTag ['\n'] (s.flatMap encC) = s.flatMap encT := by
  induction s with
  | nil => exact Py.replaceAll_nil _ _
  | cons c cs ih =>
    have ih := ih h.tail
    rw [List.flatMap_cons, List.flatMap_cons]
    by_cases h1 : c = '\n'
    · subst h1
      rw [show encC '\n' = nlTag from rfl, Py.replaceAll_prefix _ _ _ (by decide), ih]; rfl
    · by_cases h2 : c = '\t'
      · subst h2
        rw [show encC '\t' = tabTag from rfl, show encT '\t' = tabTag from rfl, nl_over_tab, ih]
        · intro hp
          have := enc_prefix encC _ cs encC_form (by decide) hp
          exact h.c (List.IsPrefix.isInfix (by rw [List.cons_prefix_cons]; exact ⟨rfl, this⟩))
        · intro hp
          have := enc_prefix encC c!"_" cs encC_form (by decide) ((List.prefix_append c!"_" c!"@N").trans hp)
          cases cs with
          | nil => simp at this
          | cons d ds =>
            rw [List.cons_prefix_cons] at this
            have hd := this.1; subst hd
            rw [List.flatMap_cons, show encC '_' = ['_'] from rfl, List.singleton_append, List.cons_prefix_cons] at hp
            have hp := hp.2
            cases ds with
            | nil => simp at hp
            | cons g gs =>
              rw [List.flatMap_cons] at hp
              by_cases g1 : g = '\n'
              · subst g1; rw [show encC '\n' = nlTag from rfl] at hp
                simp [nlTag] at hp
              · by_cases g2 : g = '\t'
                · subst g2; rw [show encC '\t' = tabTag from rfl] at hp
                  simp [tabTag] at hp
                · rw [show encC g = [g] by simp [encC, g1, g2], List.singleton_append, List.cons_prefix_cons] at hp
                  have hg := hp.1; subst hg
                  exact h.tail.b ⟨[], gs, rfl⟩
      · rw [show encC c = [c] by simp [encC, h1, h2], show encT c = [c] by simp [encT, h2], List.singleton_append,
          List.singleton_append, replace_skip, ih]
        by_cases h3 : c = '@'
        · subst h3; exact at_skip encC encC_form _ cs h.a
        · exact not_prefix_cons (Ne.symm h3)

theorem tab_pass (s : Str) (h : ¬ c!"@_" <:+: s) : Py.replaceAll tabTag ['\t'] (s.flatMap encT) = s := by
  induction s with
  | nil => exact Py.replaceAll_nil _ _
  | cons c cs ih =>
    have ih := ih (fun x => h (List.infix_cons x))
    rw [List.flatMap_cons]
    by_cases h2 : c = '\t'
    · subst h2
      rw [show encT '\t' = tabTag from rfl, Py.replaceAll_prefix _ _ _ (by decide), ih]; rfl
    · rw [show encT c = [c] by simp [encT, h2], List.singleton_append, replace_skip, ih]
      by_cases h3 : c = '@'
      · subst h3; exact at_skip encT encT_form _ cs h
      · exact not_prefix_cons (Ne.symm h3)

theorem restore_enc (s : Str) (h : Clear s) : restore (s.flatMap encC) = Py.strip s := by
  rw [restore, nl_pass s h, tab_pass s h.a]

theorem no_tab_enc (s : Str) : '\t' ∉ s.flatMap encC := by
  intro h
  rw [List.mem_flatMap] at h
  obtain ⟨c, _, hc⟩ := h
  unfold encC at hc
  split at hc
  · exact absurd hc (by decide)
  · split at hc
    · exact absurd hc (by decide)
    · rename_i h2; simp at hc; exact h2 hc.symm

theorem no_nl_enc (s : Str) : '\n' ∉ s.flatMap encC := by
  intro h
  rw [List.mem_flatMap] at h
  obtain ⟨c, _, hc⟩ := h
  unfold encC at hc
  split at hc
  · exact absurd hc (by decide)
  · split at hc
    · exact absurd hc (by decide)
    · rename_i h1 h2; simp at hc; exact h1 hc.symm

/-! ### lines of an expression -/

def encL (c : Char) : Str := if c = '\n' then lineTag else [c]

theorem encL_form (c : Char) : encL c = [c] ∨ ∃ r, encL c = '@' :: r := by
  unfold encL; split
  · right; exact ⟨_, rfl⟩
  · left; rfl

theorem line_pass (s : Str) (h : ¬ c!"@LINE" <:+: s) : restoreLines (s.flatMap encL) = s := by
  unfold restoreLines
  induction s with
  | nil => exact Py.replaceAll_nil _ _
  | cons c cs ih =>
    have ih := ih (fun x => h (List.infix_cons x))
    rw [List.flatMap_cons]
    by_cases h2 : c = '\n'
    · subst h2
      rw [show encL '\n' = lineTag from rfl, Py.replaceAll_prefix _ _ _ (by decide), ih]; rfl
    · rw [show encL c = [c] by simp [encL, h2], List.singleton_append, replace_skip, ih]
      by_cases h3 : c = '@'
      · subst h3
        intro hp
        simp only [lineTag, List.isPrefixOf, Bool.and_eq_true, beq_self_eq_true, true_and] at hp
        rw [List.isPrefixOf_iff_prefix] at hp
        have h' : c!"LINE" <+: cs.flatMap encL := (List.prefix_append c!"LINE" c!"@").trans hp
        have h'' := enc_prefix encL c!"LINE" cs encL_form (by decide) h'
        exact h (List.IsPrefix.isInfix (by rw [List.cons_prefix_cons]; exact ⟨rfl, h''⟩))
      · exact not_prefix_cons (Ne.symm h3)

theorem no_tab_encL (s : Str) (h : '\t' ∉ s) : '\t' ∉ s.flatMap encL := by
  intro hm
  rw [List.mem_flatMap] at hm
  obtain ⟨c, hcs, hc⟩ := hm
  unfold encL at hc
  split at hc
  · exact absurd hc (by decide)
  · simp at hc; exact h (hc ▸ hcs)

theorem no_nl_encL (s : Str) : '\n' ∉ s.flatMap encL := by
  intro hm
  rw [List.mem_flatMap] at hm
  obtain ⟨c, hcs, hc⟩ := hm
  unfold encL at hc
  split at hc
  · exact absurd hc (by decide)
  · rename_i h; simp at hc; exact h hc.symm

theorem no_tab_int (i : Int) : '\t' ∉ Py.intStr i := fun h => absurd (Py.intStr_not_space i _ h) (by decide)

end LineReq
