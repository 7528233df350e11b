import Verif.WinQuote.Lemmas
/-! C39: quoting arguments into a Windows command line, and splitting one. -/

namespace WinQuote
open Spec

/-! ### Quoting -/

/-- **C39.** The arguments quoted into a command line are the arguments the standard rules find in it, whether or not the
rule of two double quotes in a row holds — unless an argument ends in a backslash and a newline. -/
theorem c39_round_trip (p : Bool) (args : List Str) (h : ∀ a ∈ args, ¬ SlashNewline a) (found : List Str) :
    Splits p (commandLine args) found ↔ found = args := by
  constructor
  · intro hf; exact splits_unique hf (splits_join p args h)
  · intro hf; rw [hf]; exact splits_join p args h

/-- the rules give every line exactly one list of arguments -/
theorem c39_rules (p : Bool) (line : Str) : ∃ args, Splits p line args ∧ ∀ args', Splits p line args' → args' = args := by
  obtain ⟨as, h⟩ := splits_exists p line.length line (Nat.le_refl _)
  exact ⟨as, h, fun _ h' => splits_unique h' h⟩

/-- The exception is real: the argument `a b\` and a newline is found with one more backslash. -/
theorem c39_newline (p : Bool) : Splits p (commandLine [c!"a b\\\n"]) [c!"a b\\\\\n"] ∧ ¬ Splits p (commandLine [c!"a b\\\n"]) [c!"a b\\\n"] := by
  have h : Splits p (commandLine [c!"a b\\\n"]) [c!"a b\\\\\n"] := by
    have hr : rd p false 0 (commandLine [c!"a b\\\n"]) = (c!"a b\\\\\n", []) := by
      have : commandLine [c!"a b\\\n"] = '"' :: 'a' :: ' ' :: 'b' :: (slashes 2 ++ '\n' :: ['"']) := by decide
      rw [this, rd_toggle _ _ _ _ rfl (by intro _ h; cases h), Bool.not_false]
      rw [rd_char _ _ _ _ _ (by decide) (by decide) (.inl rfl), rd_char _ _ _ _ _ (by decide) (by decide) (.inl rfl),
        rd_char _ _ _ _ _ (by decide) (by decide) (.inl rfl), rd_slashes, rd_char _ _ _ _ _ (by decide) (by decide) (.inl rfl),
        rd_toggle _ _ _ _ rfl (by simp), rd_nil]
      rfl
    have := Splits.cons (p := p) [] (commandLine [c!"a b\\\n"]) _ _ [] (by simp) (by decide)
      (by intro c hc; simp [commandLine, join, quoteArg, hasSpecial] at hc; subst hc; decide) ((reads_iff ..).2 hr) (.nil [] (by simp))
    exact this
  exact ⟨h, fun h' => absurd (splits_unique h h') (by decide)⟩

/-- arguments with spaces, quotes, backslashes before a quote and at the end, and nothing at all -/
example : ∀ a ∈ [c!"C:\\dir x\\", c!"say \\\"hi\\\"", [], c!"plain\\"], ¬ SlashNewline a := by
  intro a ha
  rintro ⟨u, hu⟩
  have h1 : a.getLast? = some '\n' := by rw [hu]; simp
  clear hu u
  revert h1
  revert a
  decide

example : commandLine [c!"C:\\dir x\\", c!"say \\\"hi\\\"", [], c!"plain\\"] =
    c!"\"C:\\dir x\\\\\" \"say \\\\\\\"hi\\\\\\\"\" \"\" plain\\" := by decide

/-! ### Splitting -/

theorem loop_slashes (st : St) (buf : Str) (k : Nat) : ∀ (n : Nat) (l : Str), loop st n buf (slashes k ++ l) = loop st (n + k) buf l := by
  induction k with
  | zero => intro n l; rfl
  | succ k ih =>
    intro n l
    rw [slashes_succ, List.cons_append, loop, if_pos rfl, ih]
    congr 1; omega

theorem blank_iff (c : Char) : isBlank c = true ↔ Blank c := by simp [isBlank, Blank]

theorem loop_blank (c : Char) (l : Str) (h : Blank c) : loop .dflt 0 [] (c :: l) = loop .dflt 0 [] l := by
  rw [loop, if_neg (by rcases h with h | h <;> subst h <;> decide), if_neg (by simp)]
  simp [switch, (blank_iff c).2 h]

theorem loop_blanks (bs l : Str) (h : ∀ c ∈ bs, Blank c) : loop .dflt 0 [] (bs ++ l) = loop .dflt 0 [] l := by
  induction bs with
  | nil => rfl
  | cons b bs ih => rw [List.cons_append, loop_blank _ _ (h b (by simp)), ih (fun c hc => h c (by simp [hc]))]

/-- before the first character of an argument and inside it is the same, unless nothing but backslashes follow -/
theorem loop_start (l : Str) : ∀ (n : Nat), (∃ c ∈ l, c ≠ '\\') → (n = 0 → ∀ c, l.head? = some c → ¬ Blank c) →
    loop .dflt n [] l = loop .arg n [] l := by
  induction l with
  | nil => intro n h; obtain ⟨c, hc, _⟩ := h; cases hc
  | cons c l ih =>
    intro n h hb
    rw [loop, loop]
    by_cases hs : c = '\\'
    · rw [if_pos hs, if_pos hs]
      apply ih
      · obtain ⟨d, hd, hne⟩ := h
        simp only [List.mem_cons] at hd
        rcases hd with rfl | hd
        · exact absurd hs hne
        · exact ⟨d, hd, hne⟩
      · intro h; omega
    · rw [if_neg hs, if_neg hs]
      split
      · rfl
      · simp only
        by_cases hq : c = '"'
        · subst hq; simp [switch, isBlank]
        · by_cases hn : n = 0
          · subst hn
            have := hb rfl c rfl
            rw [← blank_iff] at this
            simp [switch, this, hq]
          · simp only [ne_eq, hn, not_false_eq_true, hq, and_self, if_true]
            rfl

theorem last_suffix {l l' : Str} {c : Char} (h : l' <:+ l) (hl : l.getLast? ≠ some c) : l'.getLast? ≠ some c := by
  obtain ⟨t, rfl⟩ := h
  intro h'
  apply hl
  rw [List.getLast?_append, h']
  rfl

/-- reading an argument: the two forms of the rules differ on it, or the code reads it as they do -/
theorem loop_reads {q : Bool} {l a r : Str} (h : Reads true q l a r) (hlast : l.getLast? ≠ some '\\') :
    (∃ a', Reads false q l a' r ∧ a'.length < a.length) ∨
    (Reads false q l a r ∧ ∀ buf, loop (if q then .quoted else .arg) 0 buf l = (buf ++ a) :: loop .dflt 0 [] r) := by
  induction h with
  | done q => exact .inr ⟨.done q, by intro buf; cases q <;> simp [loop]⟩
  | blank c l h =>
    refine .inr ⟨.blank c l h, ?_⟩
    intro buf
    rw [loop_blank _ _ h, loop, if_neg (by rcases h with h | h <;> subst h <;> decide), if_neg (by simp)]
    simp [switch, (blank_iff c).2 h]
  | char q c l a r hs hq hb h ih =>
    rcases ih (last_suffix (List.suffix_cons _ _) hlast) with ⟨a', h1, h2⟩ | ⟨h1, h2⟩
    · exact .inl ⟨c :: a', .char q c l a' r hs hq hb h1, by simpa using h2⟩
    · refine .inr ⟨.char q c l a r hs hq hb h1, ?_⟩
      intro buf
      have h3 := h2 (buf ++ [c])
      rw [List.append_assoc] at h3
      rw [loop, if_neg hs, if_neg (by simp)]
      rw [← blank_iff] at hb
      cases q with
      | true => simpa [switch, hq] using h3
      | false =>
        have hb' : isBlank c = false := by simpa using hb
        simpa [switch, hq, hb'] using h3
  | plain q n l a r hs hq h ih =>
    rcases ih (last_suffix (List.suffix_append _ _) hlast) with ⟨a', h1, h2⟩ | ⟨h1, h2⟩
    · exact .inl ⟨slashes (n + 1) ++ a', .plain q n l a' r hs hq h1, by simpa using h2⟩
    · refine .inr ⟨.plain q n l a r hs hq h1, ?_⟩
      intro buf
      cases l with
      | nil =>
        exfalso
        apply hlast
        rw [List.append_nil, slashes, List.getLast?_replicate]
        simp
      | cons c l =>
        have hs' : c ≠ '\\' := fun h => hs (by simp [h])
        have hq' : c ≠ '"' := fun h => hq (by simp [h])
        have h3 := h2 (buf ++ slashes (n + 1))
        rw [loop, if_neg hs', if_neg (by simp)] at h3
        rw [loop_slashes, loop, if_neg hs', if_neg (by simp [hq'])]
        cases q <;> simpa [St.start, hq'] using h3
  | escaped q n l a r h ih =>
    rcases ih (last_suffix ((List.suffix_cons _ _).trans (List.suffix_append _ _)) hlast) with ⟨a', h1, h2⟩ | ⟨h1, h2⟩
    · exact .inl ⟨_, .escaped q n l a' r h1, by simpa using h2⟩
    · refine .inr ⟨.escaped q n l a r h1, ?_⟩
      intro buf
      have h3 := h2 (buf ++ slashes n ++ ['"'])
      rw [loop_slashes, loop, if_neg (by decide), if_pos ⟨by omega, rfl, by omega⟩, show (0 + (2 * n + 1)) / 2 = n by omega]
      cases q <;> simpa [St.start] using h3
  | pair n l a r hp h ih =>
    have hone : ∀ a', Reads false true l a' r → Reads false true (slashes (2 * n) ++ '"' :: '"' :: l) (slashes n ++ a') r := by
      intro a' h1
      have h2 : Reads false false ('"' :: l) a' r := by
        have := Reads.toggle (p := false) false 0 l a' r (by simp) h1
        simpa [slashes] using this
      exact Reads.toggle (p := false) true n ('"' :: l) a' r (by simp) h2
    rcases ih (last_suffix (((List.suffix_cons _ _).trans (List.suffix_cons _ _)).trans (List.suffix_append _ _)) hlast) with ⟨a', h1, h2⟩ | ⟨h1, h2⟩
    · exact .inl ⟨_, hone _ h1, by simp; omega⟩
    · exact .inl ⟨_, hone _ h1, by simp⟩
  | toggle q n l a r hp h ih =>
    rcases ih (last_suffix ((List.suffix_cons _ _).trans (List.suffix_append _ _)) hlast) with ⟨a', h1, h2⟩ | ⟨h1, h2⟩
    · exact .inl ⟨_, .toggle q n l a' r (by simp) h1, by simpa using h2⟩
    · refine .inr ⟨.toggle q n l a r (by simp) h1, ?_⟩
      intro buf
      have h3 := h2 (buf ++ slashes n)
      rw [List.append_assoc] at h3
      have hbuf : (if 2 * n = 0 then buf else buf ++ slashes n) = buf ++ slashes n := by
        split
        · have : n = 0 := by omega
          subst this; simp [slashes]
        · rfl
      rw [loop_slashes, loop, if_neg (by decide), if_neg (by omega)]
      simp only [Nat.zero_add, show 2 * n / 2 = n by omega]
      cases q with
      | true =>
        have := hp rfl rfl
        simpa [switch, this, isBlank, hbuf] using h3
      | false => simpa [switch, isBlank, hbuf] using h3

theorem loop_splits {line : Str} {as : List Str} (h : Splits true line as) (hlast : line.getLast? ≠ some '\\') :
    (∃ bs, Splits false line bs ∧ bs ≠ as) ∨ loop .dflt 0 [] line = as := by
  induction h with
  | nil bs hb =>
    right
    have := loop_blanks bs [] hb
    rw [List.append_nil] at this
    rw [this]
    rfl
  | cons bs l a r as hb hne hl h hr ih =>
    have hlast' := last_suffix (List.suffix_append bs l) hlast
    rcases loop_reads h hlast' with ⟨a', h1, h2⟩ | ⟨h1, h2⟩
    · obtain ⟨cs, hcs⟩ := splits_exists false r.length r (Nat.le_refl _)
      refine .inl ⟨a' :: cs, .cons bs l a' r cs hb hne hl h1 hcs, ?_⟩
      intro he
      cases he
      omega
    · rcases ih (last_suffix (reads_suffix h) hlast') with ⟨cs, h3, h4⟩ | h3
      · refine .inl ⟨a :: cs, .cons bs l a r cs hb hne hl h1 h3, ?_⟩
        intro he
        cases he
        exact h4 rfl
      · right
        rw [loop_blanks _ _ hb, loop_start l 0 ?_ (fun _ => hl)]
        · have := h2 []
          simp only [Bool.false_eq_true, if_false, List.nil_append] at this
          rw [this, h3]
        · cases hg : l.getLast? with
          | none => exact absurd (List.getLast?_eq_none_iff.1 hg) hne
          | some c =>
            refine ⟨c, List.mem_of_getLast? hg, ?_⟩
            intro hc
            exact hlast' (by rw [hg, hc])

/-- **C39.** The debugger splits a command line as the standard rules do, if the two forms of the rules agree on it and it
does not end in a backslash. -/
theorem c39_split (line : Str) (args : List Str) (hold : Splits false line args) (hnew : Splits true line args)
    (hlast : line.getLast? ≠ some '\\') : strToArgs line = args := by
  rcases loop_splits hnew hlast with ⟨bs, h1, h2⟩ | h
  · exact absurd (splits_unique h1 hold) h2
  · exact h

/-- **C39.** The debugger gets back the arguments it has quoted, unless an argument ends in a backslash and a newline, or
the last one ends in a backslash and is not quoted. -/
theorem c39_own_split (args : List Str) (h : ∀ a ∈ args, ¬ SlashNewline a) (hlast : (commandLine args).getLast? ≠ some '\\') :
    strToArgs (commandLine args) = args :=
  c39_split _ _ (splits_join false args h) (splits_join true args h) hlast

/-- A backslash at the end of the line is lost: `python x.py C:\` -/
theorem c39_last_backslash (p : Bool) : commandLine [c!"x.py", c!"C:\\"] = c!"x.py C:\\" ∧
    Splits p c!"x.py C:\\" [c!"x.py", c!"C:\\"] ∧ strToArgs c!"x.py C:\\" = [c!"x.py", c!"C:"] := by
  have h : commandLine [c!"x.py", c!"C:\\"] = c!"x.py C:\\" := by decide
  refine ⟨h, ?_, by decide⟩
  rw [← h]
  apply splits_join
  intro a ha
  rintro ⟨u, hu⟩
  have h1 : a.getLast? = some '\n' := by rw [hu]; simp
  clear hu u
  revert h1
  revert a
  decide

/-- Two double quotes in a row inside quotes: the debugger takes the second one for the end of the quotes, against both
forms of the rules. -/
theorem c39_doubled : Splits true c!"\"a\"\"b c\"" [c!"a\"b c"] ∧ Splits false c!"\"a\"\"b c\"" [c!"ab c"] ∧
    strToArgs c!"\"a\"\"b c\"" = [c!"a\"b", c!"c"] := by
  refine ⟨?_, ?_, by decide⟩
  · have hr : rd true false 0 c!"\"a\"\"b c\"" = (c!"a\"b c", []) := by
      rw [rd_toggle _ _ _ _ rfl (by intro _ h; cases h), Bool.not_false, rd_char _ _ _ _ _ (by decide) (by decide) (.inl rfl),
        rd_pair _ _ rfl, rd_char _ _ _ _ _ (by decide) (by decide) (.inl rfl), rd_char _ _ _ _ _ (by decide) (by decide) (.inl rfl),
        rd_char _ _ _ _ _ (by decide) (by decide) (.inl rfl), rd_toggle _ _ _ _ rfl (by simp), rd_nil]
      rfl
    exact Splits.cons (p := true) [] c!"\"a\"\"b c\"" _ _ [] (by simp) (by decide)
      (by intro c hc; simp at hc; subst hc; decide) ((reads_iff ..).2 hr) (.nil [] (by simp))
  · have hr : rd false false 0 c!"\"a\"\"b c\"" = (c!"ab c", []) := by
      rw [rd_toggle _ _ _ _ rfl (by simp), Bool.not_false, rd_char _ _ _ _ _ (by decide) (by decide) (.inl rfl),
        rd_toggle _ _ _ _ rfl (by simp), Bool.not_true, rd_toggle _ _ _ _ rfl (by simp), Bool.not_false,
        rd_char _ _ _ _ _ (by decide) (by decide) (.inl rfl), rd_char _ _ _ _ _ (by decide) (by decide) (.inl rfl),
        rd_char _ _ _ _ _ (by decide) (by decide) (.inl rfl), rd_toggle _ _ _ _ rfl (by simp), rd_nil]
      rfl
    exact Splits.cons (p := false) [] c!"\"a\"\"b c\"" _ _ [] (by simp) (by decide)
      (by intro c hc; simp at hc; subst hc; decide) ((reads_iff ..).2 hr) (.nil [] (by simp))

/-- a line that is split as by the rules -/
example : strToArgs (commandLine [c!"C:\\dir x\\", c!"say \\\"hi\\\"", [], c!"end"]) = [c!"C:\\dir x\\", c!"say \\\"hi\\\"", [], c!"end"] := by
  decide

end WinQuote
