/-!
# C72: code which is indented as a whole is evaluated as if it were not

Models `_expression_to_evaluate` of `_pydevd_bundle/pydevd_vars.py` (211-246). A text is the list of
its lines as `splitlines(True)` gives them, each with its line end; `sp` is `str.isspace` of one
character, any predicate.
-/
namespace Evaluate

/-- A line with its end. -/
abbrev Line := List Char

/-- `line.strip()` is empty (`pydevd_vars.py` 217). -/
def blank (sp : Char → Bool) (l : Line) : Bool := l.all sp

/-- The whitespace characters a line begins with (`pydevd_vars.py` 218-222). -/
def leading (sp : Char → Bool) (l : Line) : Nat := (l.takeWhile sp).length

/-- `chars_to_strip`: those of the first line which is not blank (`pydevd_vars.py` 215-223). -/
def toStrip (sp : Char → Bool) (t : List Line) : Nat :=
  match t.find? (fun l => !blank sp l) with
  | some l => leading sp l
  | none => 0

/-- The loop over the lines (`pydevd_vars.py` 227-237): false, as soon as a character to be removed
is not whitespace, or the new lines. -/
def stripLines (sp : Char → Bool) (n : Nat) : List Line → Option (List Line)
  | [] => some []
  | l :: r =>
    if (l.take n).all sp then (stripLines sp n r).map (l.drop n :: ·) else none

/-- `_expression_to_evaluate` (`pydevd_vars.py` 211-246); its cache returns what it computed for the
same text. -/
def dedent (sp : Char → Bool) (t : List Line) : List Line :=
  if toStrip sp t = 0 then t
  else (stripLines sp (toStrip sp t) t).getD t

theorem stripLines_eq (sp : Char → Bool) (n : Nat) (t : List Line) :
    stripLines sp n t =
      if t.all (fun l => (l.take n).all sp) then some (t.map (·.drop n)) else none := by
  induction t with
  | nil => rfl
  | cons l r ih =>
    simp only [stripLines, ih, List.all_cons, List.map_cons]
    cases (l.take n).all sp <;> cases r.all (fun l => (l.take n).all sp) <;> rfl

/-- **All lines or none.** Either the text is unchanged, or every line has lost the same number of
characters at its front, all of them whitespace: the number the first line which is not blank begins
with. -/
theorem c72_all_or_none (sp : Char → Bool) (t : List Line) :
    dedent sp t = t ∨
      (dedent sp t = t.map (·.drop (toStrip sp t)) ∧
        ∀ l, l ∈ t → ∀ c, c ∈ l.take (toStrip sp t) → sp c = true) := by
  unfold dedent
  split
  · exact Or.inl rfl
  · rw [stripLines_eq]
    split
    · rename_i h
      refine Or.inr ⟨rfl, ?_⟩
      simpa only [List.all_eq_true] using h
    · exact Or.inl rfl

/-- **It is removed whenever it can be.** If every line begins with as many whitespace characters as
the first line which is not blank, or is blank and shorter, all lines lose that many. -/
theorem c72_removed (sp : Char → Bool) (t : List Line)
    (h : ∀ l, l ∈ t → blank sp l = true ∨ toStrip sp t ≤ leading sp l) :
    dedent sp t = t.map (·.drop (toStrip sp t)) := by
  have hall : t.all (fun l => (l.take (toStrip sp t)).all sp) = true := by
    simp only [List.all_eq_true]
    intro l hl c hc
    rcases h l hl with hb | hle
    · exact (List.all_eq_true.1 hb) c (List.mem_of_mem_take hc)
    · generalize toStrip sp t = n at *
      clear h hl
      induction l generalizing n with
      | nil => simp at hc
      | cons a r ih =>
        unfold leading at hle
        rw [List.takeWhile_cons] at hle
        cases n with
        | zero => simp at hc
        | succ n =>
          cases ha : sp a with
          | false => rw [ha] at hle; simp at hle
          | true =>
            rw [ha] at hle
            simp only [if_true, List.length_cons] at hle
            rw [List.take_succ_cons] at hc
            rcases List.mem_cons.1 hc with hc | hc
            · rw [hc]; exact ha
            · exact ih n hc (by unfold leading; omega)
  unfold dedent
  split
  · rename_i h0
    rw [h0]
    simp
  · rw [stripLines_eq, hall]
    rfl

/-- Code which isn't indented is unchanged. -/
theorem c72_not_indented (sp : Char → Bool) (l : Line) (r : List Line)
    (h : ∃ c s, l = c :: s ∧ sp c = false) : dedent sp (l :: r) = l :: r := by
  obtain ⟨c, s, rfl, hc⟩ := h
  have : toStrip sp ((c :: s) :: r) = 0 := by
    simp [toStrip, blank, leading, hc]
  simp [dedent, this]

/-- **The lines keep their text and their indentation against each other.** Each line which is not
blank is, after, the line without the same number of whitespace characters: it has the same text
after its indentation, and its indentation is less by that number. -/
theorem c72_relative (sp : Char → Bool) (t : List Line) (i : Nat) (l : Line) (hl : t[i]? = some l)
    (hb : blank sp l = false) : ∃ (l' : Line) (n : Nat), (dedent sp t)[i]? = some l' ∧
      (n = 0 ∨ n = toStrip sp t) ∧ l'.dropWhile sp = l.dropWhile sp ∧
      leading sp l = n + leading sp l' := by
  rcases c72_all_or_none sp t with h | ⟨h, hs⟩
  · exact ⟨l, 0, by rw [h, hl], Or.inl rfl, rfl, by omega⟩
  · refine ⟨l.drop (toStrip sp t), toStrip sp t, by rw [h]; simp [hl], Or.inr rfl, ?_⟩
    have hm : l ∈ t := List.mem_of_getElem? hl
    have hall := hs l hm
    generalize toStrip sp t = n at hall
    clear h hs hl hm
    induction l generalizing n with
    | nil => simp [blank] at hb
    | cons a r ih =>
      cases n with
      | zero => exact ⟨rfl, by simp⟩
      | succ n =>
        have ha : sp a = true := hall a (by simp)
        have hb' : blank sp r = false := by simpa [blank, ha] using hb
        have := ih hb' n (fun c hc => hall c (by simp [hc]))
        simp only [List.drop_succ_cons, List.dropWhile_cons, ha, if_true]
        refine ⟨this.1, ?_⟩
        have h2 := this.2
        unfold leading at *
        simp only [List.takeWhile_cons, ha, if_true, List.length_cons]
        omega

/-- **Once is enough**: code which was dedented is not changed when it is dedented again. -/
theorem c72_idempotent (sp : Char → Bool) (t : List Line) :
    dedent sp (dedent sp t) = dedent sp t := by
  rcases c72_all_or_none sp t with h | ⟨h, hs⟩
  · rw [h, h]
  · have h0 : toStrip sp (dedent sp t) = 0 := by
      rw [h]
      cases hf : t.find? (fun l => !blank sp l) with
      | none =>
        -- all lines are blank: nothing is left to strip
        have ht : toStrip sp t = 0 := by simp [toStrip, hf]
        rw [ht]
        simp [toStrip, hf]
      | some l =>
        have ht : toStrip sp t = leading sp l := by simp [toStrip, hf]
        -- the first line which is not blank is the same one
        have key : ∀ n, (∀ l, l ∈ t → ∀ c, c ∈ l.take n → sp c = true) →
            (t.map (·.drop n)).find? (fun l => !blank sp l) = some (l.drop n) := by
          intro n hn
          rw [List.find?_map]
          have hp : ((fun l => !blank sp l) ∘ fun x : Line => x.drop n) = fun x : Line =>
              !blank sp (x.drop n) := rfl
          have : t.find? ((fun l => !blank sp l) ∘ fun x : Line => x.drop n) = some l := by
            rw [hp, ← hf]
            clear hf ht hs h
            induction t with
            | nil => rfl
            | cons x r ih =>
              have hx : blank sp (x.drop n) = blank sp x := by
                have := hn x (by simp)
                unfold blank
                conv => rhs; rw [← List.take_append_drop n x]
                rw [List.all_append]
                have : (x.take n).all sp = true := List.all_eq_true.2 this
                rw [this, Bool.true_and]
              simp only [List.find?_cons, hx]
              split
              · rfl
              · exact ih fun l hl => hn l (by simp [hl])
          rw [this]
          rfl
        have := key (toStrip sp t) hs
        unfold toStrip at this ⊢
        rw [this]
        simp only [hf]
        unfold leading
        have : ∀ x : Line, (List.takeWhile sp (x.drop (x.takeWhile sp).length)).length = 0 := by
          intro x
          induction x with
          | nil => rfl
          | cons a r ih =>
            cases ha : sp a with
            | false => simp [ha]
            | true => simpa [List.takeWhile_cons, ha] using ih
        exact this l
    show (if toStrip sp (dedent sp t) = 0 then dedent sp t
      else (stripLines sp (toStrip sp (dedent sp t)) (dedent sp t)).getD (dedent sp t)) = dedent sp t
    rw [if_pos h0]

/-- Python's whitespace among the characters used here. -/
def space (c : Char) : Bool := c == ' ' || c == '\n' || c == '\t'

/-- A method, indented by two. -/
theorem c72_example :
    dedent space ["  def f():\n".toList, "\n".toList, "    return 1\n".toList] =
      ["def f():\n".toList, "".toList, "  return 1\n".toList] := by decide +kernel

/-- A text of several lines in quotes is changed too: its lines lose their indentation and its empty
lines vanish. -/
theorem c72_string_witness :
    dedent space ["  x = '''a\n".toList, "\n".toList, "  b'''".toList] =
      ["x = '''a\n".toList, "".toList, "b'''".toList] := by decide +kernel

end Evaluate
