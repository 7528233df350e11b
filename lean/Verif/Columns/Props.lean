import Verif.Columns.Model
/-!
**C43.** The byte offset of a character boundary in a line is reported as that character's column.

The specification is `Py.utf8`: the byte offset of a boundary is the number of bytes of the text before it.
-/

namespace Columns

theorem width_eq (c : Char) : width c = (Py.utf8Char c).length := by
  unfold width Py.utf8Char Py.utf8Code
  split
  · rw [if_neg (by omega), if_neg (by omega), if_neg (by omega)]; rfl
  · split
    · rw [if_neg (by omega), if_neg (by omega), if_pos (by omega)]; rfl
    · split
      · rw [if_neg (by omega), if_pos (by omega)]; rfl
      · rw [if_pos (by omega)]; rfl

theorem loop_prefix (p rest : Str) (k b i : Nat) (hk : rest = [] ∨ ∃ c cs, rest = c :: cs ∧ k < width c) :
    loop (b + (Py.utf8 p).length + k) b i (p ++ rest) = i + p.length := by
  induction p generalizing b i with
  | nil =>
    rcases hk with rfl | ⟨c, cs, rfl, hk⟩
    · rfl
    · have h0 : (Py.utf8 []).length = 0 := rfl
      rw [List.nil_append, loop, if_pos (by omega)]
      rfl
  | cons c p ih =>
    have h1 : (Py.utf8 (c :: p)).length = width c + (Py.utf8 p).length := by
      rw [width_eq]
      show (Py.utf8Char c ++ Py.utf8 p).length = _
      simp
    rw [List.cons_append, loop, if_neg (by omega)]
    have h2 : b + (Py.utf8 (c :: p)).length + k = b + width c + (Py.utf8 p).length + k := by omega
    rw [h2, ih (b + width c) (i + 1)]
    simp
    omega

/-- **C43.** The offset in bytes of the text before a character, or of any byte of this character, gives the index of the
character; an offset at or after the end gives the number of characters. -/
theorem c43_column (p rest : Str) (k : Nat) (hne : p ++ rest ≠ [])
    (hk : rest = [] ∨ ∃ c cs, rest = c :: cs ∧ k < (Py.utf8Char c).length) :
    toChar (p ++ rest) (some ((Py.utf8 p).length + k)) = p.length := by
  unfold toChar
  rw [if_neg hne]
  have := loop_prefix p rest k 0 0 (by simpa only [width_eq] using hk)
  simpa using this

theorem boundary (p rest : Str) (hne : p ++ rest ≠ []) : toChar (p ++ rest) (some (Py.utf8 p).length) = p.length := by
  have := c43_column p rest 0 hne (by
    cases rest with
    | nil => exact .inl rfl
    | cons c cs =>
      refine .inr ⟨c, cs, rfl, ?_⟩
      unfold Py.utf8Char Py.utf8Code
      split
      · simp
      · split
        · simp
        · split <;> simp)
  simpa using this

theorem utf8_append (a b : Str) : Py.utf8 (a ++ b) = Py.utf8 a ++ Py.utf8 b := by simp [Py.utf8]

/-- **C43.** The columns shown for code between two boundaries of one line are those of the code, or, if Python's parser gives a
more precise part `b2` of it, those of that part (from 1; the end is after the last character). -/
theorem c43_shown (anchors : Str → Option (Nat × Nat)) (getline : Str → Int → Str) (file : Str) (lineno : Int)
    (a b1 b2 b3 c : Str) (info : Info) (hline : getline file lineno = a ++ (b1 ++ b2 ++ b3) ++ c) (hne : a ++ (b1 ++ b2 ++ b3) ++ c ≠ [])
    (hsame : info.endLineno = some info.lineno) (hcol : info.colno = some (Py.utf8 a).length)
    (hend : info.endColno = some (Py.utf8 (a ++ (b1 ++ b2 ++ b3))).length)
    (hanchor : anchors (b1 ++ b2 ++ b3) = some ((Py.utf8 b1).length, (Py.utf8 (b1 ++ b2)).length) ∨
      (anchors (b1 ++ b2 ++ b3) = none ∧ b1 = [] ∧ b3 = [])) :
    reported anchors getline file lineno (some info) = ((a ++ b1).length + 1, some ((a ++ b1 ++ b2).length + 1)) := by
  have e1 : toChar (a ++ (b1 ++ b2 ++ b3) ++ c) (some (Py.utf8 a).length) = a.length := by
    rw [List.append_assoc] at hne ⊢
    exact boundary a _ hne
  have e2 : toChar (a ++ (b1 ++ b2 ++ b3) ++ c) (some (Py.utf8 (a ++ (b1 ++ b2 ++ b3))).length) = (a ++ (b1 ++ b2 ++ b3)).length :=
    boundary _ _ hne
  have e3 : Py.slice (a ++ (b1 ++ b2 ++ b3) ++ c) (a.length : Nat) ((a ++ (b1 ++ b2 ++ b3)).length : Nat) = b1 ++ b2 ++ b3 := by
    rw [Py.slice_eq _ _ _ (by simp) (by simp), List.take_left, List.drop_left]
  unfold reported
  simp only [hline, if_neg hne, hsame, if_true]
  unfold mapColumns
  simp only [hsame, if_true, hcol, hend, e1, e2, e3]
  rcases hanchor with h | ⟨h, rfl, rfl⟩
  · rw [h]
    simp only
    have e4 : (Py.utf8 b1).length + (Py.utf8 a).length = (Py.utf8 (a ++ b1)).length := by rw [utf8_append]; simp; omega
    have e5 : (Py.utf8 (b1 ++ b2)).length + (Py.utf8 a).length = (Py.utf8 (a ++ b1 ++ b2)).length := by
      rw [utf8_append, utf8_append, utf8_append]; simp; omega
    have s1 : a ++ (b1 ++ b2 ++ b3) ++ c = (a ++ b1) ++ (b2 ++ b3 ++ c) := by simp
    have s2 : a ++ (b1 ++ b2 ++ b3) ++ c = (a ++ b1 ++ b2) ++ (b3 ++ c) := by simp
    rw [e4, e5]
    have q1 : toChar (a ++ (b1 ++ b2 ++ b3) ++ c) (some (Py.utf8 (a ++ b1)).length) = (a ++ b1).length := by
      rw [s1] at hne ⊢
      exact boundary _ _ hne
    have q2 : toChar (a ++ (b1 ++ b2 ++ b3) ++ c) (some (Py.utf8 (a ++ b1 ++ b2)).length) = (a ++ b1 ++ b2).length := by
      rw [s2] at hne ⊢
      exact boundary _ _ hne
    rw [q1, q2]
  · rw [h]
    simp

/-- Code on several lines: the column of its first character, no end column. -/
theorem c43_several_lines (anchors : Str → Option (Nat × Nat)) (getline : Str → Int → Str) (file : Str) (lineno : Int)
    (a b : Str) (info : Info) (hline : getline file lineno = a ++ b) (hne : a ++ b ≠ [])
    (hsame : info.endLineno ≠ some info.lineno) (hcol : info.colno = some (Py.utf8 a).length) :
    reported anchors getline file lineno (some info) = (a.length + 1, none) := by
  unfold reported mapColumns
  simp only [hline, if_neg hne, if_neg (Ne.symm hsame), hcol]
  rw [boundary a b hne]

/-! ### Witnesses -/

/-- Without positions for the instruction, or without the text of the line, the column is 1 and there is no end. -/
theorem c43_unknown (anchors : Str → Option (Nat × Nat)) (getline : Str → Int → Str) (file : Str) (lineno : Int) :
    reported anchors getline file lineno none = (1, none) ∧
    ∀ info, getline file lineno = [] → reported anchors getline file lineno (some info) = (1, none) := by
  refine ⟨rfl, fun info h => ?_⟩
  simp [reported, h]

/-- For an empty text the column is 1, not 0. -/
theorem c43_empty (offset : Option Nat) : toChar [] offset = 1 := rfl

/-- The line is looked up in the file of the program with the line number shown to the client. If a source mapping shows line 1 of
the program as line 2 of a cell, the columns are computed from another line: here `é = f()`, with `f()` at bytes 5 to 8, is at column 5, and
column 6 is shown. -/
theorem c43_mapped_line :
    let getline : Str → Int → Str := fun _ n => if n = 1 then c!"é = f()" else c!"x = g(1)"
    let info : Info := ⟨1, some 1, some 5, some 8⟩
    reported (fun _ => none) getline c!"cell" 1 (some info) = (5, some 8) ∧
    reported (fun _ => none) getline c!"cell" 2 (some info) = (6, some 9) := by decide

/-! ### Cases -/

example : (Py.utf8 c!"aé€😀b").length = 11 ∧ toChar c!"aé€😀b" (some 6) = 3 ∧ toChar c!"aé€😀b" (some 10) = 4 ∧
    toChar c!"aé€😀b" (some 8) = 3 ∧ toChar c!"aé€😀b" (some 99) = 5 ∧ toChar c!"aé€😀b" none = 0 := by decide

/-- `é + f()[0]`, where the parser points at `[0]` -/
example : reported (fun s => if s = c!"f()[0]" then some (3, 6) else none) (fun _ _ => c!"é + f()[0]\n") [] 1
    (some ⟨1, some 1, some 5, some 11⟩) = (8, some 11) := by decide

end Columns
