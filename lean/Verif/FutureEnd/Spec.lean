import Verif.OldLine.Spec
/-!
Positions as the parser of Python gives them: its lines end with LF, CR LF or CR only, and columns count bytes of UTF-8.
-/

namespace FutureEnd.Spec

open OldLine.Spec (Lines)

/-- how many bytes -/
def bytes (p : List Char) : Nat := (p.map Char.utf8Size).sum

/-- `line` (from one) and `col` are the end of the text `before` in the code -/
def EndOf (code before : List Char) (line col : Nat) : Prop :=
  ∃ (ls : List (List Char)) (p rest : List Char) (after : List (List Char)), Lines code (ls ++ (p ++ rest) :: after) ∧ p ≠ [] ∧
    before = ls.flatten ++ p ∧ line = ls.length + 1 ∧ col = bytes p

/-- the characters of the text that are one byte and end no line for Python -/
def Simple (code : List Char) : Prop := ∀ c ∈ code, c.toNat < 128 ∧ c.toNat ∉ [11, 12, 28, 29, 30]

end FutureEnd.Spec
