import Verif.Common.Lit
/-!
The lines of a text, whatever ends them.
-/

namespace OldLine.Spec

/-- no line ends here -/
def Plain (b : List Char) : Prop := '\n' ∉ b ∧ '\r' ∉ b

/-- the lines of a text, each with what ends it; the last one has no end -/
inductive Lines : List Char → List (List Char) → Prop
  | last {b} : Plain b → Lines b [b]
  | lf {b rest ls} : Plain b → Lines rest ls → Lines (b ++ ['\n'] ++ rest) ((b ++ ['\n']) :: ls)
  | crlf {b rest ls} : Plain b → Lines rest ls → Lines (b ++ ['\r', '\n'] ++ rest) ((b ++ ['\r', '\n']) :: ls)
  | cr {b rest ls} : Plain b → rest.head? ≠ some '\n' → Lines rest ls → Lines (b ++ ['\r'] ++ rest) ((b ++ ['\r']) :: ls)

/-- the character with a number is in the line with a number (the lines before, the line, how far in it) -/
def In (ls : List (List Char)) (before : List (List Char)) (line : List Char) (k : Nat) : Prop :=
  (∃ after, ls = before ++ line :: after ∧ (k < line.length ∨ (after = [] ∧ k = line.length)))

end OldLine.Spec
