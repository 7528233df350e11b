import Verif.NextTargets.Model
/-!
What a client reads in the answer.
-/

namespace NextTargets.Spec

/-- elements `line` with numbers in them, up to the end -/
inductive Body : Str → List Int → Prop
  | done : Body c!"</xml>" []
  | line {d rest n ns} : '<' ∉ d → Py.parseInt d = some n → Body rest ns → Body (c!"<line>" ++ d ++ c!"</line>" ++ rest) (n :: ns)

/-- an element `xml` with elements `line` in it -/
def Reads (text : Str) (ns : List Int) : Prop := ∃ rest, text = c!"<xml>" ++ rest ∧ Body rest ns

/-- the lines at which instructions of the code begin, in order -/
def lines (is : List Item) : List Int :=
  is.filterMap fun
    | .line n => some n
    | _ => none

end NextTargets.Spec
