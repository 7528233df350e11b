import Verif.Grouping.Model
/-! Independent vocabulary for C16. -/

namespace Grouping.Spec

/-- What the user configured for an entry of category `c` (entries without category are always inline). -/
def wanted (pres : Scope → Presentation) : Option Scope → Presentation
  | none => .inline
  | some s => pres s

/-- All entries reachable from a list of children: the items and the contents of the groups. -/
def shownIn : Child → List Entry
  | .group _ es => es
  | .item e => [e]
  | .ret _ _ => []

def shown (cs : List Child) : List Entry := cs.flatMap shownIn

/-- The return values shown. -/
def returned : List Child → List (List Char × Nat)
  | [] => []
  | .ret n v :: cs => (n, v) :: returned cs
  | _ :: cs => returned cs

/-- The fixed order of the groups. -/
def rank : Scope → Nat
  | .special => 0
  | .prot => 1
  | .function => 2
  | .cls => 3

/-- Names are ordered by class first: plain names, `_x`, `__x`, `__x__`. -/
def nameClass (n : List Char) : Nat :=
  if c!"__" <+: n ∧ c!"__" <:+ n then 3
  else if c!"__" <+: n then 2
  else if c!"_" <+: n then 1
  else 0

/-- The order in which the variables of a frame are listed. -/
def NamesLe (a b : List Char) : Prop :=
  nameClass a < nameClass b ∨ (nameClass a = nameClass b ∧ Py.strLe a b = true)

end Grouping.Spec
