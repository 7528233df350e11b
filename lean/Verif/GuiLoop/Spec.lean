import Verif.GuiLoop.Model
/-!
What a dotted name stands for.
-/

namespace GuiLoop.Spec

/-- the object at the end of a chain of attributes -/
inductive Chain (w : World) : Nat → List Str → Nat → Prop
  | here {o} : Chain w o [] o
  | attr {o a o' as r} : w.attr o a = some o' → Chain w o' as r → Chain w o (a :: as) r

/-- the first `n` parts are a module that can be imported, no longer proper part of the name is one, and the other parts are attributes from there -/
def Means (w : World) (parts : List Str) (v : Nat) : Prop :=
  ∃ n m, 0 < n ∧ n < parts.length ∧ w.imp (Py.join1 '.' (parts.take n)) = some m ∧
    (∀ k, n < k → k < parts.length → w.imp (Py.join1 '.' (parts.take k)) = none) ∧ Chain w m (parts.drop n) v

end GuiLoop.Spec
