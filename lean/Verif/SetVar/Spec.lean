import Verif.SetVar.Model
/-!
What changing an element should do.
-/

namespace SetVar

open EvalName

/-- The assignment to the place a row is shown for: an attribute, the element at an index, the value under a key. -/
def put (env : Env) (w : World) (n : Nat) (m : Nat) : Via → World × Bool
  | .attr a => env.setattr w n a m
  | .key k => env.setitem w n k m
  | .index i => env.setitem w n (.int i) m
  | _ => (w, false)

/-- The rows for places. -/
def Place : Via → Prop
  | .attr _ | .key _ | .index _ => True
  | _ => False

/-- The parser reads the expressions of the grammar as they are meant. -/
def Reads (env : Env) : Prop := ∀ t e, Means t e → env.parse t = some e

/-- The first row with a name, of those a variable is expanded to. -/
def FirstRow (env : Env) (g : Groups) (lim : Limits) (hex : Bool) (w : World) (v : Var) (name : Str) (r : Row) : Prop :=
  ∃ a b, grouped g v.val (contents w lim v.val) = a ++ r :: b ∧ env.label hex r.name r.via = name ∧
    ∀ x ∈ a, env.label hex x.name x.via ≠ name

/-- An object replaced. -/
def replaced (w : World) (n : Nat) (o : Obj) : World := { w with obj := fun i => if i = n then o else w.obj i }

/-- Setting an element of a list, the value of a dictionary under a key it has and an attribute, as the built-in types and
plain classes do: that element, value or attribute, and nothing else, is replaced. -/
structure BuiltIn (env : Env) (w : World) (n : Nat) : Prop where
  seq : ∀ items i m, (w.obj n).kind = .seq items → i < items.length →
    env.setitem w n (.int i) m = (replaced w n { w.obj n with kind := .seq (items.set i m) }, true)
  dict : ∀ items k m, (w.obj n).kind = .dict items → (∃ x ∈ items, x.1 = k) →
    env.setitem w n k m =
      (replaced w n { w.obj n with kind := .dict (items.map fun x => if x.1.norm.same k.norm then (x.1, m) else x) }, true)
  attr : ∀ a m, a ∈ (w.obj n).dir →
    env.setattr w n a m = (replaced w n { w.obj n with get := fun b => if b = a then some m else (w.obj n).get b }, true)

end SetVar
