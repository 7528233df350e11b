import Verif.VarPath.Model
/-!
What the user does: to open values, row by row.
-/

namespace VarPath.Spec

open VarPath

/-- the names of a value's attributes do not look like the names of its items -/
def Plain (w : World) : Val → Prop
  | .obj r =>
    match (w.heap r).kind with
    | .seq _ => ∀ a ∈ (w.heap r).dir, Py.parseInt a = none ∧ a ≠ c!"more" ∧ a ≠ c!"len()" ∧ a ≠ c!"Unable to handle:"
    | .dict items => (items.map fun e => e.1.obj.id).Nodup ∧
        ∀ a ∈ (w.heap r).dir, '(' ∉ a ∧ a ≠ c!"Unable to handle:" ∧ ∀ e ∈ items, e.1.str ≠ some a
    | .set items => (items.map (·.id)).Nodup ∧
        ∀ a ∈ (w.heap r).dir, Py.parseInt a = none ∧ a ≠ c!"len()" ∧ a ≠ c!"Unable to handle:"
    | _ => True
  | .range _ a _ => 0 ≤ a
  | _ => True

/-- the row `n` below `v` shows `v'` -/
def Row (w : World) (v : Val) (n : Str) (v' : Val) : Prop := ∃ fuel, Py.Dict.get (shown w fuel v) n = some (.val v')

/-- opening the rows with these names, one below the other -/
inductive Opened (w : World) : Val → List Str → Val → Prop
  | here (v) : Opened w v [] v
  | row {v n v' ns v''} : Plain w v → Row w v n v' → '\t' ∉ n → Opened w v' ns v'' → Opened w v (n :: ns) v''

/-- the variable a name means in a frame: the local one, or else the global one -/
def Means (f : Frame) (n : Str) (r : Nat) : Prop :=
  Py.Dict.get f.locals n = some r ∨ Py.Dict.get f.locals n = none ∧ Py.Dict.get f.globals n = some r

/-- a name of a variable -/
def Name (n : Str) : Prop := '\t' ∉ n ∧ '(' ∉ n ∧ n ≠ c!"Unable to handle:"

end VarPath.Spec
