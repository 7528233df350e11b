import Verif.PluginBreaks.Model
/-!
Which breakpoints there are after what the client asked for.
-/

namespace PluginBreaks.Spec

/-- the breakpoint `id` of the file is set anew, or removed -/
def Touches (file id : Nat) : Op → Prop
  | .add _ f i _ => f = file ∧ i = id
  | .remove _ f i => f = file ∧ i = id
  | .removeAll f => f = file
  | .clear => True

/-- it was set, and not touched since then -/
def Live (h : List Op) (k : Kind) (file id line : Nat) : Prop :=
  ∃ pre post, h = pre ++ Op.add k file id line :: post ∧ ∀ o ∈ post, ¬ Touches file id o

/-- breakpoints in one file are of one kind -/
def OneKind (kindOf : Nat → Kind) : Op → Prop
  | .add k f _ _ => k = kindOf f
  | .remove k f _ => k = kindOf f
  | _ => True

end PluginBreaks.Spec
