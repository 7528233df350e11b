import Verif.ImportHook.Model
/-!
The specification of functions for modules, on what can be seen.
-/

namespace ImportHook.Spec

/-- what is waited for: the functions of modules that are not imported yet, and the call that must come next -/
structure Wait where
  fns : Nat → Option Nat
  next : Option (Nat × Nat)

/-- what may be seen next: after the import of a module with a function this function is called at once, and no other call is made; the
hook is removed only if nothing is waited for -/
inductive Step : Wait → Ev → Wait → Prop
  | added (w n f) : w.next = none → Step w (.added n f) ⟨fun m => if m = n then some f else w.fns m, none⟩
  | plain (w n) : w.next = none → w.fns n = none → Step w (.imported n) w
  | first (w n f) : w.next = none → w.fns n = some f → Step w (.imported n) ⟨fun m => if m = n then none else w.fns m, some (n, f)⟩
  | called (w n f) : w.next = some (n, f) → Step w (.called n f) ⟨w.fns, none⟩
  | removed (w) : w.next = none → (∀ n, w.fns n = none) → Step w .removed w

inductive Steps : Wait → List Ev → Wait → Prop
  | nil (w) : Steps w [] w
  | snoc {w l w' e w''} : Steps w l w' → Step w' e w'' → Steps w (l ++ [e]) w''

def start : Wait := ⟨fun _ => none, none⟩

/-- a module is registered after the hook is removed -/
def Late (l : List Ev) : Prop := ∃ a n f, a ++ [Ev.added n f] <+: l ∧ Ev.removed ∈ a

end ImportHook.Spec
