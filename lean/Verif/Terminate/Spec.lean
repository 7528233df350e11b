import Verif.Terminate.Model

/-!
What the statements about the termination of child processes speak of.
-/

namespace Terminate.Spec

/-- `d` descends from `root` by forks, in the table `ps`, over processes that are not to be spared. -/
inductive Descends (spare : Nat → Prop) (root : Nat) (ps : List Proc) : Nat → Prop where
  | child (p : Proc) : p ∈ ps → p.creator = root → ¬ spare p.pid → Descends spare root ps p.pid
  | further (q : Nat) (p : Proc) : Descends spare root ps q → p ∈ ps → p.creator = q → ¬ spare p.pid →
      Descends spare root ps p.pid

/-- A process table as the system may have it when the routine begins: every process is found under its parent,
nothing has the number of the init process, numbers are not used twice, what was waited for is dead and the
process itself is alive and does not descend from itself. -/
structure Table (root : Nat) (ps : List Proc) : Prop where
  parents : ∀ p ∈ ps, p.ppid = p.creator ∧ (p.creator = 0 ∨ ∃ q ∈ ps, q.pid = p.creator)
  dead : ∀ p ∈ ps, ¬ p.alive → ∀ q ∈ ps, q.creator ≠ p.pid
  waited : ∀ p ∈ ps, p.reaped → ¬ p.alive
  positive : ∀ p ∈ ps, p.pid ≠ 0
  unique : ∀ p ∈ ps, ∀ q ∈ ps, p.pid = q.pid → p = q
  here : ∃ p ∈ ps, p.pid = root ∧ p.alive
  notOwn : ¬ Descends (fun _ => False) root ps root

/-- The process `root` forks. -/
def isForkOf (root : Nat) : Action → Bool
  | .fork p _ => p == root
  | _ => false

end Terminate.Spec
