import Verif.Locks.Model

/-! What it means to be stuck, in terms of threads and locks only. -/

namespace Locks

/-- Thread `t` is stopped at a `with` whose lock thread `u` has, and `t` cannot have it now. -/
def Blocked (s : State) (t u : Nat) : Prop :=
  ∃ l r, (s.thread t).want = some (l, r) ∧ s.owner l = some u ∧ ¬ grantable s t l

/-- A deadlock: some threads, at least one, each of which is stopped at a lock that one of them
has.  With one thread alone it is a thread which waits for a lock it holds itself. -/
def Deadlock (s : State) : Prop :=
  ∃ d : List Nat, d ≠ [] ∧ ∀ t ∈ d, ∃ u ∈ d, Blocked s t u

/-- Following who waits for whom. -/
inductive Chain (s : State) : Nat → Nat → Prop
  | refl (t : Nat) : Chain s t t
  | step {t u v : Nat} : Blocked s t u → Chain s u v → Chain s t v

/-- A thread which can take a step of its own: it does not wait, or what it waits for is there. -/
def CanMove (s : State) (t : Nat) : Prop :=
  (s.thread t).want = none ∨ ∃ l r, (s.thread t).want = some (l, r) ∧ grantable s t l

/-- The log never writes to a redirected stream while messages for the client are logged. -/
def Cfg.quiet (cfg : Cfg) : Prop :=
  cfg.verbose = true → cfg.logRedirected = false ∧ cfg.logFileFails = false

end Locks
