/-!
Model of commands posted for "any thread".

Source: `/repo/_pydevd_bundle/pydevd_comm.py`, `InternalThreadCommandForAnyThread.do_it` (590-596):

    with self.lock:
        if self.executed:
            return
        self.executed = True
    InternalThreadCommand.do_it(self, dbg)

Any number of threads may call `do_it` of the same command; each access is one atomic action.
-/

namespace AnyThread

inductive Pc where
  /-- did not call `do_it` -/
  | idle
  /-- inside `with self.lock`, flag not tested yet (591-592) -/
  | locked
  /-- flag was set: about to leave the block and return (593) -/
  | losing
  /-- flag was clear: about to set it (594) -/
  | setting
  /-- flag set by this thread: about to leave the block -/
  | leaving
  /-- about to run the command (596) -/
  | running
  /-- returned -/
  | done
deriving DecidableEq, Repr

structure State where
  /-- owner of `self.lock` -/
  owner : Option Nat := none
  executed : Bool := false
  pc : Nat → Pc := fun _ => .idle
  /-- threads that ran the command, in order -/
  runs : List Nat := []

def setPc (s : State) (t : Nat) (p : Pc) : Nat → Pc := fun u => if u = t then p else s.pc u

/-- Next action of thread `t` (a blocked thread does nothing). -/
def step (s : State) (t : Nat) : State :=
  match s.pc t with
  | .idle => if s.owner = none then { s with owner := some t, pc := setPc s t .locked } else s
  | .locked => { s with pc := setPc s t (if s.executed then .losing else .setting) }
  | .losing => { s with owner := none, pc := setPc s t .done }
  | .setting => { s with executed := true, pc := setPc s t .leaving }
  | .leaving => { s with owner := none, pc := setPc s t .running }
  | .running => { s with runs := s.runs ++ [t], pc := setPc s t .done }
  | .done => s

def run (s : State) (ts : List Nat) : State := ts.foldl step s

def start : State := {}

end AnyThread
