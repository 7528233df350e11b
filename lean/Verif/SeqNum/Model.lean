/-!
Model of the generation of sequence numbers for messages the debugger originates.

Source: `/repo/_pydevd_bundle/pydevd_net_command.py` 51 and 65-67:

    if seq == 0:
        NetCommand.next_seq += 2
        seq = NetCommand.next_seq

`NetCommand.next_seq += 2` is a load, an addition and a store of a class attribute, and the next line is
another load; no lock is held. The model interleaves these three accesses of any number of threads.
-/

namespace SeqNum

/-- Where a thread is inside the three accesses. -/
inductive Pc where
  | idle
  /-- loaded the value at line 66 -/
  | loaded (v : Nat)
  /-- stored the incremented value at line 66 -/
  | stored
deriving DecidableEq, Repr

structure State where
  /-- `NetCommand.next_seq` -/
  next : Nat := 0
  pc : Nat → Pc := fun _ => .idle
  /-- sequence numbers given to messages, in order, with the thread -/
  given : List Nat := []

/-- Thread `t` performs its next access. -/
def step (s : State) (t : Nat) : State :=
  match s.pc t with
  | .idle => { s with pc := fun u => if u = t then .loaded s.next else s.pc u }
  | .loaded v => { s with next := v + 2, pc := fun u => if u = t then .stored else s.pc u }
  | .stored =>
    { s with given := s.given ++ [s.next], pc := fun u => if u = t then .idle else s.pc u }

def run (s : State) (ts : List Nat) : State := ts.foldl step s

def start : State := {}

end SeqNum
