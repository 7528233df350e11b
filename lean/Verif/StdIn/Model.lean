/-!
Model of the notifications about input which the program waits for.

Source: `/repo/_pydev_bundle/pydev_console_utils.py` `DebugConsoleStdIn` (96-146): `notify_input_requested`
(124-134), `readline` (136-138), `read` (140-142).

Any number of threads read, and a read may begin inside of another one of the same thread (a signal handler
which reads). The counter is shared: its change and the test which follows it are two actions.

Simplifications: the change of the counter (`+= 1`) is one action (in CPython no other thread runs between its
parts, though nothing says so); a failure to send the message is logged and changes nothing; what is read is
not modelled, whether the read raises makes no difference (`finally`).
-/

namespace StdIn

abbrev Tid := Nat

/-- Where a thread is, for the innermost of its reads which is not simply waiting. -/
inductive Pc where
  /-- not in the code of the notification (running, or waiting for input) -/
  | out
  /-- after `+= 1`, before `if self._in_notification == 1` (126-127) -/
  | entered
  /-- after `-= 1`, before `if self._in_notification == 0` (132-133) -/
  | left
deriving DecidableEq, Repr

structure St where
  /-- `_in_notification` -/
  count : Int := 0
  pc : Tid → Pc := fun _ => .out
  /-- reads in progress of each thread -/
  depth : Tid → Nat := fun _ => 0
  /-- what was sent: whether input is requested -/
  sent : List Bool := []

inductive Act where
  /-- a read begins -/
  | enter (t : Tid)
  /-- the test after the beginning of a read, or after its end -/
  | test (t : Tid)
  /-- a read ends, with a line or an exception -/
  | leave (t : Tid)
deriving DecidableEq, Repr

def upd {α} (f : Tid → α) (t : Tid) (x : α) : Tid → α := fun u => if u = t then x else f u

def act (s : St) : Act → St
  | .enter t =>
    if s.pc t = .out then
      { s with count := s.count + 1, pc := upd s.pc t .entered, depth := upd s.depth t (s.depth t + 1) }
    else s
  | .test t =>
    match s.pc t with
    | .entered => { s with pc := upd s.pc t .out, sent := if s.count = 1 then s.sent ++ [true] else s.sent }
    | .left => { s with pc := upd s.pc t .out, sent := if s.count = 0 then s.sent ++ [false] else s.sent }
    | .out => s
  | .leave t =>
    if s.pc t = .out ∧ 0 < s.depth t then
      { s with count := s.count - 1, pc := upd s.pc t .left, depth := upd s.depth t (s.depth t - 1) }
    else s

def run (acts : List Act) : St := acts.foldl act {}

end StdIn
