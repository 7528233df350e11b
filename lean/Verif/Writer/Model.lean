/-!
Model of the thread that writes messages to the client.

Source: `/repo/_pydevd_bundle/pydevd_comm.py`, class `WriterThread` (363-448).

The model is an interleaving of atomic actions of the writer loop and of any number of other threads:
* `add_command` (377-380) is two actions, the test of `_kill_received` and the `put` (another thread
  may run in between);
* `do_kill_pydev_thread` (441-448) is `add_command(exit)` followed by setting the flag, here the
  actions `check exit`, `put exit`, `setKill`; the first test of the flag (443) only decides whether
  these actions happen at all;
* a turn of the writer loop is: `get` returns a message, which is then sent (390, 422), or `get`
  raises `Empty` (391) and *afterwards* the flag is read (392).
The 0.1 s timeout is abstracted: `Empty` may be raised at any moment at which the queue is empty.
Messages of type `_NullNetCommand` send nothing; the model's "sent" list is the list of `cmd.send`
calls that succeeded.
-/

namespace Writer

/-- A message; `exit` says `cmd.id == CMD_EXIT`. The `uid` distinguishes messages. -/
structure Msg where
  uid : Nat
  exit : Bool
deriving DecidableEq, Repr

/-- Where the writer thread is. -/
inductive Pc where
  /-- about to call `get` (390) -/
  | waiting
  /-- `Empty` was raised, `_kill_received` not yet read (391) -/
  | sawEmpty
  /-- returned after `Empty` with the flag set (408) -/
  | stoppedEmpty
  /-- left the loop after sending the exit message (424-426) -/
  | stoppedExit
  /-- `send` raised (430) -/
  | stoppedError
deriving DecidableEq, Repr

structure State where
  /-- `_cmd_queue` -/
  queue : List Msg := []
  /-- `_kill_received` -/
  kill : Bool := false
  pc : Pc := .waiting
  /-- messages of threads that passed the test in `add_command` and did not `put` yet -/
  passed : List Msg := []
  /-- ghost: messages ever passed to `add_command` -/
  asked : List Msg := []
  /-- ghost: messages ever `put` in the queue, in order -/
  accepted : List Msg := []
  /-- messages sent, in order -/
  sent : List Msg := []
  /-- ghost: how many messages had been accepted when the queue was last seen empty -/
  seenEmptyAt : Nat := 0
deriving Repr

inductive Action where
  /-- `if not self._kill_received` in `add_command(m)` (379) -/
  | check (m : Msg)
  /-- `self._cmd_queue.put(m, False)` (380) by a thread that passed the test -/
  | put (m : Msg)
  /-- `_kill_received = True` (448) -/
  | setKill
  /-- the writer gets and sends the first message (390, 422-426) -/
  | send
  /-- the writer gets the first message and `send` raises (422, 430) -/
  | sendFails
  /-- `get` raises `Empty` (391) -/
  | getEmpty
  /-- the writer reads `_kill_received` after `Empty` (392-410) -/
  | readKill
deriving DecidableEq, Repr

/-- One atomic action; an action that is not enabled leaves the state unchanged. -/
def step (s : State) : Action → State
  | .check m =>
    if s.kill then { s with asked := s.asked ++ [m] }
    else { s with asked := s.asked ++ [m], passed := m :: s.passed }
  | .put m =>
    if m ∈ s.passed then
      { s with passed := s.passed.erase m, queue := s.queue ++ [m], accepted := s.accepted ++ [m] }
    else s
  | .setKill => { s with kill := true }
  | .send =>
    match s.pc, s.queue with
    | .waiting, m :: q =>
      { s with queue := q, sent := s.sent ++ [m], pc := if m.exit then .stoppedExit else .waiting }
    | _, _ => s
  | .sendFails =>
    match s.pc, s.queue with
    | .waiting, _ :: q => { s with queue := q, pc := .stoppedError }
    | _, _ => s
  | .getEmpty =>
    match s.pc, s.queue with
    | .waiting, [] => { s with pc := .sawEmpty, seenEmptyAt := s.accepted.length }
    | _, _ => s
  | .readKill =>
    match s.pc with
    | .sawEmpty => { s with pc := if s.kill then .stoppedEmpty else .waiting }
    | _ => s

/-- Run a schedule. -/
def run (s : State) (as : List Action) : State := as.foldl step s

/-- Every execution starts here. -/
def start : State := {}

end Writer
