/-!
Model of the 'thread started' / 'thread exited' events.

Source: `/repo/pydevd.py` `notify_thread_created` (1705-1728), `notify_thread_not_alive` (1730-1749),
`set_enable_thread_notifications` (1751-1759) and the polling part of `process_internal_commands`
(1774-1807).

`notify_thread_created`/`notify_thread_not_alive` decide under `_lock_running_thread_ids` and hand the
message to the writer *after* releasing it (1728, 1749): the decision and the hand-over are two actions.
During polling the lock is held around everything, so polling is one action.

Simplifications: a thread object is a number, a thread id another one (ids may be reused by another
object); `pydev_notify_kill` lives in the `additional_info` attached to the thread object, which is
never detached; the test `self.writer is None` is not modelled; `clear_cached_thread_id` (1792) is not
modelled: the ids of the threads found by polling are arbitrary.
-/

namespace ThreadEvents

abbrev Tid := Nat
abbrev Thread := Nat

inductive Ev where
  | started (id : Tid)
  | exited (id : Tid)
  /-- ghost marker: notifications were switched on (a new client session begins) -/
  | enabled
deriving DecidableEq, Repr

structure State where
  /-- `_enable_thread_notifications` -/
  enabled : Bool := false
  /-- `_running_thread_ids` -/
  running : List (Tid × Thread) := []
  /-- `additional_info.pydev_notify_kill` -/
  notifyKill : Thread → Bool := fun _ => false
  /-- messages decided under the lock and not handed to the writer yet -/
  inflight : List Ev := []
  /-- ghost: the messages in the order in which they were decided -/
  decided : List Ev := []
  /-- the messages in the order in which the writer got them -/
  sent : List Ev := []

/-- Under the lock: the decision of `notify_thread_created` (1714-1726); `true` if a message is due. -/
def decideCreated (s : State) (id : Tid) (t : Thread) : State × Bool :=
  if !s.enabled then (s, false)
  else if (s.running.map (·.1)).contains id then (s, false)
  else if s.notifyKill t then (s, false)
  else ({ s with running := s.running ++ [(id, t)], decided := s.decided ++ [.started id] }, true)

/-- Under the lock: the decision of `notify_thread_not_alive` (1736-1747). -/
def decideNotAlive (s : State) (id : Tid) : State × Bool :=
  if !s.enabled then (s, false)
  else
    match s.running.find? (fun e => e.1 == id) with
    | none => (s, false)
    | some (_, t) =>
      ({ s with running := s.running.filter (fun e => e.1 != id),
                notifyKill := fun u => if u = t then true else s.notifyKill u,
                decided := s.decided ++ [.exited id] }, true)

inductive Action where
  /-- `notify_thread_created(id, t)` up to the release of the lock -/
  | created (id : Tid) (t : Thread)
  /-- `notify_thread_not_alive(id)` up to the release of the lock -/
  | notAlive (id : Tid)
  /-- a thread hands its decided message to the writer -/
  | emit (e : Ev)
  /-- polling: the ids and objects of the threads found alive -/
  | poll (alive : List (Tid × Thread))
  /-- `set_enable_thread_notifications(b)` -/
  | enable (b : Bool)
deriving DecidableEq, Repr

/-- Polling: threads found alive (1781-1798). -/
def pollAlive : State → List (Tid × Thread) → State
  | s, [] => s
  | s, (id, t) :: rest =>
    let (s', b) := decideCreated s id t
    pollAlive (if b then { s' with sent := s'.sent ++ [.started id] } else s') rest

/-- Polling: ids that are no longer alive (1806-1807). -/
def pollDead : State → List Tid → State
  | s, [] => s
  | s, id :: rest =>
    let (s', b) := decideNotAlive s id
    pollDead (if b then { s' with sent := s'.sent ++ [.exited id] } else s') rest

def step (s : State) : Action → State
  | .created id t =>
    let (s', b) := decideCreated s id t
    if b then { s' with inflight := s'.inflight ++ [.started id] } else s'
  | .notAlive id =>
    let (s', b) := decideNotAlive s id
    if b then { s' with inflight := s'.inflight ++ [.exited id] } else s'
  | .emit e =>
    if e ∈ s.inflight then { s with inflight := s.inflight.erase e, sent := s.sent ++ [e] } else s
  | .poll alive =>
    let s := pollAlive s alive
    let dead := (s.running.map (·.1)).filter (fun id => !(alive.map (·.1)).contains id)   -- 1801-1804
    pollDead s dead
  | .enable b =>
    if s.enabled != b then
      if b then { s with enabled := true, running := [], decided := s.decided ++ [.enabled],
                         sent := s.sent ++ [.enabled] }
      else { s with enabled := false }
    else s

def run (s : State) (as : List Action) : State := as.foldl step s

def start : State := {}

end ThreadEvents
