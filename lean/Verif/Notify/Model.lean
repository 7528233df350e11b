/-!
Model of the single "all threads stopped / continued" notification.

Source: `/repo/pydevd.py` class `AbstractSingleNotificationBehavior` (348-470) and
`ThreadsSuspendedSingleNotification` (473-515).

Every method that touches the state takes `_lock`, so each is one atomic action; the actions of any
number of threads interleave arbitrarily. `on_pause` releases the lock before it registers its timeout;
the timeout may run at any later moment, so the model keeps the set of pending request times and a
timeout is an action of its own.

Simplifications: the thread object stored with the id is not modelled; a callback is a number, and
whether it raises is a parameter; a `py_db` that was garbage collected (in which case nothing is sent)
is not modelled.
-/

namespace Notify

abbrev Tid := Nat

/-- Stop reasons that matter here: `CMD_THREAD_SUSPEND` (a side effect of another stop), anything else. -/
inductive Reason where
  | threadSuspend
  | other (cmd : Nat)
deriving DecidableEq, Repr

/-- What is observable from outside. -/
inductive Ev where
  /-- 'all threads stopped' sent for request time `time` -/
  | stop (time : Int) (tid : Tid) (r : Reason)
  /-- 'all threads continued' sent -/
  | cont (tid : Tid)
  /-- a callback was registered -/
  | registered (cb : Nat)
  /-- a callback was called -/
  | called (cb : Nat)
deriving DecidableEq, Repr

structure State where
  /-- what `_next_request_time()` returns next -/
  nextTime : Int := 1
  /-- `_suspend_time_request` (drawn once in `__init__`, 394) -/
  request : Int := 0
  /-- `_last_suspend_notification_time` -/
  lastSuspend : Int := -1
  /-- `_last_resume_notification_time` -/
  lastResume : Int := -1
  /-- keys of `_suspended_thread_id_to_thread`, in insertion order -/
  suspended : List Tid := []
  /-- `_pause_requested` -/
  pause : Bool := false
  /-- request times captured by `on_pause` whose timeout did not run yet -/
  pending : List Int := []
  /-- `_callbacks` -/
  callbacks : List Nat := []
  log : List Ev := []
deriving DecidableEq, Repr

inductive Action where
  /-- `increment_suspend_time` (405-407) -/
  | increment
  /-- `on_pause` (409-419) -/
  | pause
  /-- `_notify_after_timeout(global_suspend_time)` (421-430) -/
  | timeout (g : Int)
  /-- `on_thread_suspend` (432-457) -/
  | suspend (t : Tid) (r : Reason)
  /-- `on_thread_resume` (459-473) -/
  | resume (t : Tid)
  /-- `add_on_resumed_callback` (493-495) -/
  | addCallback (cb : Nat)
deriving DecidableEq, Repr

/-- dict assignment: a new key goes last, an existing one keeps its place -/
def insert (l : List Tid) (t : Tid) : List Tid := if t ∈ l then l else l ++ [t]

/-- Calling the callbacks in order (506-507); one that raises ends the loop. -/
def callAll (raises : Nat → Bool) : List Nat → List Ev
  | [] => []
  | c :: cs => .called c :: (if raises c then [] else callAll raises cs)

def step (raises : Nat → Bool) (s : State) : Action → State
  | .increment => { s with request := s.nextTime, nextTime := s.nextTime + 1 }
  | .pause => { s with pause := true, pending := s.request :: s.pending }
  | .timeout g =>
    if g ∈ s.pending then
      let s := { s with pending := s.pending.erase g }
      match s.suspended with
      | [] => s
      | t :: _ =>
        if s.lastSuspend < g then
          { s with lastSuspend := g, log := s.log ++ [.stop g t .threadSuspend] }
        else s
    else s
  | .suspend t r =>
    let pauseRequested := s.pause
    let s := { s with pause := false, suspended := insert s.suspended t }
    if r ≠ .threadSuspend ∨ pauseRequested = true then
      if s.lastSuspend < s.request then
        { s with lastSuspend := s.request, log := s.log ++ [.stop s.request t r] }
      else s
    else s
  | .resume t =>
    if t ∈ s.suspended then
      let s := { s with suspended := s.suspended.erase t }
      if s.lastResume < s.lastSuspend then
        { s with lastResume := s.lastSuspend, callbacks := [],
                 log := s.log ++ .cont t :: callAll raises s.callbacks }
      else s
    else s                                   -- `pop` raises KeyError, nothing changed
  | .addCallback cb => { s with callbacks := s.callbacks ++ [cb], log := s.log ++ [.registered cb] }

def run (raises : Nat → Bool) (s : State) (as : List Action) : State := as.foldl (step raises) s

def start : State := {}

end Notify
