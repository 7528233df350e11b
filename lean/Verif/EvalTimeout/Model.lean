import Verif.Notify.Model
/-!
Model of a slow evaluation which lets the other threads go (and holds them again at its end).

Source: `/repo/_pydevd_bundle/pydevd_vars.py` `_run_with_unblock_threads` (312-346);
`pydevd_thread_lifecycle.py` `resume_threads` (62-82), `mark_thread_suspended` (31-57),
`suspend_all_threads` (90-120); `pydevd_timeout.py` `_OnTimeoutHandle` (107-155);
`pydevd.py` `PyDB.set_suspend` (1916-1984) for the other threads which hit something meanwhile. The single
notification is the one of `Notify.Model` (`pydevd.py` 348-515).

Three kinds of threads interleave: the thread which evaluates (`me`, stopped, in its wait loop), the
thread of the timeouts, which may run the callback, and the other threads of the program, which run when
they are let go. Every write of a state (`pydev_state`) and every call of the notification (which has its
own lock) is one action. The client may let threads go at any moment.

Simplifications: the list of threads is the same throughout; a thread marked as not to be traced
(`pydev_do_not_trace`) is not in it; the callback's test of `disposed` and the writes which follow it
(123-126) are one action (nothing else can be between them but `__exit__`, which would come too late
anyway); marking a thread is one write; an interrupt (`KeyboardInterrupt`) which arrives inside the
`finally` is not modelled, one which arrives in the evaluation is an end of it like any other.
-/

namespace EvalTimeout

open Notify (Tid)

/-- Whether a slow evaluation lets the other threads go (316-321): only with a single notification for all
threads, and only if the timeout is not negative. -/
def unblocks (single : Bool) (timeout : Int) : Bool :=
  let timeout := if single then timeout else -1
  decide (0 ≤ timeout)

/-- Where the evaluating thread is. -/
inductive Pc where
  /-- in the `with` (337-338) -/
  | evaluating
  /-- in the `finally`, before the test of `called` (341) -/
  | check
  /-- before `with suspend_threads_lock` (342) -/
  | locking
  /-- before `mark_thread_suspended(curr_thread, …)` (343) -/
  | marking
  /-- before `increment_suspend_time` (344) -/
  | incr
  /-- in `suspend_all_threads` (345), threads still to be marked -/
  | suspending (todo : List Tid)
  /-- before `on_thread_suspend` (346) -/
  | telling
  /-- the evaluation returned (or raised) -/
  | done
deriving DecidableEq, Repr

/-- Where the timeout is. -/
inductive Timer where
  /-- registered -/
  | armed
  /-- the callback is called, and did nothing yet -/
  | entered
  /-- in `resume_threads`, threads still to be resumed -/
  | resuming (todo : List Tid)
  /-- before `on_thread_resume` -/
  | telling
  /-- the callback returned -/
  | over
  /-- nothing to call: no timeout was registered, or it was disposed of -/
  | none
deriving DecidableEq, Repr

structure St where
  pc : Pc := .evaluating
  timer : Timer
  /-- `handle.disposed` -/
  disposed : Bool := false
  /-- `on_timeout_unblock_threads.called` -/
  called : Bool := false
  /-- `pydev_state == STATE_SUSPEND` of each thread -/
  held : Tid → Bool
  /-- another thread inside `with suspend_threads_lock` of `set_suspend`, threads still to be marked -/
  busy : Option (Tid × List Tid) := Option.none
  /-- other threads which found that they are not held, and did not tell it yet -/
  out : List Tid := []
  /-- the single notification -/
  n : Notify.State

/-- The evaluating thread owns `suspend_threads_lock`. -/
def Pc.owns : Pc → Bool
  | .marking | .incr | .suspending _ | .telling => true
  | _ => false

inductive Act where
  /-- the timeout thread finds the handle due (`exec_on_timeout`) -/
  | fire
  /-- the next step of the callback -/
  | callback
  /-- the evaluation ends, with a value or with an exception: `__exit__` of the handle -/
  | finish
  /-- the next step of the evaluating thread in the `finally` -/
  | own
  /-- another thread, on its way to stop, calls `increment_suspend_time` (1948) -/
  | incr
  /-- another thread `t` takes the lock in `set_suspend` and is marked (1952-1953) -/
  | hit (t : Tid)
  /-- the thread in `set_suspend` marks the next thread, or leaves the lock (1961) -/
  | hitStep
  /-- another thread `t` enters its wait loop with this reason (`on_thread_suspend`) -/
  | enter (t : Tid) (r : Notify.Reason)
  /-- another thread `t` finds that it is not held any more (`pydevd.py` 2222) -/
  | wake (t : Tid)
  /-- another thread `t` leaves its wait loop (`on_thread_resume`) -/
  | leave (t : Tid)
  /-- the client lets a thread go -/
  | letGo (t : Tid)
deriving DecidableEq, Repr

def upd (f : Tid → Bool) (t : Tid) (b : Bool) : Tid → Bool := fun u => if u = t then b else f u

/-- `CMD_SET_BREAK` -/
def setBreak : Notify.Reason := .other 111

def noRaise : Nat → Bool := fun _ => false

/-- One step. `me` is the evaluating thread, `ts` the threads of the program. -/
def act (me : Tid) (ts : List Tid) (s : St) : Act → St
  | .fire =>
    if s.timer = .armed then
      if s.disposed then { s with timer := .none } else { s with timer := .entered, disposed := true }
    else s
  | .callback =>
    match s.timer with
    | .entered => { s with timer := .resuming ts, called := true }
    | .resuming (t :: todo) =>
      { s with timer := .resuming todo, held := if t = me then s.held else upd s.held t false }
    | .resuming [] => { s with timer := .telling }
    | .telling => { s with timer := .over, n := Notify.step noRaise s.n (.resume me) }
    | _ => s
  | .finish => if s.pc = .evaluating then { s with pc := .check, disposed := true } else s
  | .own =>
    match s.pc with
    | .check => if s.called then { s with pc := .locking } else { s with pc := .done }
    | .locking => if s.busy = Option.none then { s with pc := .marking } else s
    | .marking => { s with pc := .incr, held := upd s.held me true }
    | .incr => { s with pc := .suspending ts, n := Notify.step noRaise s.n .increment }
    | .suspending (t :: todo) =>
      { s with pc := .suspending todo, held := if t = me then s.held else upd s.held t true }
    | .suspending [] => { s with pc := .telling }
    | .telling => { s with pc := .done, n := Notify.step noRaise s.n (.suspend me setBreak) }
    | _ => s
  | .incr => { s with n := Notify.step noRaise s.n .increment }
  | .hit t =>
    if t ≠ me ∧ s.busy = Option.none ∧ s.pc.owns = false then
      { s with busy := some (t, ts), held := upd s.held t true }
    else s
  | .hitStep =>
    match s.busy with
    | some (t, u :: todo) =>
      { s with busy := some (t, todo), held := if u = t then s.held else upd s.held u true }
    | some (_, []) => { s with busy := Option.none }
    | Option.none => s
  | .enter t r => if t ≠ me then { s with n := Notify.step noRaise s.n (.suspend t r) } else s
  | .wake t => if t ≠ me ∧ s.held t = false then { s with out := t :: s.out } else s
  | .leave t =>
    if t ∈ s.out then { s with out := s.out.erase t, n := Notify.step noRaise s.n (.resume t) } else s
  | .letGo t => { s with held := upd s.held t false }

def run (me : Tid) (ts : List Tid) (s : St) (acts : List Act) : St := acts.foldl (act me ts) s

/-- The beginning of an evaluation: all threads are stopped, the evaluating one in its wait loop. `n` is
what the notification is after what happened before. -/
def start (single : Bool) (timeout : Int) (n : Notify.State) : St :=
  { timer := if unblocks single timeout then .armed else .none, held := fun _ => true, n }

end EvalTimeout
