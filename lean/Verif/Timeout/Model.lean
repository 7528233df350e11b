/-!
Model of the timeout tracker.

Source: `/repo/_pydevd_bundle/pydevd_timeout.py`: `_TimeoutThread` (24-105), `_OnTimeoutHandle`
(107-155), `TimeoutTracker.call_on_timeout` (167-194).

Two kinds of threads interleave: clients (registering a handle; leaving the `with` block of a handle)
and the timeout thread (running passes over the handles). Registration takes the timeout thread's lock,
so it cannot happen during a pass; leaving a `with` block takes another lock (the tracker's), so it can
happen at any point of a pass. Each access to a handle's attributes is one action. The times that
`time.time()` returns are arbitrary (not even monotone).

Simplifications: times are integers; a handle is a number; a callback that raises is caught and logged
(127-128), so it behaves like one that returns; registering from inside a callback (which would
dead-lock on the non-reentrant lock) is not an action; the end of the thread (which drops the handles,
43-45) is not an action.
-/

namespace Timeout

abbrev Handle := Nat

/-- Where the timeout thread is inside one pass. -/
inductive Pc where
  /-- at the head of the `for` (67) -/
  | next
  /-- `curtime < abs_timeout` was true; about to read `disposed` (68) -/
  | dispTest (h : Handle)
  /-- in `exec_on_timeout`: about to read `kwargs` (120) -/
  | readKw (h : Handle)
  /-- about to read `on_timeout` (121) -/
  | readCb (h : Handle) (kw : Bool)
  /-- about to test `disposed` (123) -/
  | test (h : Handle) (kw cb : Bool)
  /-- about to set `disposed` (124) -/
  | setDisp (h : Handle) (kw cb : Bool)
  /-- about to clear `kwargs` (125) -/
  | clearKw (h : Handle) (kw cb : Bool)
  /-- about to clear `on_timeout` (126) -/
  | clearCb (h : Handle) (kw cb : Bool)
  /-- about to call (132) -/
  | call (h : Handle) (kw cb : Bool)
deriving DecidableEq, Repr

/-- A pass of `process_handles` in progress. -/
structure Pass where
  /-- `curtime` -/
  cur : Int
  /-- rest of `handles` -/
  todo : List Handle
  /-- `new_handles` -/
  kept : List Handle := []
  /-- `min_handle_timeout` -/
  min : Option Int := none
  pc : Pc := .next
deriving DecidableEq, Repr

/-- A call that was made: handle, `curtime` of the pass, whether `kwargs` and `on_timeout` as read were
still there (not `None`). -/
structure Call where
  handle : Handle
  cur : Int
  kw : Bool
  cb : Bool
deriving DecidableEq, Repr

structure State where
  /-- `self._handles` -/
  handles : List Handle := []
  /-- `self._event` -/
  event : Bool := false
  /-- `wait_time` in `_on_run` -/
  wait : Option Int := none
  /-- ghost: `curtime` of the last pass -/
  lastCur : Int := 0
  registered : Handle → Bool := fun _ => false
  /-- `abs_timeout` -/
  due : Handle → Int := fun _ => 0
  disposed : Handle → Bool := fun _ => false
  /-- `kwargs is not None` -/
  kw : Handle → Bool := fun _ => true
  /-- `on_timeout is not None` -/
  cb : Handle → Bool := fun _ => true
  /-- progress of `__exit__` of the handle: 0 not entered, 1..3 assignments made, 3 returned -/
  exit : Handle → Nat := fun _ => 0
  pass : Option Pass := none
  /-- calls made, in order -/
  calls : List Call := []

inductive Action where
  /-- `call_on_timeout` creating handle `h`, due at `now + timeout` -/
  | register (h : Handle) (now timeout : Int)
  /-- one assignment of `__exit__` (148-151) -/
  | exit (h : Handle)
  /-- `process_handles` starts, `time.time()` gives `cur` (51-63) -/
  | begin (cur : Int)
  /-- the timeout thread makes one step of its pass -/
  | tick
deriving DecidableEq, Repr

def upd {α : Type} (f : Handle → α) (h : Handle) (v : α) : Handle → α := fun k => if k = h then v else f k

/-- New minimum (72-76). -/
def newMin (m : Option Int) (d : Int) : Option Int :=
  match m with
  | none => some d
  | some x => if d < x then some d else some x

/-- One step of the timeout thread inside a pass. -/
def tick (s : State) (p : Pass) : State :=
  match p.pc with
  | .next =>
    match p.todo with
    | [] =>                                                                        -- 84-91
      { s with pass := none, handles := p.kept, wait := p.min.map (fun m => m - p.cur), lastCur := p.cur }
    | h :: todo =>                                                                 -- 67-68
      { s with pass := some { p with todo, pc := if p.cur < s.due h then .dispTest h else .readKw h } }
  | .dispTest h =>                                                                 -- 68-82
    if s.disposed h then { s with pass := some { p with pc := .readKw h } }
    else { s with pass := some { p with pc := .next, kept := p.kept ++ [h], min := newMin p.min (s.due h) } }
  | .readKw h => { s with pass := some { p with pc := .readCb h (s.kw h) } }
  | .readCb h k => { s with pass := some { p with pc := .test h k (s.cb h) } }
  | .test h k c =>
    if s.disposed h then { s with pass := some { p with pc := .next } }
    else { s with pass := some { p with pc := .setDisp h k c } }
  | .setDisp h k c => { s with disposed := upd s.disposed h true, pass := some { p with pc := .clearKw h k c } }
  | .clearKw h k c => { s with kw := upd s.kw h false, pass := some { p with pc := .clearCb h k c } }
  | .clearCb h k c => { s with cb := upd s.cb h false, pass := some { p with pc := .call h k c } }
  | .call h k c =>
    { s with calls := s.calls ++ [⟨h, p.cur, k, c⟩], pass := some { p with pc := .next } }

def step (s : State) : Action → State
  | .register h now timeout =>
    -- blocked by the lock during a pass; a handle is created only once
    if s.pass.isNone && !s.registered h then
      { s with registered := upd s.registered h true, due := upd s.due h (now + timeout),
               handles := s.handles ++ [h], event := true }
    else s
  | .exit h =>
    if s.registered h then
      match s.exit h with
      | 0 => { s with disposed := upd s.disposed h true, exit := upd s.exit h 1 }
      | 1 => { s with kw := upd s.kw h false, exit := upd s.exit h 2 }
      | 2 => { s with cb := upd s.cb h false, exit := upd s.exit h 3 }
      | _ => s
    else s
  | .begin cur =>
    match s.pass with
    | some _ => s
    | none => { s with handles := [], event := false, pass := some { cur, todo := s.handles } }
  | .tick =>
    match s.pass with
    | some p => tick s p
    | none => s

def run (s : State) (as : List Action) : State := as.foldl step s

def start : State := {}

end Timeout
