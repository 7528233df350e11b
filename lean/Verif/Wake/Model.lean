/-!
# Waking a thread whose state was changed

Models the bookkeeping of who is stepping, and the waking of suspended threads, of
`_pydevd_bundle/pydevd_additional_thread_info_regular.py`, and how `pydevd.py` waits.

Python sets are lists here; the order in which Python goes through a set is arbitrary, so every
update takes the two orders in which its loops go through the sets.
-/
namespace Wake

/-- What is known of the `threading.Thread` object behind an info
(`pydevd_additional_thread_info_regular.py` 129-149): the weak reference may be dead; the thread
may have ended, have no ident, or not be the thread registered under its ident. -/
inductive Thr where
  | collected
  | object (alive hasIdent active : Bool)
deriving DecidableEq, Repr

/-- The attributes of a `PyDBAdditionalThreadInfo` which the bookkeeping reads
(`pydevd_additional_thread_info_regular.py` 71-120). `suspended` is `pydev_state == STATE_SUSPEND`;
`stepCmd` is `pydev_step_cmd != -1`; `thr` is `none` until `weak_thread` is set. -/
structure Info where
  killed : Bool
  thr : Option Thr
  suspended : Bool
  stepCmd : Bool
  inWaitLoop : Bool
deriving DecidableEq, Repr

/-- The three answers of `_get_related_thread`: `None`, `False`, or the thread
(`pydevd_additional_thread_info_regular.py` 126-149). -/
inductive Related where
  | none_
  | false_
  | thread
deriving DecidableEq, Repr

/-- `_get_related_thread` (`pydevd_additional_thread_info_regular.py` 126-149). -/
def related (i : Info) : Related :=
  if i.killed then .none_
  else match i.thr with
    | none => .none_
    | some .collected => .false_
    | some (.object alive hasIdent active) =>
      if !alive then .none_
      else if !hasIdent then .none_
      else if !active then .none_
      else .thread

/-- `_is_stepping` (`pydevd_additional_thread_info_regular.py` 155-167). -/
def isStepping (i : Info) : Bool :=
  (!i.suspended && i.stepCmd) || (i.suspended && i.inWaitLoop)

/-- `info.weak_thread()` at the end of `_update_stepping_info`
(`pydevd_additional_thread_info_regular.py` 291-292): there is an object to wake. -/
def hasObject (i : Info) : Bool :=
  match i.thr with
  | some (.object ..) => true
  | _ => false

/-- `_all_infos` and `_infos_stepping` (`pydevd_additional_thread_info_regular.py` 259-261), the
attributes of every info by its number, and the events set and not yet waited for. -/
structure State where
  info : Nat → Info
  all : List Nat
  stepping : List Nat
  set : Nat → Bool

/-- The variable `info` after a loop `for info in l`: its last element, or the value it had
(`pydevd_additional_thread_info_regular.py` 278, 284). -/
def loopVar (l : List Nat) (before : Nat) : Nat :=
  l.getLast?.getD before

/-- `_update_stepping_info(info)` (`pydevd_additional_thread_info_regular.py` 268-295). `first` is
the order in which the first loop goes through `_all_infos`, `second` the order of the second.
The argument's name is the loops' variable. The global debugger exists and is not disposed. -/
def update (s : State) (arg : Nat) (first second : List Nat) : State :=
  let woken := loopVar second (loopVar first arg)
  { s with
    all := second
    stepping := second.filter fun i => isStepping (s.info i)
    set := fun i => if i = woken ∧ hasObject (s.info woken) = true then true else s.set i }

/-- The orders are possible: the first is some order of `_all_infos`, the second some order of the
infos kept (`pydevd_additional_thread_info_regular.py` 277-287). -/
def Orders (s : State) (first second : List Nat) : Prop :=
  first.Perm s.all ∧ second.Perm (first.filter fun i => decide (related (s.info i) ≠ .none_))

/-- What happens to the infos. -/
inductive Act where
  /-- `set_additional_thread_info` of a thread without one, with `add_additional_info`
  (`pydevd_additional_thread_info_regular.py` 210-247, 301-307). -/
  | add (i : Nat)
  /-- `remove_additional_info` (`pydevd_additional_thread_info_regular.py` 313-318; called by
  `pydevd.py`, when a thread has ended). -/
  | remove (i : Nat)
  /-- Attributes change, or the thread ends, or its object is collected. -/
  | change (i : Nat) (to : Info)
  /-- `update_stepping_info` of an info. -/
  | update (arg : Nat) (first second : List Nat)
  /-- The waiting thread's `notify_event.wait(...)` returned, and `notify_event.clear()`
  (`pydevd.py` 2249-2251). -/
  | waited (i : Nat)
deriving Repr

/-- The changes of one action. -/
def apply (s : State) : Act → State
  | .add i =>
    { s with
      all := if i ∈ s.all then s.all else i :: s.all
      stepping :=
        if isStepping (s.info i) = true ∧ i ∉ s.stepping then i :: s.stepping else s.stepping }
  | .remove i => { s with all := s.all.filter (· ≠ i), stepping := s.stepping.filter (· ≠ i) }
  | .change i to => { s with info := fun j => if j = i then to else s.info j }
  | .update a f g => update s a f g
  | .waited i => { s with set := fun j => if j = i then false else s.set j }

/-- Which actions can happen. -/
def Possible (s : State) : Act → Prop
  | .update _ f g => Orders s f g
  | _ => True

/-- The states after a history. -/
inductive Reachable : State → Prop where
  | start (f : Nat → Info) : Reachable ⟨f, [], [], fun _ => false⟩
  | step {s : State} (a : Act) : Reachable s → Possible s a → Reachable (apply s a)

/-! ## The wait of one suspended thread -/

/-- Where a suspended thread is in the loop of `_do_wait_suspend` (`pydevd.py` 2220-2251). -/
inductive Pc where
  /-- At the check of the state, with the main lock (2221-2224). -/
  | check
  /-- At `queue.get(False)` (2233-2247). -/
  | get
  /-- In `notify_event.wait(wait_timeout)` (2249). -/
  | wait
  /-- At `notify_event.clear()` (2250). -/
  | clear
  /-- Out of the loop. -/
  | left
deriving DecidableEq, Repr

/-- The thread's queue and event (`pydevd.py` 1580-1585), whether its state
was set to running, the commands posted and done so far, and how many times the wait ran into its
timeout. Commands are numbers. -/
structure W where
  pc : Pc
  queue : List Nat
  event : Bool
  run : Bool
  posted : List Nat
  done : List Nat
  timeouts : Nat
deriving DecidableEq, Repr

/-- What happens around and in the wait. -/
inductive WAct where
  /-- `queue.put(int_cmd)` in `post_internal_command` (`pydevd.py` 1597). -/
  | put (c : Nat)
  /-- The state is set to `STATE_RUN` (e.g. `pydevd_comm.py` 717-728). -/
  | resume
  /-- `event.set()`: the end of `post_internal_command` (`pydevd.py` 1601), or of
  `_update_stepping_info` (`pydevd_additional_thread_info_regular.py` 295). -/
  | signal
  /-- The thread makes its next step; if it waits, the wait ends by the event if that is set and
  by its timeout if not. -/
  | turn
deriving DecidableEq, Repr

/-- One action (`pydevd.py` 2219-2251). `can_be_executed_by` holds for the commands of the
thread's own queue; running a command is one step, whether or not it raises. The debugger is not
disposed. -/
def wstep (w : W) : WAct → W
  | .put c => { w with queue := w.queue ++ [c], posted := w.posted ++ [c] }
  | .resume => { w with run := true }
  | .signal => { w with event := true }
  | .turn =>
    match w.pc with
    | .check => { w with pc := if w.run then .left else .get }
    | .get =>
      match w.queue with
      | [] => { w with pc := .wait }
      | c :: r => { w with pc := .wait, queue := r, done := w.done ++ [c] }
    | .wait =>
      { w with pc := .clear, timeouts := if w.event then w.timeouts else w.timeouts + 1 }
    | .clear => { w with pc := .check, event := false }
    | .left => w

/-- A history of actions. -/
def wrun (w : W) (as : List WAct) : W := as.foldl wstep w

/-- A thread which has just begun to wait, with whatever is already in its queue. -/
def W.start (queue : List Nat) (event : Bool) : W :=
  ⟨.check, queue, event, false, queue, [], 0⟩

end Wake
