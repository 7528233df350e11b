import Verif.Common.Lit
/-!
Model of marking threads as suspended or running.

Source: `/repo/_pydevd_bundle/pydevd_thread_lifecycle.py` (all functions),
`/repo/_pydevd_bundle/pydevd_utils.py` `get_non_pydevd_threads` (139-141).

Simplifications: the list `threads` is what `threading.enumerate()` returns during the call (it does
not change meanwhile); `set_trace_for_frame_and_parents`, the `sys.monitoring` updates, logging and the
stepping registry (`update_stepping_info`, modelled elsewhere) are left out. A thread that has no
`additional_info` yet gets a default one (`set_additional_thread_info`), so every thread carries one in
the model; its defaults are those of `PyDBAdditionalThreadInfo.__init__`.
-/

namespace Lifecycle

/-- `CMD_*` numbers used here (`pydevd_comm_constants.py`). -/
def cmdThreadSuspend : Int := 105
def cmdStepInto : Int := 107

inductive RunState where
  | run
  | suspend
deriving DecidableEq, Repr

/-- The part of `PyDBAdditionalThreadInfo` used here. -/
structure Info where
  /-- `pydev_state` -/
  state : RunState := .run
  /-- `pydev_step_cmd` -/
  stepCmd : Int := -1
  /-- `pydev_original_step_cmd` -/
  origStepCmd : Int := -1
  /-- `pydev_step_stop` (a frame) -/
  stepStop : Option Nat := none
  /-- `suspend_type == PYTHON_SUSPEND` -/
  pythonSuspend : Bool := true
deriving DecidableEq, Repr

structure Thread where
  /-- identity of the object (`is`) -/
  obj : Nat
  /-- `get_thread_id` -/
  id : List Char
  /-- `is_pydev_daemon_thread` -/
  daemon : Bool := false
  /-- `pydev_do_not_trace` -/
  doNotTrace : Bool := false
  /-- `stop_reason` -/
  stopReason : Int := 0
  info : Info := {}
deriving DecidableEq, Repr

/-- `mark_thread_suspended` (28-53). -/
def markSuspended (t : Thread) (stopReason : Int) (origStepCmd : Int := -1) (mainSuspend : Bool := true) : Thread :=
  let stopReason := if origStepCmd ≠ -1 then origStepCmd else stopReason
  let info : Info := { t.info with pythonSuspend := true }
  let info : Info :=
    if !mainSuspend then { info with stepCmd := cmdThreadSuspend, stepStop := none }
    else if info.stepCmd = -1 then { info with stepCmd := cmdStepInto, stepStop := none }
    else info
  { t with stopReason, info := { info with state := .suspend } }

/-- `internal_run_thread` (56-62). -/
def runThread (t : Thread) : Thread :=
  { t with info := { t.info with origStepCmd := -1, stepCmd := -1, stepStop := none, state := .run } }

/-- `pydevd_find_thread_by_id` (11-25): the object of the first match. -/
def findById (threads : List Thread) (id : List Char) : Option Nat :=
  (threads.find? (fun t => id == t.id || ('|' :: t.id).isSuffixOf id)).map (·.obj)

/-- Apply `f` to the objects in `objs` except `exc` (81-86). -/
def updateObjs (threads : List Thread) (objs : List Nat) (exc : Option Nat) (f : Thread → Thread) : List Thread :=
  threads.map (fun t => if objs.contains t.obj && exc != some t.obj then f t else t)

/-- `resume_threads` (65-86). -/
def resumeThreads (threads : List Thread) (id : List Char) (exc : Option Nat := none) : List Thread :=
  let objs :=
    if id = c!"*" then (threads.filter (fun t => !t.daemon)).map (·.obj)
    else if c!"__frame__:".isPrefixOf id then []
    else (findById threads id).toList
  updateObjs threads objs exc runThread

/-- `suspend_all_threads` (94-126). -/
def suspendAll (threads : List Thread) (exc : Option Nat) : List Thread :=
  let objs := (threads.filter (fun t => !t.daemon && !t.doNotTrace)).map (·.obj)
  updateObjs threads objs exc (fun t => markSuspended t cmdThreadSuspend (mainSuspend := false))

end Lifecycle
