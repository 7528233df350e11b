/-!
# The reason a client is told for a stop

Models how the reason of a `stopped` event comes to be: the commands kept for a thread
(`pydev_step_cmd`, `pydev_original_step_cmd`, `stop_reason`, `pydev_state`) as changed by
`_pydevd_bundle/pydevd_thread_lifecycle.py`, `_pydevd_bundle/pydevd_comm.py`,
`_pydevd_bundle/pydevd_api.py`, `pydevd.py`, and where the tracing stops a thread
(`_pydevd_bundle/pydevd_frame.py`, `_pydevd_sys_monitoring/_pydevd_sys_monitoring.py`); and the
`make_thread_suspend_message` and `make_thread_suspend_single_notification` of
`_pydevd_bundle/pydevd_net_command_factory_json.py`, which map the command to the reason alike.

One thread is modelled; whatever other threads and the client do to it comes in between. Not
modelled: the stops and steps of template plugins, and an evaluation which resumes the other threads.
-/
namespace StopReason

/-- The commands (`pydevd_comm_constants.py` 5-99). -/
def unset : Int := -1
def threadSuspend : Int := 105
def stepInto : Int := 107
def stepOver : Int := 108
def stepReturn : Int := 109
def setBreak : Int := 111
def addExceptionBreak : Int := 122
def setNext : Int := 127
def smartStepInto : Int := 128
def stepCaughtException : Int := 137
def stepIntoMyCode : Int := 144
def stopOnStart : Int := 154
def stepOverMyCode : Int := 159
def stepReturnMyCode : Int := 160
def stepIntoCoroutine : Int := 206
def setFunctionBreak : Int := 208

/-- The steps a client can ask for. -/
inductive Kind where
  | into | over | ret | smart | intoMyCode | overMyCode | retMyCode
deriving DecidableEq, Repr

/-- The command of a step (`pydevd_process_net_command_json.py` 586-699, `pydevd_comm.py` 714-741). -/
def cmdOf : Kind → Int
  | .into => stepInto
  | .over => stepOver
  | .ret => stepReturn
  | .smart => smartStepInto
  | .intoMyCode => stepIntoMyCode
  | .overMyCode => stepOverMyCode
  | .retMyCode => stepReturnMyCode

/-- `_STEP_REASONS` (`pydevd_net_command_factory_json.py` 367-380). -/
def stepReasons : List Int :=
  [stepInto, stepIntoMyCode, stepOver, stepOverMyCode, stepReturn, stepReturnMyCode, stopOnStart,
    stepIntoCoroutine, smartStepInto]

/-- `_EXCEPTION_REASONS` (`pydevd_net_command_factory_json.py` 381-386). -/
def exceptionReasons : List Int := [stepCaughtException, addExceptionBreak]

/-- The reasons of a `stopped` event. -/
inductive Reason where
  | entry | step | exception | breakpoint | functionBreakpoint | goto | pause
deriving DecidableEq, Repr

/-- Where the thread is. -/
inductive Pc where
  /-- It runs the program. -/
  | running
  /-- It is to wait, and has not yet read `thread.stop_reason` (`pydevd.py` 2083-2117). -/
  | stopping
  /-- It told of the stop and waits (`pydevd.py` 2150-2256). -/
  | waiting
deriving DecidableEq, Repr

/-- The thread's fields (`pydevd_additional_thread_info_regular.py` 71-100). `mon` is
`PYDEVD_USE_SYS_MONITORING`. -/
structure St where
  mon : Bool
  pc : Pc
  suspended : Bool
  orig : Int
  step : Int
  stopReason : Int
  told : List Reason
deriving DecidableEq, Repr

/-- `mark_thread_suspended` (`pydevd_thread_lifecycle.py` 28-51). -/
def mark (s : St) (reason : Int) (original : Int := unset) (main : Bool := true) : St :=
  { s with
    stopReason := if original ≠ unset then original else reason
    step := if main = false then threadSuspend else if s.step = unset then stepInto else s.step
    suspended := true }

/-- The mapping of `make_thread_suspend_message` (`pydevd_net_command_factory_json.py` 484-507; alike
in 392-412): the reason, and `pydev_original_step_cmd` afterwards. -/
def reasonOf (stopReason orig : Int) : Reason × Int :=
  if stopReason ∈ stepReasons then
    if orig = stopOnStart then (.entry, unset) else (.step, orig)
  else if stopReason ∈ exceptionReasons then (.exception, orig)
  else if stopReason = setBreak then (.breakpoint, orig)
  else if stopReason = setFunctionBreak then (.functionBreakpoint, orig)
  else if stopReason = setNext then (.goto, orig)
  else (.pause, orig)

/-- What happens. -/
inductive Act where
  /-- `PyDevdAPI.stop_on_entry`, at launch (`pydevd_api.py` 981-992). -/
  | stopOnEntry
  /-- `settrace(suspend=True)` in the program, with or without `stop_at_frame` (`pydevd.py` 3161-3180). -/
  | settrace (atFrame : Bool)
  /-- A pause request (`pydevd_api.py` 177-201). -/
  | pause
  /-- `suspend_all_threads` on behalf of another thread (`pydevd_thread_lifecycle.py` 88-103). -/
  | suspendAll
  /-- `internal_run_thread` (`pydevd_thread_lifecycle.py` 53-60). -/
  | resume
  /-- The thread hits a line breakpoint (`pydevd_frame.py` 758-770, `_pydevd_sys_monitoring.py` 1333-1341). -/
  | breakpoint
  /-- A function breakpoint (`pydevd_frame.py` 676-680). -/
  | functionBreakpoint
  /-- An exception to stop at; unhandled in the thread or not (`pydevd_frame.py` 1290, `pydevd.py` 2367). -/
  | exception (unhandled : Bool)
  /-- A line where the step under way may end (`pydevd_frame.py` 768-770, 990-993,
  `_pydevd_sys_monitoring.py` 1552-1625). -/
  | line
  /-- A return where the step under way may end (`pydevd_frame.py` 768-770, 994-1022,
  `_pydevd_sys_monitoring.py` 1113-1160, 1270-1279). -/
  | ret
  /-- A frame is left while stepping over or out: the step goes on as a step into
  (`_pydevd_sys_monitoring.py` 1210-1216). -/
  | outOfFrame
  /-- The waiting thread's stop is told (`pydevd.py` 2116-2154). -/
  | tell
  /-- `internal_step_in_thread`, `internal_smart_step_into` (`pydevd_comm.py` 714-741). -/
  | step (k : Kind)
  /-- `InternalSetNextStatementThread`, up to the next wait (`pydevd_comm.py` 759-772,
  `pydevd.py` 2275-2307, 2188-2191). -/
  | goto (ok : Bool)
  /-- The thread leaves its wait (`pydevd.py` 2259-2334); its frame is a coroutine's, or has no frame to
  return to. -/
  | leave (coroutine noBack : Bool)
deriving DecidableEq, Repr

/-- The stop for a step (`set_suspend(thread, step_cmd, original_step_cmd=...)`). -/
def endStep (s : St) : St :=
  if s.step = unset then s else { mark s s.step s.orig with pc := .stopping }

/-- One action. What a thread does itself it does only where it is. -/
def act (s : St) : Act → St
  | .stopOnEntry =>
    if s.pc = .running ∧ s.suspended = false then { s with orig := stopOnStart, step := stepIntoMyCode } else s
  | .settrace atFrame =>
    if s.pc = .running then
      if atFrame = true then { s with orig := setBreak, suspended := false, step := stepOver }
      else mark { s with orig := setBreak } setBreak
    else s
  | .pause => mark s threadSuspend
  | .suspendAll => mark s threadSuspend (main := false)
  | .resume => { s with orig := unset, step := unset, suspended := false }
  | .breakpoint => if s.pc = .running then { mark s setBreak with pc := .stopping } else s
  | .functionBreakpoint => if s.pc = .running then { mark s setFunctionBreak with pc := .stopping } else s
  | .exception unhandled =>
    if s.pc = .running then
      { mark s (if unhandled = true then addExceptionBreak else stepCaughtException) with pc := .stopping }
    else s
  | .line =>
    if s.pc = .running then if s.suspended = true then { s with pc := .stopping } else endStep s else s
  | .ret =>
    if s.pc = .running then
      if s.suspended = true ∧ s.mon = false then { s with pc := .stopping } else endStep s
    else s
  | .outOfFrame =>
    if s.pc = .running then
      if s.step ∈ [stepOver, stepReturn, smartStepInto] then { s with step := stepInto }
      else if s.step ∈ [stepOverMyCode, stepReturnMyCode] then { s with step := stepIntoMyCode }
      else s
    else s
  | .tell =>
    if s.pc = .stopping then
      let r := reasonOf s.stopReason s.orig
      { s with pc := .waiting, told := s.told ++ [r.1], orig := r.2 }
    else s
  | .step k =>
    if s.pc = .waiting then { s with orig := cmdOf k, step := cmdOf k, suspended := false } else s
  | .goto ok =>
    if s.pc = .waiting then
      if ok = true then
        { s with orig := setNext, step := setNext, suspended := true, stopReason := setNext, pc := .stopping }
      else { s with orig := unset, step := unset, suspended := true, stopReason := threadSuspend }
    else s
  | .leave coroutine noBack =>
    if s.pc = .waiting ∧ s.suspended = false then
      if s.step ∈ [stepInto, stepIntoMyCode] ∧ coroutine = true then
        { s with pc := .running, step := stepIntoCoroutine }
      else if s.step ∈ [stepReturn, stepReturnMyCode] ∧ noBack = true then
        { s with pc := .running, orig := unset, step := unset }
      else { s with pc := .running }
    else s

/-- A history. -/
def run (s : St) (acts : List Act) : St := acts.foldl act s

/-- A thread at its start. -/
def init (mon : Bool) : St :=
  { mon, pc := .running, suspended := false, orig := unset, step := unset, stopReason := unset, told := [] }

end StopReason
