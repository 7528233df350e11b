/-!
# Requests of the Debug Adapter Protocol and their responses

`_pydevd_bundle/pydevd_process_net_command_json.py` (`PyDevJsonCommandProcessor`), with the part of
`pydevd_api.py` that posts work to the debuggee's threads, the internal commands of
`pydevd_comm.py` that send the answers later, and the two places of `pydevd.py` where internal
commands are run (`process_internal_commands`, `_do_wait_suspend`).

A request is *answered at once*, by the thread which reads the messages, or *later*: by a thread of
the debuggee which takes it from its queue, by whichever thread empties the queue for any thread,
by the callback called when threads have resumed, or (`goto`) by a thread which leaves the wait loop.

Simplifications:
* the contents of answers are left out, but for `success`;
* events (process, initialized, stopped, ...) are not answers and are left out;
* Python code which may raise and is not modelled further (launch options, exception options,
  evaluation in the debuggee) has a flag, chosen freely: `Request.raises`, `Outcome.raises`;
* threads start, end, stop and get or lose their variable references by actions of the environment.
-/

namespace Requests

/-- The commands the schema knows (`_debug_adapter/pydevd_schema.py`, the 48 `@register_request`).
A message with any other command fails in `from_dict` (`pydevd_base_schema.py` 66-90) and is
`Msg.bad`. `other` stands for the ones which have no `on_..._request` method: cancel, runInTerminal,
startDebugging, restart, breakpointLocations, dataBreakpointInfo, setDataBreakpoints,
setInstructionBreakpoints, stepBack, reverseContinue, restartFrame, terminateThreads,
loadedSources, readMemory, writeMemory, disassemble. -/
inductive Command
  | authorize | initialize | configurationDone | threads | terminate | completions | launch | attach
  | pause | continue_ | next | stepIn | stepInTargets | stepOut | disconnect
  | setFunctionBreakpoints | setBreakpoints | setExceptionBreakpoints | stackTrace | exceptionInfo
  | scopes | evaluate | setExpression | variables | setVariable | modules | source | gotoTargets
  | goto | setDebuggerProperty | systemInfo | setSourceMap
  | other (name : String)
  deriving DecidableEq, Repr

/-- The name in the message (`@register_request(...)`, `pydevd_schema.py`). -/
def Command.name : Command → String
  | .authorize => "pydevdAuthorize" | .initialize => "initialize"
  | .configurationDone => "configurationDone" | .threads => "threads" | .terminate => "terminate"
  | .completions => "completions" | .launch => "launch" | .attach => "attach" | .pause => "pause"
  | .continue_ => "continue" | .next => "next" | .stepIn => "stepIn"
  | .stepInTargets => "stepInTargets" | .stepOut => "stepOut" | .disconnect => "disconnect"
  | .setFunctionBreakpoints => "setFunctionBreakpoints" | .setBreakpoints => "setBreakpoints"
  | .setExceptionBreakpoints => "setExceptionBreakpoints" | .stackTrace => "stackTrace"
  | .exceptionInfo => "exceptionInfo" | .scopes => "scopes" | .evaluate => "evaluate"
  | .setExpression => "setExpression" | .variables => "variables" | .setVariable => "setVariable"
  | .modules => "modules" | .source => "source" | .gotoTargets => "gotoTargets" | .goto => "goto"
  | .setDebuggerProperty => "setDebuggerProperty" | .systemInfo => "pydevdSystemInfo"
  | .setSourceMap => "setPydevdSourceMap" | .other n => n

/-- What an id in the message is translated to (`pydevd_base_schema.py` 27-62, modelled in `Ids`): one
table serves threads, frames and variables, and 0 and null stand for themselves. -/
inductive Obj
  | null | zero
  /-- the id of a thread, a string -/
  | thread (t : Nat)
  /-- a frame or a variable, an int -/
  | ref (r : Nat)
  /-- the locals or globals of a frame, a `ScopeRequest` -/
  | scope (r : Nat)
  deriving DecidableEq, Repr

/-- A request as far as the handlers look at it. -/
structure Request where
  seq : Nat
  command : Command
  /-- `threadId` -/
  thread : Obj := .null
  /-- `frameId` or `variablesReference` -/
  frame : Obj := .null
  /-- `targetId` of stepIn and goto -/
  target : Option Nat := none
  /-- whether `source.path` is given -/
  path : Bool := true
  /-- setVariable: the name starts with `(return) ` -/
  returnName : Bool := false
  /-- pydevdAuthorize: the token is the right one -/
  tokenOk : Bool := true
  /-- disconnect: `terminateDebuggee` -/
  terminate : Bool := false
  /-- launch, attach, setDebuggerProperty: the new `multi_threads_single_notification` -/
  single : Option Bool := none
  /-- source: whether it is found -/
  found : Bool := true
  /-- code of the handler which is not modelled raises -/
  raises : Bool := false
  deriving DecidableEq, Repr

/-- A message read from the client. -/
inductive Msg
  /-- not JSON, or a JSON without `seq` (lines 163-169) -/
  | garbage
  /-- `from_json` raises: unknown command, missing arguments, wrong ids (163-186) -/
  | bad (seq : Nat) (command : String)
  /-- an event or a response -/
  | notRequest
  | request (r : Request)
  deriving DecidableEq, Repr

/-- A response put in the writer's queue. `json := false`: a message in the text protocol's format,
which a client of the Debug Adapter Protocol can't read. -/
structure Answer where
  seq : Nat
  command : String
  success : Bool
  json : Bool := true
  deriving DecidableEq, Repr

/-- An internal command with an answer to send, in the queue of a thread, or of any (`none`). -/
structure Post where
  to : Option Nat
  seq : Nat
  command : Command
  deriving DecidableEq, Repr

/-- Why a request will not be answered. For the statements only. -/
inductive Why
  | notRead | noHandler | handlerRaised | noThread | commandRaised | overwritten | drainRaised
  deriving DecidableEq, Repr

structure State where
  /-- the reader thread still reads (`pydevd_comm.py` 230-310) -/
  reading : Bool := true
  authenticated : Bool := true
  /-- `_launch_or_attach_request_done` -/
  launched : Bool := false
  /-- `multi_threads_single_notification` -/
  single : Bool := true
  /-- threads found by `pydevd_find_thread_by_id` -/
  alive : List Nat := []
  /-- `get_thread_id_for_variable_reference`, for ints -/
  threadOf : Nat → Option Nat := fun _ => none
  /-- threads which are suspended, as far as the frames tracker shows: their stack is ready -/
  stackReady : Nat → Bool := fun _ => false
  /-- `target_id_to_smart_step_into_variant` of each thread -/
  stepTargets : Nat → List Nat := fun _ => []
  /-- `_goto_targets_map`: the ids given so far are the ones below -/
  gotoTargets : Nat := 0
  /-- all queues of internal commands in the order of posting; only commands with an answer -/
  posted : List Post := []
  /-- callbacks of `add_on_resumed_callback` -/
  resumed : List Nat := []
  /-- `info.pydev_step_cmd == CMD_SET_NEXT_STATEMENT` -/
  gotoStep : Nat → Bool := fun _ => false
  /-- `info.pydev_message`, for the threads where it isn't empty -/
  gotoMsg : List (Nat × Nat) := []
  /-- everything given to the writer -/
  out : List Answer := []
  /-- ghost: all requests which came, by seq and command name -/
  received : List (Nat × String) := []
  /-- ghost: requests which are not answered and no longer held anywhere -/
  lost : List ((Nat × String) × Why) := []

/-- What a handler does: give back a response (`return NetCommand(...)`), return `None` having
arranged for a later answer, return `None` having arranged nothing, or raise. -/
inductive Effect
  | answer (success : Bool)
  | post (to : Option Nat)
  | onResumed
  | nothing
  | raise
  deriving DecidableEq, Repr

/-- `get_thread_id_for_variable_reference` (`pydevd_suspended_frames.py` 466-484), for a frame id. Strings
and scopes are no keys of the tables. -/
def threadOfFrame (s : State) : Obj → Option Nat
  | .ref r => s.threadOf r
  | _ => none

/-- The same after `if isinstance(variables_reference, ScopeRequest)` (1117-1118, 1135-1136). -/
def threadOfVariables (s : State) : Obj → Option Nat
  | .ref r => s.threadOf r
  | .scope r => s.threadOf r
  | _ => none

/-- `pydevd_find_thread_by_id` (`pydevd_thread_lifecycle.py` 11-25): catches all errors, so that an id
which isn't a string gives `None`. -/
def findThread (s : State) : Obj → Option Nat
  | .thread t => if t ∈ s.alive then some t else none
  | _ => none

/-- Is the id a string? The handlers call `.strip()`/`.startswith()` on it. -/
def Obj.isStr : Obj → Bool
  | .thread _ => true
  | _ => false

/-- `request_step` (`pydevd_api.py` 253-264), as seen from the handler: does it raise? (The command
which makes the thread step sends no answer.) -/
def stepRaises (s : State) (o : Obj) : Bool :=
  (findThread s o).isNone && !o.isStr

/-- Answer at once if the thread isn't found, post to its queue otherwise (`completions`,
`stepInTargets`, `evaluate`, `setExpression`, `variables`, `setVariable`). -/
def postOr : Option Nat → Effect
  | some t => .post (some t)
  | none => .answer false

/-- The `on_..._request` methods. -/
def handler (s : State) (r : Request) : Effect :=
  match r.command with
  -- 223-230, 232-280, 282-293, 295-299, 301-307, 1159-1164, 1284-1328
  | .authorize | .initialize | .configurationDone | .threads | .terminate | .modules
  | .systemInfo => if r.raises then .raise else .answer true
  -- 312-338
  | .completions => postOr (threadOfFrame s r.frame)
  -- 521-542: the options are set before the response is built
  | .launch | .attach => if r.raises then .raise else .answer true
  -- 544-554, pydevd_api.py 177-201: `thread_id.strip()`
  | .pause => if !r.thread.isStr || r.raises then .raise else .answer true
  -- 556-584: `resume_threads`: `thread_id.startswith`
  | .continue_ =>
    if s.single then .onResumed
    else if !r.thread.isStr then .raise else .answer true
  -- 586-601, 683-698
  | .next | .stepOut => if stepRaises s r.thread then .raise else .answer true
  -- 603-658
  | .stepIn =>
    match r.target with
    | none => if stepRaises s r.thread then .raise else .answer true
    | some target =>
      match findThread s r.thread with
      | none => .answer false
      | some t => .answer (decide (target ∈ s.stepTargets t))
  -- 660-681
  | .stepInTargets => postOr (threadOfFrame s r.frame)
  -- 727-741
  | .disconnect => .answer true
  -- 757-788
  | .setFunctionBreakpoints =>
    if !s.launched then .answer false else if r.raises then .raise else .answer true
  -- 790-853, pydevd_api.py 362-368: `filename_to_str(None)` raises
  | .setBreakpoints =>
    if !s.launched then .answer false
    else if !r.path || r.raises then .raise else .answer true
  -- 896-999, 1253-1282, 1330-1369
  | .setExceptionBreakpoints | .setDebuggerProperty | .setSourceMap =>
    if r.raises then .raise else .answer true
  -- 1001-1022, pydevd_api.py 231-239: done at once if the thread is suspended
  | .stackTrace =>
    if r.raises then .raise
    else match r.thread with
      | .thread t => if s.stackReady t then .answer true else .post none
      | _ => .post none
  -- 1024-1043
  | .exceptionInfo =>
    match findThread s r.thread with
    | some t => .post (some t)
    | none => .answer false
  -- 1045-1061: `int(variables_reference)`
  | .scopes =>
    match r.frame with
    | .ref _ | .zero => .answer true
    | _ => .raise
  -- 1063-1082
  | .evaluate =>
    if r.frame = .null then .post none else postOr (threadOfFrame s r.frame)
  -- 1084-1097
  | .setExpression => postOr (threadOfFrame s r.frame)
  -- 1099-1129
  | .variables => postOr (threadOfVariables s r.frame)
  -- 1131-1157
  | .setVariable =>
    if r.returnName then .answer false else postOr (threadOfVariables s r.frame)
  -- 1166-1221
  | .source => .answer r.found
  -- 1223-1231
  | .gotoTargets => .answer true
  -- 1233-1251, pydevd_api.py 279-314
  | .goto =>
    match r.target with
    | none => .raise
    | some target =>
      if ¬ target < s.gotoTargets then .answer false
      else match findThread s r.thread with
        | some t => if !r.path then .raise else .post (some t)
        | none => if !r.thread.isStr then .raise else .nothing
  | .other _ => .nothing

/-- The threads `resume_threads` makes run (`pydevd_thread_lifecycle.py` 62-80): their step command is
cleared (`internal_run_thread` 53-60). `none`: `"*"`. -/
def resumeThreads (s : State) (o : Option Obj) : State :=
  match o with
  | none => { s with gotoStep := fun t => s.gotoStep t && !decide (t ∈ s.alive) }
  | some (.thread t) =>
    if t ∈ s.alive then { s with gotoStep := fun u => if u = t then false else s.gotoStep u } else s
  | some _ => s

/-- What handlers change besides sending answers. -/
def effects (s : State) (r : Request) : State :=
  match r.command with
  | .launch | .attach =>
    { s with launched := true, single := r.single.getD s.single }
  | .setDebuggerProperty => { s with single := r.single.getD s.single }
  | .disconnect =>
    if r.terminate then s else resumeThreads { s with launched := false } none
  | .continue_ => resumeThreads s (if s.single then none else some r.thread)
  | .gotoTargets => { s with gotoTargets := s.gotoTargets + 1 }
  | _ => s

/-- `NetCommand(CMD_RETURN, 0, response, is_json=True)` given to the writer; `build_response`
(`pydevd_base_schema.py` 118-125) takes command and seq from the request. -/
def answer (s : State) (seq : Nat) (command : String) (success : Bool) (json : Bool := true) : State :=
  { s with out := s.out ++ [{ seq, command, success, json }] }

def lose (s : State) (seq : Nat) (command : String) (why : Why) : State :=
  { s with lost := s.lost ++ [((seq, command), why)] }

/-- The reader ends: any exception out of `process_net_command_json` is logged and
`_terminate_on_socket_close()` is called (`pydevd_comm.py` 296-310). -/
def stopReading (s : State) : State := { s with reading := false }

/-- `cmd = on_request(py_db, request); if cmd is not None: add_command(cmd)` (219-221). -/
def perform (s : State) (r : Request) : State :=
  let s' := effects s r
  match handler s r with
  | .answer success => answer s' r.seq r.command.name success
  | .post to => { s' with posted := s'.posted ++ [{ to, seq := r.seq, command := r.command }] }
  | .onResumed => { s' with resumed := s'.resumed ++ [r.seq] }
  | .nothing => lose s' r.seq r.command.name .noThread
  | .raise => stopReading (lose s' r.seq r.command.name .handlerRaised)

def note (s : State) (seq : Nat) (command : String) : State :=
  { s with received := s.received ++ [(seq, command)] }

/-- `py_db.authentication.login` (`pydevd.py` 541-549, modelled in `Auth`; here without the limit of
attempts). -/
def login (s : State) (r : Request) : State :=
  if r.command = .authorize then { s with authenticated := r.tokenOk } else s

/-- `process_net_command_json` (150-221). -/
def receive (s : State) : Msg → State
  | .garbage => s
  | .bad seq command =>
    let s := note s seq command
    if !s.reading then lose s seq command .notRead
    else answer s seq command false
  | .notRequest => stopReading s
  | .request r =>
    let s := note s r.seq r.command.name
    if !s.reading then lose s r.seq r.command.name .notRead
    else match r.command with
      | .other name => lose s r.seq name .noHandler
      | _ =>
        let s := login s r
        if !s.authenticated then answer s r.seq r.command.name false
        else perform s r

/-- What the code run by an internal command comes to. -/
inductive Outcome
  | works | fails | raises
  deriving DecidableEq, Repr

/-- The internal commands, run by the thread they are for (`pydevd_comm.py`):
`internal_get_completions` 1395-1434 (errors by `make_error_message`, which
`NetCommandFactoryJson` doesn't override), `internal_get_step_in_targets_json` 1052-1126,
`internal_get_exception_details_json` 1609-1620, `internal_get_variable_json` 777-813: these catch what
is raised. `internal_evaluate_expression_json` 1174-1287, `internal_set_expression_json` 1352-1392,
`internal_change_variable_json` 906-953: an exception out of them is logged
(`pydevd.py` 1850-1860, 2238-2243). `InternalGetThreadStack` 658-711. -/
def execute (s : State) (p : Post) (o : Outcome) : State :=
  match p.command with
  | .completions => answer s p.seq p.command.name (o == .works) (o == .works)
  | .stepInTargets | .exceptionInfo => answer s p.seq p.command.name (o == .works)
  | .variables | .stackTrace => answer s p.seq p.command.name true
  | .evaluate | .setExpression | .setVariable =>
    match o with
    | .works => answer s p.seq p.command.name true
    | .fails => answer s p.seq p.command.name false
    | .raises => lose s p.seq p.command.name .commandRaised
  | _ => answer s p.seq p.command.name false

/-- `InternalSetNextStatementThread.do_it` (`pydevd_comm.py` 744-774), run in thread `t`: the answer is
left to the end of the wait loop; a message which was there is overwritten. -/
def doGoto (s : State) (t seq : Nat) : State :=
  { s with
    gotoStep := fun u => if u = t then true else s.gotoStep u
    gotoMsg := s.gotoMsg.filter (·.1 ≠ t) ++ [(t, seq)]
    lost := s.lost ++ (s.gotoMsg.filter (·.1 = t)).map (fun m => ((m.2, "goto"), .overwritten)) }

/-- Thread `t` takes the first command of its queue and runs it: in the wait loop (`pydevd.py`
2228-2248) or in `process_internal_commands` (1826-1860). -/
def serve (s : State) (t : Nat) (o : Outcome) : Option State :=
  match s.posted.find? (fun p => p.to = some t) with
  | none => none
  | some p =>
    let s := { s with posted := s.posted.erase p }
    some (if p.command = .goto then doGoto s t p.seq else execute s p o)

/-- `can_be_executed_by` of a command in the queue for any thread: always true for
`InternalThreadCommandForAnyThread` (`pydevd_comm.py` 578-600), for `InternalGetThreadStack` once the
thread is suspended or after half a second (682-705); it may raise. -/
inductive Verdict
  | run (o : Outcome) | keep | raise
  deriving DecidableEq, Repr

/-- The loop which empties a queue (`pydevd.py` 1826-1846), for the commands of the queue and what
becomes of each: those to run, those to put back, and those still in the queue when
`can_be_executed_by` raised. -/
def collect : List Post → List Verdict → List (Post × Outcome) × List Post × Option (List Post)
  | [], _ => ([], [], none)
  | p :: ps, [] => let (e, b, r) := collect ps []; (e, p :: b, r)
  | p :: ps, .run o :: vs => let (e, b, r) := collect ps vs; ((p, o) :: e, b, r)
  | p :: ps, .keep :: vs => let (e, b, r) := collect ps vs; (e, p :: b, r)
  | p :: ps, .raise :: _ => ([], [p], some ps)

/-- `for internal_cmd in cmds_to_execute: internal_cmd.do_it(self)` (1853-1860). -/
def executeAll (s : State) : List (Post × Outcome) → State
  | [] => s
  | (p, o) :: es => executeAll (execute s p o) es

def isAny (p : Post) : Bool := p.to.isNone

/-- `process_internal_commands` for `"*"` (1761-1860). If `can_be_executed_by` raises, neither the
commands found before are run nor those to put back are put back: they were taken from the queue
and are in local lists. -/
def drain (s : State) (vs : List Verdict) : State :=
  let anyPosts := s.posted.filter isAny
  let others := s.posted.filter (fun p => !isAny p)
  match collect anyPosts vs with
  | (e, b, none) => executeAll { s with posted := others ++ b } e
  | (e, b, some rest) =>
    { s with
      posted := others ++ rest
      lost := s.lost ++ (e.map (·.1) ++ b).map (fun p => ((p.seq, p.command.name), .drainRaised)) }

/-- Threads have resumed: the callbacks are taken and called, once each
(`pydevd.py` 449-468, modelled in `Notify`). -/
def resumedNotified (s : State) : State :=
  { s with
    resumed := []
    out := s.out ++ s.resumed.map (fun seq => { seq, command := "continue", success := true }) }

/-- Thread `t` leaves the wait loop (`pydevd.py` 2255-2313): with the step command of a goto it sends
the answer, whatever `set_next_statement` came to (`worked`), and forgets the message. When it worked,
the step command stays (2296-2303); otherwise it is cleared (2305-2313). With the step command but no
message `int("")` raises in the thread (`none`). -/
def leave (s : State) (t : Nat) (worked : Bool) : Option State :=
  if s.gotoStep t then
    match s.gotoMsg.find? (·.1 = t) with
    | none => none
    | some m =>
      some (answer
        { s with
          gotoMsg := s.gotoMsg.erase m
          gotoStep := fun u => if u = t then worked else s.gotoStep u }
        m.2 "goto" worked)
  else some s

inductive Action
  | receive (m : Msg)
  | serve (t : Nat) (o : Outcome)
  | drain (vs : List Verdict)
  | resumed
  | leave (t : Nat) (worked : Bool)
  /-- a thread starts, ends, suspends, resumes, gets step-in targets -/
  | environment (alive : List Nat) (threadOf : Nat → Option Nat) (stackReady : Nat → Bool)
      (stepTargets : Nat → List Nat)
  /-- the program ends a step: a breakpoint or a pause sets another step command -/
  | clearStep (t : Nat)

def step (s : State) : Action → Option State
  | .receive m => some (receive s m)
  | .serve t o => serve s t o
  | .drain vs => some (drain s vs)
  | .resumed => some (resumedNotified s)
  | .leave t worked => leave s t worked
  | .environment alive threadOf stackReady stepTargets =>
    some { s with alive, threadOf, stackReady, stepTargets }
  | .clearStep t => some { s with gotoStep := fun u => if u = t then false else s.gotoStep u }

def run (s : State) : List Action → Option State
  | [] => some s
  | a :: as => (step s a).bind (run · as)

/-- A new session. -/
def start (authenticated single : Bool) : State := { authenticated, single }

end Requests
