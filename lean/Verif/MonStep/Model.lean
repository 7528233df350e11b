/-!
Stepping, breakpoints and pauses of one thread with `sys.monitoring`: `_pydevd_sys_monitoring/_pydevd_sys_monitoring.py` (handlers of the
events), `pydevd.py` `set_suspend` (1916-1984), `_do_wait_suspend` (2192-2359), `set_trace_for_frame_and_parents` (2377-2424),
`_pydevd_bundle/pydevd_thread_lifecycle.py` `mark_thread_suspended`, `internal_run_thread` (28-59), `_pydevd_bundle/pydevd_comm.py`
`internal_step_in_thread` (714-727), `_pydevd_bundle/pydevd_frame.py` `handle_exception` (1202-1311).

The program runs functions, lines, returns and exceptions in any order; the interpreter reports an event to the debugger only if the
debugger has asked for it (globally for starts, for a code object for lines and returns) and did not switch it off at that location.

Two machines run the same program. The machine `opt` is the debugger as it is. The machine `all` gets every event.

Simplifications: one thread; Python 3.13 (no jump events); no generators or coroutines (see C56 for what happens with them), no smart step
into, no IPython scopes, no plugins; breakpoints and filters do not change; whether the condition of a breakpoint holds, and whether an
exception is one to stop at, is part of the event; return values that are shown are left out, but not the events that are enabled for them;
the thread is known to `threading`; the frame shown for an exception is the one that raises it.
-/

namespace MonStep

/-- a code object, with what the debugger finds out about it (`_get_func_code_info`, 547-707) -/
structure Code where
  id : Nat
  /-- the file has a type, it is part of the debugger (`always_skip_code`, 625-629) -/
  skip : Bool
  /-- rejected by `should_trace_hook`, the comment `@DontTrace` (631-646) -/
  hook : Bool
  /-- `apply_files_filter(..., False)` and `apply_files_filter(..., True)` -/
  filterAny : Bool
  filterForce : Bool
  /-- the lines that have a breakpoint -/
  bps : List Nat
  /-- there is a breakpoint for the name of the function -/
  funcBp : Bool
  /-- it is the function of `DEBUG_START` or `DEBUG_START_PY3K` (98-99) -/
  debugStart : Bool
  /-- its file is that of `TRACE_PROPERTY` (100) -/
  traceProperty : Bool
  /-- `co_firstlineno` -/
  first : Nat
deriving DecidableEq

structure Cfg where
  /-- `is_files_filter_enabled` -/
  filtersOn : Bool
  /-- there is some breakpoint (`has_breaks`, 1907-1916) -/
  hasBreaks : Bool
  /-- `multi_threads_single_notification` -/
  single : Bool
  /-- `show_return_values` -/
  showRet : Bool

/-- `always_filtered_out` (627, 644, 657-664) -/
def filtered (cfg : Cfg) (c : Code) : Bool := c.skip || c.hook || (cfg.filtersOn && c.filterForce)

/-- `filtered_out_force_checked` (655), `False` if the function returned earlier -/
def forced (c : Code) : Bool := !c.skip && !c.hook && c.filterForce

/-- `breakpoint_found` (678-689) -/
def bpFound (cfg : Cfg) (c : Code) : Bool := !filtered cfg c && !c.bps.isEmpty

/-- `function_breakpoint_found` (673-676) -/
def funcBpFound (cfg : Cfg) (c : Code) : Bool := !filtered cfg c && c.funcBp

structure Frame where
  id : Nat
  code : Code
  /-- `f_lineno` -/
  line : Nat
deriving DecidableEq

abbrev Stack := List Frame

/-- `pydev_step_cmd` -/
inductive Cmd
  | none
  | into
  | intoMy
  | over
  | overMy
  | ret
  | retMy
deriving DecidableEq

def Cmd.isInto : Cmd → Bool
  | .into | .intoMy => true
  | _ => false

def Cmd.isOver : Cmd → Bool
  | .over | .overMy => true
  | _ => false

def Cmd.isRet : Cmd → Bool
  | .ret | .retMy => true
  | _ => false

/-- `force_check_project_scope` -/
def Cmd.isMy : Cmd → Bool
  | .intoMy | .overMy | .retMy => true
  | _ => false

/-- why the thread stopped -/
inductive Why
  | breakpoint
  | step
  | exception
  /-- the thread was asked to pause -/
  | pause
deriving DecidableEq

/-- what can be observed -/
inductive Out
  /-- a breakpoint is reached: its condition and log message are evaluated in the frame -/
  | reached (f : Frame)
  /-- the thread stops, and this is the top of the stack shown -/
  | stop (w : Why) (f : Frame)
deriving DecidableEq

/-- the state of the thread, apart from the events that are enabled -/
structure St where
  stack : Stack
  /-- the id of the next frame -/
  next : Nat
  cmd : Cmd
  /-- `pydev_step_stop` -/
  stop : Option Nat
  /-- `pydev_state == STATE_SUSPEND` while the thread runs: it was asked to pause -/
  suspended : Bool
  /-- `step_in_initial_location` -/
  initial : Option (Nat × Nat)
deriving DecidableEq

def start : St := ⟨[], 0, .none, none, false, none⟩

/-- what the program does -/
inductive Ev
  /-- calls a function; the breakpoint for its name, if any, is satisfied -/
  | call (c : Code) (hit : Bool)
  /-- begins a line; the breakpoint there, if any, is satisfied -/
  | line (l : Nat) (hit : Bool)
  | ret
  /-- leaves a function by an exception -/
  | unwind
  /-- raises an exception at which the debugger is to stop or not -/
  | raise (stops : Bool)
  /-- not the program, but the client: asks the thread to pause -/
  | pause
deriving DecidableEq

/-- an event, and the command the client gives if it stops the thread -/
structure Event where
  ev : Ev
  reply : Cmd
deriving DecidableEq

/-! ### The handlers -/

/-- what a handler does -/
inductive Verdict
  /-- goes on; the interpreter is told not to report this again (`monitor.DISABLE`) or not -/
  | go (disable : Bool)
  /-- `set_suspend` and `do_wait_suspend`, showing the top of this stack -/
  | stop (w : Why) (shown : Stack)
  /-- the thread returns to no function that can be shown: the step ends (1280-1286) -/
  | finish
  /-- the frame of a step over returned to code that is not shown: the step goes on as a step into (1204-1218) -/
  | convert
  /-- the frame returned to code marked `@DontTrace`: its callers are traced (1266-1274) -/
  | retrace
deriving DecidableEq

/-- is the frame the one of the step (`_is_same_frame`, 1952-1971, without scopes) -/
def same (st : St) (f : Frame) : Bool := st.stop == some f.id

/-- `_line_event` (1456-1497) and `_internal_line_event` (1511-1619) -/
def lineVerdict (cfg : Cfg) (st : St) (f : Frame) (hit : Bool) (stack : Stack) : Verdict :=
  if f.code.skip || filtered cfg f.code then .go true
  else if f.code.bps.contains f.line && hit then .stop .breakpoint stack
  else if st.suspended then .stop .pause stack
  else match st.cmd with
    | .none => .go (!bpFound cfg f.code)
    | .into => .stop .step stack
    | .intoMy => if forced f.code then .go false else .stop .step stack
    | .over | .overMy => if same st f then .stop .step stack else .go false
    | .ret | .retMy => .go false

/-- the breakpoint of the line, if it is reached (1533-1540, `_stop_on_breakpoint` 1313-1331) -/
def lineOuts (cfg : Cfg) (f : Frame) : List Out :=
  if !(f.code.skip || filtered cfg f.code) && f.code.bps.contains f.line then [.reached f] else []

/-- `_stop_on_return` (1249-1286) -/
def stopOnReturn : Stack → Verdict
  | [] => .finish
  | b :: rest =>
    if b.code.debugStart then .finish
    else if b.code.traceProperty then .go false
    else if b.code.hook then .retrace
    else .stop .step (b :: rest)

/-- may a step be shown in this frame (1133-1136, 1167-1171) -/
def visible (cfg : Cfg) (my : Bool) (c : Code) : Bool := !c.skip && !filtered cfg c && !(my && forced c)

/-- `_return_event` (1088-1218) for the frame `f` with the callers `back` -/
def retVerdict (cfg : Cfg) (st : St) (f : Frame) (back : Stack) : Verdict :=
  if f.code.skip then .go true
  else match st.cmd with
    | .none => .go false
    | .into | .intoMy => match back with
      | b :: _ => if visible cfg st.cmd.isMy b.code && st.initial != some (b.id, b.line) then stopOnReturn back else .go false
      | [] => .go false
    | .ret | .retMy => if same st f then stopOnReturn back else .go false
    | .over | .overMy =>
      if same st f then
        match back with
        | b :: _ => if visible cfg st.cmd.isMy b.code then stopOnReturn back else .convert
        | [] => .convert
      else .go false

/-- `_start_method_event` (1714-1778): the breakpoint for the function, if any -/
def startVerdict (cfg : Cfg) (st : St) (f : Frame) (hit : Bool) (stack : Stack) : Verdict :=
  if f.code.skip then .go true
  else if funcBpFound cfg f.code then (if hit then .stop .breakpoint stack else .go false)
  else .go (!(bpFound cfg f.code || st.cmd != .none))

def startOuts (cfg : Cfg) (f : Frame) : List Out := if !f.code.skip && funcBpFound cfg f.code then [.reached f] else []

/-! ### Stopping and going on -/

/-- the frame whose return ends a step return: the one shown, or the last caller that is filtered out (`_do_wait_suspend`, 2309-2319); the
result begins with that frame -/
def returnFrom (cfg : Cfg) (my : Bool) : Stack → Stack
  | f :: b :: rest => if (my || cfg.filtersOn) && (if my then b.code.filterForce else b.code.filterAny) then returnFrom cfg my (b :: rest) else f :: b :: rest
  | s => s

/-- the state after the client answered a stop with a command, and the frames that are traced for it (`internal_step_in_thread`,
`internal_run_thread`, and `_do_wait_suspend` 2195-2197 and 2259-2332) -/
def resume (cfg : Cfg) (st : St) (shown : Stack) (reply : Cmd) : St × Stack :=
  let st := { st with cmd := reply, stop := none, suspended := false, initial := none }
  match shown with
  | [] => (st, [])
  | f :: _ =>
    match reply with
    | .none => (st, [])
    | .into | .intoMy => ({ st with initial := some (f.id, f.line) }, shown)
    | .over | .overMy => ({ st with stop := some f.id }, shown)
    | .ret | .retMy => match returnFrom cfg reply.isMy shown with
      | g :: b :: rest => ({ st with stop := some g.id }, g :: b :: rest)
      | _ => ({ st with cmd := .none }, [])

/-- the state after the handler -/
def after (cfg : Cfg) (st : St) (v : Verdict) (reply : Cmd) : St :=
  match v with
  | .go _ => st
  | .stop _ shown => (resume cfg st shown reply).1
  | .finish => { st with cmd := .none, stop := none, suspended := false }
  | .convert => { st with cmd := if st.cmd.isMy then .intoMy else .into, stop := none }
  | .retrace => st

def outs (v : Verdict) : List Out :=
  match v with
  | .stop w (f :: _) => [.stop w f]
  | _ => []

/-- `mark_thread_suspended` of a pause (pydevd_thread_lifecycle.py 28-50) -/
def paused (st : St) : St :=
  { st with suspended := true, cmd := if st.cmd = .none then .into else st.cmd, stop := if st.cmd = .none then none else st.stop }

def setLine (st : St) (l : Nat) : St :=
  match st.stack with
  | [] => st
  | f :: rest => { st with stack := { f with line := l } :: rest }

def pop (st : St) : St := { st with stack := st.stack.tail }

def push (st : St) (c : Code) : St := { st with stack := ⟨st.next, c, c.first⟩ :: st.stack, next := st.next + 1 }

/-! ### The debugger that gets every event -/

def allStep (cfg : Cfg) (st : St) (e : Event) : St × List Out :=
  match e.ev with
  | .call c hit =>
    let st := push st c
    match st.stack with
    | [] => (st, [])
    | f :: _ => let v := startVerdict cfg st f hit st.stack; (after cfg st v e.reply, startOuts cfg f ++ outs v)
  | .line l hit =>
    let st := setLine st l
    match st.stack with
    | [] => (st, [])
    | f :: _ => let v := lineVerdict cfg st f hit st.stack; (after cfg st v e.reply, lineOuts cfg f ++ outs v)
  | .ret => match st.stack with
    | [] => (st, [])
    | f :: back => let v := retVerdict cfg st f back; (pop (after cfg st v e.reply), outs v)
  | .unwind => (pop st, [])
  | .raise stops => match st.stack with
    | [] => (st, [])
    | f :: rest => if stops && !f.code.skip then (after cfg st (.stop .exception (f :: rest)) e.reply, [.stop .exception f]) else (st, [])
  | .pause => (paused st, [])

def allRun (cfg : Cfg) (st : St) : List Event → St × List Out
  | [] => (st, [])
  | e :: es => let r := allStep cfg st e; let q := allRun cfg r.1 es; (q.1, r.2 ++ q.2)

/-! ### The debugger as it is -/

/-- a location where an event can be switched off -/
inductive Loc
  | start
  | line (l : Nat)
  | ret
deriving DecidableEq

/-- what the interpreter reports -/
structure Mon where
  /-- the callbacks are registered and start events are on (`update_monitor_events`, 1918-1938) -/
  on : Bool
  /-- local events of code objects -/
  lineOn : Code → Bool
  retOn : Code → Bool
  disabled : Code → Loc → Bool

def startMon (cfg : Cfg) : Mon := ⟨cfg.hasBreaks, fun _ => false, fun _ => false, fun _ _ => false⟩

def enableLine (m : Mon) (c : Code) : Mon := { m with lineOn := fun c' => if c' = c then true else m.lineOn c' }
def enableRet (m : Mon) (c : Code) : Mon := { m with retOn := fun c' => if c' = c then true else m.retOn c' }

/-- `monitor.DISABLE` -/
def disable (m : Mon) (c : Code) (l : Loc) : Mon := { m with disabled := fun c' l' => if c' = c ∧ l' = l then true else m.disabled c' l' }

/-- `restart_events` -/
def restart (m : Mon) : Mon := { m with disabled := fun _ _ => false }

/-- `_enable_step_tracing` (846-866) for the frame `f` called by the frames `back` -/
def stepTracing (cfg : Cfg) (st : St) (f : Frame) (back : Stack) (m : Mon) : Mon :=
  match st.cmd with
  | .none => m
  | .into | .intoMy => enableRet (enableLine m f.code) f.code
  | .ret | .retMy => if same st f then enableRet m f.code else m
  | .over | .overMy =>
    if same st f then enableRet (enableLine m f.code) f.code
    else match back with
      | b :: _ => if cfg.showRet && same st b then enableRet m f.code else m
      | [] => m

/-- `_enable_code_tracing` (803-839) -/
def codeTracing (cfg : Cfg) (st : St) (f : Frame) (back : Stack) (m : Mon) : Mon :=
  if filtered cfg f.code then stepTracing cfg st f back m
  else stepTracing cfg st f back (if bpFound cfg f.code then enableLine m f.code else m)

/-- `set_trace_for_frame_and_parents` (pydevd.py 2377-2424) and `_enable_code_tracing_for_frame_and_parents` (1228-1242) -/
def traceAll (cfg : Cfg) (st : St) : Stack → Mon → Mon
  | [], m => m
  | f :: back, m => traceAll cfg st back (if f.code.skip then m else codeTracing cfg st f back m)

/-- `set_suspend`, which is not called once more if the thread was asked to pause (1552-1556): `suspend_all_threads` in the mode with one
notification (1954-1961), then `restart_events` (1984) -/
def suspendMon (cfg : Cfg) (w : Why) (m : Mon) : Mon := if w = .pause then m else restart { m with on := m.on || cfg.single }

/-- the events that are enabled after the handler -/
def monAfter (cfg : Cfg) (st : St) (c : Code) (l : Loc) (v : Verdict) (reply : Cmd) (m : Mon) : Mon :=
  match v with
  | .go d => if d then disable m c l else m
  | .stop w shown =>
    let r := resume cfg st shown reply
    traceAll cfg r.1 r.2 (suspendMon cfg w m)
  | .finish => m
  | .convert => traceAll cfg (after cfg st v reply) st.stack.tail m
  | .retrace => traceAll cfg st st.stack.tail m

def optStep (cfg : Cfg) (st : St) (m : Mon) (e : Event) : St × Mon × List Out :=
  match e.ev with
  | .call c hit =>
    let st := push st c
    match st.stack with
    | [] => (st, m, [])
    | f :: back =>
      if m.on && !m.disabled c .start then
        let v := startVerdict cfg st f hit st.stack
        let m := if c.skip then m else codeTracing cfg st f back m
        (after cfg st v e.reply, monAfter cfg st c .start v e.reply m, startOuts cfg f ++ outs v)
      else (st, m, [])
  | .line l hit =>
    let st := setLine st l
    match st.stack with
    | [] => (st, m, [])
    | f :: _ =>
      if m.on && m.lineOn f.code && !m.disabled f.code (.line l) then
        let v := lineVerdict cfg st f hit st.stack
        (after cfg st v e.reply, monAfter cfg st f.code (.line l) v e.reply m, lineOuts cfg f ++ outs v)
      else (st, m, [])
  | .ret => match st.stack with
    | [] => (st, m, [])
    | f :: back =>
      if m.on && m.retOn f.code && !m.disabled f.code .ret then
        let v := retVerdict cfg st f back
        (pop (after cfg st v e.reply), monAfter cfg st f.code .ret v e.reply m, outs v)
      else (pop st, m, [])
  | .unwind => (pop st, m, [])
  | .raise stops => match st.stack with
    | [] => (st, m, [])
    | f :: rest =>
      -- the handler of exceptions is registered when there are exception breakpoints, and its events cannot be switched off
      if stops && !f.code.skip then
        let st' := after cfg st (.stop .exception (f :: rest)) e.reply
        -- pydevd_frame.py 1296: the frames are traced again
        (st', traceAll cfg st' (f :: rest) (monAfter cfg st f.code .start (.stop .exception (f :: rest)) e.reply m), [.stop .exception f])
      else (st, m, [])
  | .pause =>
    let st := paused st
    (st, restart (traceAll cfg st st.stack { m with on := true }), [])

def optRun (cfg : Cfg) (st : St) (m : Mon) : List Event → St × Mon × List Out
  | [] => (st, m, [])
  | e :: es => let r := optStep cfg st m e; let q := optRun cfg r.1 r.2.1 es; (q.1, q.2.1, r.2.2 ++ q.2.2)

end MonStep
