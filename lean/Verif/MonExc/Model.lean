import Verif.Exceptions.Model
import Verif.TryExcept.Model
/-!
Model of exceptions under `sys.monitoring`: the handlers of the raise and unwind events, and what they do while an
exception travels through the frames of a thread.

Source: `/repo/_pydevd_sys_monitoring/_pydevd_sys_monitoring.py` `_get_unhandled_exception_frame` (192-248),
`_unwind_event` (900-953), `_raise_event` (963-1012), `update_monitor_events` (1879-1897);
`/repo/_pydevd_bundle/pydevd_frame.py` `should_stop_on_exception` (1064-1182, modelled in `Verif.Exceptions.Model`),
`handle_exception` (1202-1311); `/repo/pydevd.py` `do_stop_on_unhandled_exception` (2361-2375).

Simplifications: a frame is a number with the names the code looks at; the thread is traced, alive and runs while the
events happen; the answer of a template plugin is a parameter and does not depend on the frame; which lines carry the
ignore comment is a parameter (`Verif.IgnoreExc` models how it is found out). CPython's part is: in each frame the exception
reaches, the frame is put at the start of the traceback and a raise event happens; a frame may raise the same exception
again (`raise e` in a handler), which does the same once more; if the frame does not keep it, an unwind event follows.
-/

namespace MonExc
open Exceptions

/-- A frame on the stack of a thread. -/
structure Fr where
  frame : Frame
  /-- `splitext(basename(f_code.co_filename))[0]` -/
  file : String
  /-- `f_code.co_name` -/
  func : String
  /-- the line at which the exception is raised or arrives -/
  line : Nat
  /-- lines at which the frame raises the same exception again before it leaves or is handled -/
  again : List Nat := []
  /-- the traceback entry makes `ignore_exception_trace` true -/
  importing : Bool := false
  /-- `func_code_info.always_skip_code` -/
  skip : Bool := false
  /-- `collect_try_except_info(f_code)` -/
  infos : List TryExcept.Info := []
deriving DecidableEq, Repr

structure Exc where
  /-- which exception object it is -/
  id : Nat
  cls : Class
  ignoredCode : Bool := false
deriving DecidableEq, Repr

structure Cfg where
  env : Env
  keyboardInterrupt : Class
  /-- what `plugin.exception_break` answers -/
  plugin : Option Frame := none
  /-- the line of this traceback entry is marked to be ignored (1220-1269) -/
  ignoreLine : TbEntry → Bool
  /-- the breakpoint has an expression -/
  hasExpr : Ebp → Bool
  /-- `some`: the frame of the handler itself, from which the pure Python build starts its walk; `none`: the compiled
  build, whose handlers have no frame -/
  handlerFrame : Option Fr := none

inductive Kind where
  | handled
  | userUnhandled
  | unhandled
deriving DecidableEq, Repr

/-- What the handlers do that can be observed. -/
inductive Out where
  /-- the thread stops: `do_wait_suspend` with this exception type, showing this frame -/
  | stop (k : Kind) (f : Frame) (exc : Nat)
  /-- `add_exception_to_frame` -/
  | added (f : Frame)
  /-- `remove_exception_from_frame` -/
  | removed (f : Frame)
  /-- `handle_breakpoint_expression` -/
  | expr (f : Frame)
deriving DecidableEq, Repr

/-- `_thread_local_info` -/
structure Local where
  /-- `f_unhandled_exc`, `f_unhandled_frame` -/
  unhandled : Option (Nat × Frame) := none
  /-- `_user_uncaught_exc_info` -/
  userInfo : Option ExcInfo := none
deriving DecidableEq, Repr

/-- The frame is one of those that start a program or a thread (215-237). -/
def bootstrap (f : Fr) : Bool :=
  if f.file = "threading" then
    ["__bootstrap", "_bootstrap", "__bootstrap_inner", "_bootstrap_inner", "run"].contains f.func
  else if f.file = "pydev_monkey" then f.func = "__call__"
  else if f.file = "pydevd" then ["_exec", "run", "main"].contains f.func
  else if f.file = "pydevd_runpy" || f.file = "<frozen runpy>" || f.file = "runpy" then
    "run".toList.isPrefixOf f.func.toList || "_run".toList.isPrefixOf f.func.toList
  else false

/-- The loop (210-241): the first frame whose caller is a bootstrap frame or missing. -/
def walk : Fr → List Fr → Frame
  | f, [] => f.frame
  | f, g :: outer => if bootstrap g then f.frame else walk g outer

/-- Where the walk starts (208): `_getframe(1)` is the handler's own frame in the pure Python build; the compiled build
defines `_getframe` (129-130) as the innermost Python frame. -/
def startWalk (c : Cfg) (f : Fr) (outer : List Fr) : Frame :=
  match c.handlerFrame with
  | none => walk f outer
  | some h => walk h (f :: outer)

/-- `_get_unhandled_exception_frame` (192-248) called from the handler for the innermost frame of `f :: outer`. -/
def getUnhandled (c : Cfg) (l : Local) (exc : Exc) (f : Fr) (outer : List Fr) : Local × Frame :=
  let compute : Local × Frame :=
    ({ l with unhandled := some (exc.id, startWalk c f outer) }, startWalk c f outer)
  match l.unhandled with
  | some (e, r) => if e = exc.id then (l, r) else compute
  | none => compute

/-- `has_caught_exception_breakpoint_in_pydb` (927-929, 1881-1883) -/
def hasCaught (c : Cfg) : Bool :=
  !c.env.tables.caught.isEmpty || !c.env.tables.userUncaught.isEmpty || c.plugin.isSome

/-- The events asked for in `update_monitor_events` (1887-1897): raise, unwind. -/
def raiseOn (c : Cfg) : Bool := hasCaught c
def unwindOn (c : Cfg) : Bool := hasCaught c || !c.env.tables.uncaught.isEmpty

/-- What `should_stop_on_exception` gets for this frame. -/
def mkRaise (c : Cfg) (exc : Exc) (line : Nat) (trace : List TbEntry) (f : Fr) (outer : List Fr) : Raise :=
  { exc := exc.cls, ignoredCode := exc.ignoredCode, trace, frame := f.frame, line,
    back := outer.head?.map (·.frame), plugin := c.plugin }

/-- The end of `should_stop_on_exception` (1175-1180). -/
def effects (c : Cfg) (a : Answer) : List Out :=
  if a.stop then
    .added a.frame :: (match a.bp with | some b => if c.hasExpr b then [.expr a.frame] else [] | none => [])
  else []

/-- `handle_exception` (1202-1311) -/
def handleException (c : Cfg) (exc : Exc) (trace : List TbEntry) (f : Frame) (k : Kind) : List Out :=
  if (trace.head?.map c.ignoreLine).getD false || (trace.getLast?.map c.ignoreLine).getD false then [.removed f]
  else [.stop k f exc.id, .removed f]

/-- `_raise_event` (963-1012) -/
def raiseEvent (c : Cfg) (l : Local) (exc : Exc) (line : Nat) (trace : List TbEntry) (f : Fr) (outer : List Fr) :
    Local × List Out :=
  if f.skip then (l, [])
  else
    let a := shouldStop c.env (mkRaise c exc line trace f outer) l.userInfo
    ({ l with userInfo := a.info },
      effects c a ++ (if a.stop then handleException c exc trace a.frame .handled else []))

/-- `stop_on_unhandled_exception` with its effects (`pydevd_breakpoints.py` 126-174) and
`do_stop_on_unhandled_exception`. The decision is `stopOnUnhandled`; the exception is added to the frame before the
condition is looked at. -/
def unhandledEffects (c : Cfg) (exc : Exc) (trace : List TbEntry) : List Out :=
  match getBreakpoint c.env.sub c.env.fullName exc.cls c.env.tables.uncaught with
  | none => []
  | some b =>
    match stopOnUnhandled c.env c.keyboardInterrupt exc.cls exc.ignoredCode trace with
    | some g => .added g :: (if c.hasExpr b then [.expr g] else []) ++ [.stop .unhandled g exc.id, .removed g]
    | none =>
      if exc.cls = c.keyboardInterrupt || (exc.cls = c.env.systemExit && exc.ignoredCode) then []
      else (userFrame c.env b trace none).toList.map .added

/-- `_unwind_event` (900-953). `line` is `f_lineno`. -/
def unwindEvent (c : Cfg) (l : Local) (exc : Exc) (line : Nat) (trace : List TbEntry) (f : Fr) (outer : List Fr) :
    Local × List Out :=
  if f.skip then (l, [])
  else
    let a : Answer :=
      if hasCaught c then shouldStop c.env (mkRaise c exc line trace f outer) none
      else { stop := false, frame := f.frame, info := none }
    let eff := effects c a
    let user := match a.info with
      | some i => TryExcept.isUnhandled f.infos line i.lastLine i.lines
      | none => false
    if user then (l, eff ++ handleException c exc trace a.frame .userUnhandled)
    else if c.env.tables.uncaught.isEmpty then (l, eff)
    else
      let (l, u) := getUnhandled c l exc f outer
      if a.frame = u then (l, eff ++ unhandledEffects c exc trace) else (l, eff)

def entry (f : Fr) (line : Nat) : TbEntry := { frame := f.frame, line, importing := f.importing }

/-- The raise events of one frame: the traceback grows at its start. `on`: the event is delivered. -/
def raises (on : Bool) (c : Cfg) (exc : Exc) (f : Fr) (outer : List Fr) :
    Local → List TbEntry → List Nat → Local × List TbEntry × List Out
  | l, trace, [] => (l, trace, [])
  | l, trace, n :: ns =>
    let trace := entry f n :: trace
    let r := if on then raiseEvent c l exc n trace f outer else (l, [])
    let q := raises on c exc f outer r.1 trace ns
    (q.1, q.2.1, r.2 ++ q.2.2)

/-- The line the frame is at when the exception leaves it. -/
def lastLine (f : Fr) : Nat := (f.line :: f.again).getLast (by simp)

/-- An exception travels through the stack (innermost frame first). `n` frames let it through; the next one, if there is
one, handles it. `ro` and `uo`: raise and unwind events are delivered. -/
def travelWith (ro uo : Bool) (c : Cfg) (exc : Exc) : Local → List TbEntry → Nat → List Fr → Local × List Out
  | l, _, _, [] => (l, [])
  | l, trace, n, f :: outer =>
    let r := raises ro c exc f outer l trace (f.line :: f.again)
    match n with
    | 0 => (r.1, r.2.2)
    | n + 1 =>
      let u := if uo then unwindEvent c r.1 exc (lastLine f) r.2.1 f outer else (r.1, [])
      let q := travelWith ro uo c exc u.1 r.2.1 n outer
      (q.1, r.2.2 ++ u.2 ++ q.2)

/-- With the events the debugger asks for. -/
def travel (c : Cfg) (exc : Exc) (l : Local) (n : Nat) (stack : List Fr) : Local × List Out :=
  travelWith (raiseOn c) (unwindOn c) c exc l [] n stack

end MonExc
