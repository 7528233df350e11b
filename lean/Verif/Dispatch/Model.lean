import Verif.Common.Str
/-!
Model of the decision taken at every trace event: skip caches, breakpoints, stepping.

Source: `/repo/_pydevd_bundle/pydevd_frame.py` `PyDBFrame.trace_dispatch` (346-1055), `_is_same_frame` (288-309),
`_get_unfiltered_back_frame` (268-283), `trace_exception` (176-207);
`/repo/_pydevd_bundle/pydevd_trace_dispatch_regular.py` `ThreadTracer.__call__` (353-529);
`/repo/pydevd.py` `handle_breakpoint_condition` (945-982), `consolidate_breakpoints` (1862-1868), `_clear_caches`
(1308-1324), `on_breakpoints_changed` (1171-1189), `_do_wait_suspend` (2257-2340),
`set_trace_for_frame_and_parents` (2377-2424); `/repo/_pydevd_bundle/pydevd_thread_lifecycle.py`
`mark_thread_suspended` (28-50); `/repo/_pydevd_bundle/pydevd_bytecode_utils.py`
`get_smart_step_into_variant_from_frame_offset` (920-938).

Simplifications: no plugin manager (no Django/Jinja2 breakpoints); values produced by user code are given: the
answer of the condition, whether an exception event stopped (`Exceptions` models that decision); file names are
numbers; filter answers are functions of the code object; `should_trace_hook` is evaluated every time instead of
being remembered per frame; waiting for the client is not modelled here, the outcome says where the thread
suspends and the information it suspends with; exceptions raised inside the trace function are not modelled.
-/

namespace Dispatch

/-- A code object: what `trace_dispatch` reads of it. `body` stands for everything else. -/
structure Code where
  file : Nat
  name : List Char
  firstLine : Nat
  /-- `dis.findlinestarts` -/
  lines : List Nat
  /-- `co_flags & 0xA0` -/
  gen : Bool := false
  /-- `co_flags & 0x80` -/
  coroutine : Bool := false
  /-- `collect_return_info` -/
  returnLines : List Nat := []
  body : Nat := 0
deriving DecidableEq, Repr

/-- Code objects are used as dictionary keys. Their equality in CPython compares name, first line, bytecode,
constants and line table, not `co_filename`. -/
def Code.key (c : Code) : Code := { c with file := 0 }

/-- A frame object, compared by identity (`id`). -/
structure Frame where
  id : Nat
  code : Code
deriving DecidableEq, Repr

/-- A frame together with its mutable position. -/
structure Entry where
  frame : Frame
  line : Nat
  lasti : Int := 0
deriving DecidableEq, Repr

/-- The current frame followed by the `f_back` chain. -/
abbrev Stack := List Entry

/-- `pydev_step_cmd`; `none` is -1 -/
inductive Cmd where
  | none | into | intoMy | over | overMy | ret | retMy | smart | coroutine | suspend | other
deriving DecidableEq, Repr

/-- `Variant` of smart step into, with one level of children. -/
structure Variant where
  offset : Int
  uid : Nat
  children : List (Int × Nat) := []
deriving DecidableEq, Repr

/-- `PyDBAdditionalThreadInfo` -/
structure Info where
  /-- `pydev_state == STATE_SUSPEND` -/
  suspended : Bool := false
  cmd : Cmd := .none
  stop : Option Frame := none
  /-- `pydev_original_step_cmd` -/
  orig : Cmd := .none
  /-- `pydev_use_scoped_step_frame` -/
  ipy : Bool := false
  /-- `step_in_initial_location` -/
  initialLoc : Option (Frame × Nat) := none
  parentOffset : Int := -1
  childOffset : Int := -1
  variants : List Variant := []
  funcName : List Char := []
  nextLine : Nat := 0
deriving DecidableEq, Repr

/-- `LineBreakpoint` / `FunctionBreakpoint` -/
structure Bp where
  hasExpression : Bool := false
  hasCondition : Bool := false
  logpoint : Bool := false
  /-- `suspend_policy == "ALL"` -/
  all : Bool := false
deriving DecidableEq, Repr

inductive FileType where
  | lib | pydev
deriving DecidableEq, Repr

/-- What the debugger is configured with at the moment of the event. -/
structure Cfg where
  /-- `py_db.breakpoints.get(file)` -/
  bps : Nat → Option (List (Nat × Bp)) := fun _ => none
  /-- `function_breakpoint_name_to_breakpoint` -/
  funcBps : List Char → Option Bp := fun _ => none
  /-- `has_exception_breakpoints` -/
  excBreaks : Bool := false
  showReturn : Bool := false
  disposed : Bool := false
  quitting : Bool := false
  /-- `is_files_filter_enabled` -/
  filtersOn : Bool := false
  /-- `apply_files_filter(frame, filename, force_check_project_scope)` -/
  filter : Code → Bool → Bool := fun _ _ => false
  fileType : Code → Option FileType := fun _ => none
  inScope : Code → Bool := fun _ => true
  /-- `pydevd_dont_trace.should_trace_hook` -/
  hook : Option (Code → Bool) := none
  /-- the file name ends with `interactiveshell.py` -/
  shellFile : Code → Bool := fun _ => false
  /-- `(base, co_name) in (DEBUG_START, DEBUG_START_PY3K)` -/
  debugStart : Code → Bool := fun _ => false
  /-- `base == TRACE_PROPERTY` -/
  traceProperty : Code → Bool := fun _ => false
  /-- `_global_notify_skipped_step_in`: the client was already told in this process that a step into was skipped. An event that gives the
  notice sets it; the histories of `Caches.lean` leave that out. -/
  noticed : Bool := false

inductive Ev where
  | call | line | ret
  /-- an exception event; the flag says that `should_stop_on_exception` and `handle_exception` stopped -/
  | exc (stopped : Bool)
  /-- `c_call` and the like -/
  | other
deriving DecidableEq, Repr

/-- Answers of user code during the event. -/
structure Answers where
  /-- `handle_breakpoint_condition` -/
  cond : Bool := false
  /-- `self.exc_info` is set, and `handle_user_exception` answered this -/
  userExc : Option Bool := none
deriving DecidableEq, Repr

/-- The trace function left installed: `self.trace_dispatch`, `self.trace_exception`, or
`None if event == "call" else NO_FTRACE`. -/
inductive Ret where
  | trace | exceptions | off
deriving DecidableEq, Repr

inductive Eff where
  | hit (b : Bp)
  | expression
  | condition
  | log
  | showReturn
  /-- the thread suspends, the client is shown this frame -/
  | suspend (at_ : Frame) (breakpoint : Bool) (others : Bool)
  | exceptionStop
  | userExceptionStop
  | resetTrace
  | clearStep
  | notifySkipped
deriving DecidableEq, Repr

/-- Writes to the two module-level caches. -/
inductive Write where
  | skip (k : Code) (why : Nat)
  | frame (k : Code) (has : Bool)
  | line (k : Code) (l : Nat)
deriving DecidableEq, Repr

/-- `global_cache_skips` and `global_cache_frame_skips` -/
structure Cache where
  skips : Code → Option Nat := fun _ => none
  frames : Code → Option Bool := fun _ => none
  /-- `frame_skips_cache[(code, line)] == 0` -/
  lines : Code → Nat → Bool := fun _ _ => false

def Cache.write (c : Cache) : Write → Cache
  | .skip k w => { c with skips := fun x => if x = k then some w else c.skips x }
  | .frame k b => { c with frames := fun x => if x = k then some b else c.frames x }
  | .line k l => { c with lines := fun x n => if x = k ∧ n = l then true else c.lines x n }

structure Outcome where
  ret : Ret
  info : Info
  writes : List Write := []
  effects : List Eff := []
deriving DecidableEq, Repr

/-! ### Helpers of `PyDBFrame` -/

def topFrame (stk : Stack) : Option Frame := stk.head?.map (·.frame)

/-- `_is_same_frame` (288-309); `None is None` counts as the same. -/
def isSame (ipy : Bool) (target : Option Frame) (stk : Stack) : Bool :=
  if target = topFrame stk then true
  else
    ipy &&
    match target, stk with
    | some t, c :: b1 :: b2 :: _ =>
      t.code.file == c.frame.code.file && b1.frame.code.name == c!"run_code" && b2.frame.code.name == c!"run_ast_nodes"
    | _, _ => false

/-- `_get_unfiltered_back_frame` (268-283), given the chain starting at `f_back` -/
def unfilteredBack (cfg : Cfg) : Stack → Option Frame
  | [] => none
  | e :: stk => if !cfg.filtersOn then some e.frame else if cfg.filter e.frame.code false then unfilteredBack cfg stk else some e.frame

/-- `get_smart_step_into_variant_from_frame_offset` on variants sorted by offset: the last one not after. -/
def variantAt {α : Type} (off : α → Int) (lasti : Int) (vs : List α) : Option α :=
  (vs.filter (fun v => decide (off v ≤ lasti))).getLast?

/-- `mark_thread_suspended` (28-50), main suspend. -/
def markSuspended (i : Info) : Info :=
  let i := if i.cmd = .none then { i with cmd := .into, stop := none } else i
  { i with suspended := true }

/-! ### Classification of the event (377-551) -/

inductive Kind where
  | line | call | ret | exc
deriving DecidableEq, Repr

structure Cls where
  kind : Kind
  info : Info
  funcBp : Option Bp := none
deriving DecidableEq, Repr

/-- The adjustment on the return of a generator or coroutine (425-450). -/
def genReturnInfo (cfg : Cfg) (i : Info) (cur : Frame) (back : Stack) : Info :=
  if i.stop = some cur ∧ i.ipy = false then
    if i.cmd = .over ∨ i.cmd = .overMy ∨ i.cmd = .into ∨ i.cmd = .intoMy then
      match unfilteredBack cfg back with
      | some f => { i with cmd := .coroutine, stop := some f }
      | none =>
        if i.cmd = .over then { i with cmd := .into, stop := none }
        else if i.cmd = .overMy then { i with cmd := .intoMy, stop := none }
        else i
    else if i.cmd = .coroutine then
      match unfilteredBack cfg back with
      | some f => { i with stop := some f }
      | none => { i with cmd := .into, stop := none }
    else i
  else i

/-- The adjustment on the return of a plain function (488-506). -/
def returnInfo (i : Info) (cur : Frame) : Info :=
  if i.stop = some cur ∧ i.ipy = false ∧
      (i.cmd = .over ∨ i.cmd = .ret ∨ i.cmd = .overMy ∨ i.cmd = .retMy ∨ i.cmd = .smart) then
    if i.cmd = .over ∨ i.cmd = .ret ∨ i.cmd = .smart then { i with cmd := .into, stop := none }
    else { i with cmd := .intoMy, stop := none }
  else i

/-- Lines 377-541: an immediate answer, or the classified event. -/
def classify (cfg : Cfg) (i : Info) (cur : Entry) (back : Stack) (ev : Ev) (ans : Answers) : Outcome ⊕ Cls :=
  if cur.frame.code.gen then
    match ev with
    | .line => .inr { kind := .line, info := i }
    | .ret =>
      if cur.line ∈ cur.frame.code.returnLines then
        match ans.userExc with
        | some handled => .inl { ret := .trace, info := i, effects := if handled then [.userExceptionStop] else [] }
        | none => .inr { kind := .ret, info := genReturnInfo cfg i cur.frame back }
      else .inl { ret := .trace, info := i }
    | .exc stopped => .inl { ret := .trace, info := i, effects := if stopped then [.exceptionStop] else [] }
    | .call => .inl { ret := .trace, info := i }
    | .other => .inl { ret := .trace, info := i }
  else
    match ev with
    | .line => .inr { kind := .line, info := i }
    | .ret =>
      if ans.userExc = some true then
        .inl { ret := .trace, info := returnInfo i cur.frame, effects := [.userExceptionStop] }
      else .inr { kind := .ret, info := returnInfo i cur.frame }
    | .call =>
      .inr { kind := .call, info := i,
             funcBp := if cur.frame.code.firstLine = cur.line then cfg.funcBps cur.frame.code.name else none }
    | .exc true => .inl { ret := .trace, info := i, effects := [.exceptionStop] }
    | .exc false => .inr { kind := .exc, info := i }
    | .other => .inl { ret := .trace, info := i }

/-! ### Skipping (553-662) -/

/-- `CMD_STEP_INTO_COROUTINE`: is the stop frame on the stack? (586-593) -/
def onStack (ipy : Bool) (target : Option Frame) : Stack → Bool
  | [] => false
  | e :: stk => isSame ipy target (e :: stk) || onStack ipy target stk

/-- `can_skip` (553-609). `cmd` and `stop` are the values read at the start of the event. -/
def canSkip (cfg : Cfg) (i : Info) (cmd : Cmd) (stop : Option Frame) (cur : Entry) (back : Stack) : Bool :=
  if i.suspended then false
  else
    let skip :=
      match cmd with
      | .none => true
      | .over | .ret | .overMy | .retMy => !isSame i.ipy stop (cur :: back)
      | .smart =>
        stop.isSome && stop != some cur.frame && stop != topFrame back && (back.isEmpty || stop != topFrame back.tail)
      | .intoMy =>
        cfg.filter cur.frame.code true && (match back with | [] => true | b :: _ => cfg.filter b.frame.code true)
      | .coroutine => !onStack i.ipy stop (cur :: back)
      | _ => false
    skip && !(cfg.showReturn && (i.cmd = .over || i.cmd = .overMy) && isSame i.ipy stop back)

/-- A line breakpoint is in the lines of the function (625-656). -/
def hasBpIn (c : Code) (bs : List (Nat × Bp)) : Bool := bs.any (fun b => c.lines.contains b.1)

/-- What the skip phase decides: an immediate answer or go on; with the cache write it makes. -/
inductive Skip where
  | stop (r : Ret)
  | go
deriving DecidableEq, Repr

def skipRet (cfg : Cfg) : Ret := if cfg.excBreaks then .exceptions else .off

/-- Lines 611-662. -/
def skipPhase (cfg : Cfg) (cache : Cache) (c : Code) (line : Nat) (can : Bool) (funcBp : Option Bp) :
    Skip × List Write :=
  if funcBp.isSome then (.go, [])
  else
    match cfg.bps c.file with
    | none => if can then (.stop (skipRet cfg), []) else (.go, [])
    | some [] => if can then (.stop (skipRet cfg), []) else (.go, [])
    | some bs =>
      if can && cache.lines c.key line then (.stop .trace, [])
      else
        match cache.frames c.key with
        | some has => if can && !has then (.stop (skipRet cfg), []) else (.go, [])
        | none =>
          let has := hasBpIn c bs
          if can && !has then (.stop (skipRet cfg), [.frame c.key has]) else (.go, [.frame c.key has])

/-! ### Breakpoints (668-777) -/

def lookupBp (bs : Option (List (Nat × Bp))) (line : Nat) : Option Bp :=
  match bs with
  | none => none
  | some l => (l.find? (fun b => b.1 == line)).map (·.2)

/-- The breakpoint of this event (683-700). -/
def theBp (cfg : Cfg) (cls : Cls) (cur : Entry) : Option Bp :=
  match cls.funcBp with
  | some b => some b
  | none =>
    if cls.kind = .line && !cls.info.suspended then lookupBp (cfg.bps cur.frame.code.file) cur.line else none

/-- The call of a module, lambda or cell (714-716). -/
def moduleCall (cls : Cls) (cur : Entry) : Bool :=
  cls.kind = .call &&
    (cur.frame.code.name == c!"<lambda>" || cur.frame.code.name == c!"<module>" ||
      (cur.line == 1 && Py.startsWith cur.frame.code.name c!"<cell"))

/-- The return values are shown (740-757). -/
def showsReturn (cfg : Cfg) (cls : Cls) (stop : Option Frame) (cur : Entry) (back : Stack) : Bool :=
  let i := cls.info
  cfg.showReturn && cls.kind = .ret &&
    ((decide (i.cmd = .over ∨ i.cmd = .overMy ∨ i.cmd = .smart) && isSame i.ipy stop back) ||
     (decide (i.cmd = .ret ∨ i.cmd = .retMy) && isSame i.ipy stop (cur :: back)) ||
     decide (i.cmd = .into ∨ i.cmd = .coroutine) ||
     (decide (i.cmd = .intoMy) && (match back with | [] => false | b :: _ => !cfg.filter b.frame.code true)))

/-- The breakpoint wants to stop (702-735). -/
def bpStops (b : Bp) (ans : Answers) : Bool := (!b.hasCondition || ans.cond) && !b.logpoint

def bpEffects (b : Bp) : List Eff :=
  [.hit b] ++ (if b.hasExpression then [.expression] else []) ++ (if b.hasCondition then [.condition] else [])

def logEffects (b : Bp) (ans : Answers) : List Eff :=
  if b.logpoint && (!b.hasCondition || ans.cond) then [.log] else []

/-! ### Stepping (800-992) -/

inductive StepDec where
  | off
  | stop (b : Bool)
deriving DecidableEq, Repr

/-- `CMD_STEP_INTO_COROUTINE`: only inside the context (881-891). -/
def restrictCoroutine (cmd : Cmd) (i : Info) (stop : Option Frame) (stk : Stack) (b : Bool) : Bool :=
  if b && cmd = .coroutine then onStack i.ipy stop stk else b

/-- Inside the IPython call (848-858). -/
def insideIPython : Stack → Bool
  | [] => false
  | [_] => false
  | a :: b :: stk =>
    (a.frame.code.name == c!"run_code" && b.frame.code.name == c!"run_ast_nodes") || insideIPython (b :: stk)

/-- step into and its variants (819-891) -/
def stepInto (cfg : Cfg) (i : Info) (cmd : Cmd) (stop : Option Frame) (kind : Kind) (cur : Entry) (back : Stack) : StepDec :=
  let force := cmd = .intoMy
  let check := force || cfg.filtersOn
  match kind with
  | .line =>
    if !i.ipy then
      .stop (restrictCoroutine cmd i stop (cur :: back) (if check then !cfg.filter cur.frame.code force else true))
    else if check && cfg.filter cur.frame.code force then .off
    else if !cfg.shellFile cur.frame.code && insideIPython back then .stop (restrictCoroutine cmd i stop (cur :: back) true)
    else .off
  | .ret =>
    match back with
    | [] => .stop false
    | b :: _ =>
      if i.ipy then .stop false
      else if cfg.fileType b.frame.code = some .pydev then .stop false
      else
        .stop (restrictCoroutine cmd i stop (cur :: back)
          (if check then !cfg.filter b.frame.code force && i.initialLoc != some (b.frame, b.line) else true))
  | _ => .stop false

/-- The name compared in smart step into (945-948). -/
def smartName (n : List Char) : List Char := if n = c!"?" ∨ n = c!"<module>" then [] else n

/-- smart step into (910-980) -/
def stepSmart (i : Info) (stop : Option Frame) (stopLine : Option Nat) (kind : Kind) (cur : Entry) (back : Stack) : StepDec :=
  if isSame i.ipy stop (cur :: back) && kind = .ret then .stop true
  else if isSame i.ipy stop back && kind = .line then
    let b :=
      if i.childOffset ≠ -1 then false
      else if i.parentOffset ≥ 0 ∧ i.variants ≠ [] then
        match back with
        | [] => false
        | p :: _ =>
          (variantAt (·.offset) p.lasti i.variants).map (·.uid) ==
            (variantAt (·.offset) i.parentOffset i.variants).map (·.uid)
      else smartName cur.frame.code.name == i.funcName && stopLine == some i.nextLine
    if b then .stop true else .off
  else if !back.isEmpty && isSame i.ipy stop back.tail && kind = .line then
    let b :=
      if i.childOffset ≥ 0 ∧ i.parentOffset ≥ 0 ∧ i.variants ≠ [] then
        match variantAt (·.offset) i.parentOffset i.variants, back with
        | some v, p :: _ =>
          !v.children.isEmpty &&
            ((variantAt (·.1) p.lasti v.children).map (·.2) == (variantAt (·.1) i.childOffset v.children).map (·.2))
        | _, _ => false
      else false
    if b then .stop true else .off
  else .stop false

/-- `should_trace_hook is not None and not should_trace_hook(code, ..)` -/
def hookRejects (cfg : Cfg) (c : Code) : Bool := match cfg.hook with | some h => !h c | none => false

/-- Lines 800-992. `stopLine` is `stop_frame.f_lineno`. -/
def stepDecision (cfg : Cfg) (i : Info) (cmd : Cmd) (stop : Option Frame) (stopLine : Option Nat) (kind : Kind)
    (cur : Entry) (back : Stack) : StepDec :=
  if hookRejects cfg cur.frame.code then .stop false
  else
    match cmd with
    | .into | .intoMy | .coroutine | .suspend => stepInto cfg i cmd stop kind cur back
    | .over | .overMy => .stop (isSame i.ipy stop (cur :: back) && kind = .line)
    | .smart => stepSmart i stop stopLine kind cur back
    | .ret | .retMy => .stop (kind = .ret && isSame i.ipy stop (cur :: back))
    | _ => .stop false

/-- No stop on the return into a debugger file (989-993). -/
def pydevGate (cfg : Cfg) (cmd : Cmd) (kind : Kind) (back : Stack) (b : Bool) : Bool :=
  if b && cmd ≠ .none && kind = .ret then
    (match back with | [] => b | p :: _ => cfg.fileType p.frame.code ≠ some .pydev)
  else b

/-- Lines 989-1040: acting on the decision. -/
def act (cfg : Cfg) (i : Info) (cmd : Cmd) (kind : Kind) (cur : Entry) (back : Stack) (dec : StepDec)
    (writes : List Write) (effs : List Eff) : Outcome :=
  let fin : Ret := if cfg.quitting then .off else .trace
  match dec with
  | .off => { ret := .off, info := i, writes, effects := effs }
  | .stop b =>
    if !pydevGate cfg cmd kind back b then { ret := fin, info := i, writes, effects := effs }
    else if kind = .line then
      { ret := fin, info := markSuspended i, writes, effects := effs ++ [.suspend cur.frame false false] }
    else if kind = .ret then
      match back with
      | [] => { ret := fin, info := { i with stop := none, orig := .none, cmd := .none, suspended := false }, writes,
                effects := effs ++ [.clearStep] }
      | p :: _ =>
        if cfg.debugStart p.frame.code then
          { ret := fin, info := { i with stop := none, orig := .none, cmd := .none, suspended := false }, writes,
            effects := effs ++ [.clearStep] }
        else if cfg.traceProperty p.frame.code then { ret := .off, info := i, writes, effects := effs }
        else if hookRejects cfg p.frame.code then
          { ret := .off, info := i, writes, effects := effs ++ [.resetTrace] }
        else { ret := fin, info := markSuspended i, writes, effects := effs ++ [.suspend p.frame false false] }
    else { ret := fin, info := i, writes, effects := effs }

/-! ### The whole event -/

/-- From the breakpoint check on (665-1048). -/
def decide' (cfg : Cfg) (cls : Cls) (cmd : Cmd) (stop : Option Frame) (stopLine : Option Nat) (cur : Entry) (back : Stack)
    (ans : Answers) (writes : List Write) : Outcome :=
  let i := cls.info
  let sr : List Eff := if showsReturn cfg cls stop cur back then [.showReturn] else []
  match theBp cfg cls cur with
  | some b =>
    if moduleCall cls cur then { ret := .trace, info := i, writes, effects := bpEffects b }
    else
      let effs := bpEffects b ++ logEffects b ans ++ sr
      if bpStops b ans then
        { ret := .trace, info := markSuspended i, writes, effects := effs ++ [.suspend cur.frame true b.all] }
      else if i.suspended then
        { ret := .trace, info := i, writes, effects := effs ++ [.suspend cur.frame false false] }
      else act cfg i cmd cls.kind cur back (stepDecision cfg i cmd stop stopLine cls.kind cur back) writes effs
  | none =>
    if i.suspended then { ret := .trace, info := i, writes, effects := sr ++ [.suspend cur.frame false false] }
    else
      let writes := if cls.kind = .line then writes ++ [.line cur.frame.code.key cur.line] else writes
      act cfg i cmd cls.kind cur back (stepDecision cfg i cmd stop stopLine cls.kind cur back) writes sr

/-- `PyDBFrame.trace_dispatch` (346-1055). -/
def dispatch (cfg : Cfg) (cache : Cache) (i : Info) (stopLine : Option Nat) (cur : Entry) (back : Stack) (ev : Ev)
    (ans : Answers) : Outcome :=
  if cfg.disposed then { ret := .off, info := i }
  else
    match classify cfg i cur back ev ans with
    | .inl o => o
    | .inr cls =>
      if cls.kind = .exc then decide' cfg cls i.cmd i.stop stopLine cur back ans []
      else
        match skipPhase cfg cache cur.frame.code cur.line (canSkip cfg cls.info i.cmd i.stop cur back) cls.funcBp with
        | (.stop r, w) => { ret := r, info := cls.info, writes := w }
        | (.go, w) => decide' cfg cls i.cmd i.stop stopLine cur back ans w

/-- `trace_exception` (176-207) on a line, call or other event does nothing; the exception and return parts
stop through `handle_exception`, given by the event. -/
def traceException (i : Info) (ev : Ev) (ans : Answers) : Outcome :=
  match ev with
  | .exc true => { ret := .trace, info := i, effects := [.exceptionStop] }
  | .ret => if ans.userExc = some true then { ret := .trace, info := i, effects := [.userExceptionStop] }
            else { ret := .exceptions, info := i }
  | _ => { ret := .exceptions, info := i }

/-- Filtering by the thread tracer before a `PyDBFrame` is made (391-478): `true` means the event is dropped. -/
def stepChecksBack (cmd : Cmd) : Bool := decide (cmd = .into ∨ cmd = .intoMy ∨ cmd = .ret ∨ cmd = .retMy)

def notify (i : Info) : List Eff := if i.orig = .into ∨ i.orig = .intoMy then [.notifySkipped] else []

/-- The notice that a step into was skipped because of the filters (408-413, 454-459); it is given once, as the first call sets the flag. -/
def notices (cfg : Cfg) (cache : Cache) (i : Info) (cur : Entry) : List Eff :=
  if i.cmd = .none ∨ cfg.noticed = true then []
  else if cache.skips cur.frame.code.key = some 1 then notify i
  else
    match cfg.fileType cur.frame.code with
    | some .pydev => []
    | ft =>
      if ft = some .lib && !cfg.inScope cur.frame.code then []
      else if cfg.filtersOn && cfg.filter cur.frame.code false then notify i
      else []

/-- The cache test (400-428): dropped or not. -/
def cacheDrops (cache : Cache) (i : Info) (cur : Entry) (back : Stack) : Bool :=
  match cache.skips cur.frame.code.key with
  | none => false
  | some w =>
    if i.cmd = .none then true
    else if w = 1 then
      match back with
      | b :: _ => if stepChecksBack i.cmd then cache.skips b.frame.code.key = some 1 else true
      | [] => true
    else false

/-- The file type and filter tests (431-478): dropped or not, with the cache writes. -/
def filterDrops (cfg : Cfg) (i : Info) (cur : Entry) (back : Stack) : Bool × List Write :=
  let k := cur.frame.code.key
  match cfg.fileType cur.frame.code with
  | some .pydev => (true, [.skip k 1])
  | ft =>
    if ft = some .lib && !cfg.inScope cur.frame.code then (true, [.skip k 1])
    else if cfg.filtersOn && cfg.filter cur.frame.code false then
      match back with
      | b :: _ =>
        if stepChecksBack i.cmd then
          if cfg.filter b.frame.code false then (true, [.skip k 1, .skip b.frame.code.key 1]) else (false, [.skip k 1])
        else (true, [.skip k 1])
      | [] => (true, [.skip k 1])
    else (false, [])

/-- `ThreadTracer.__call__` (353-529), for a thread that is alive and not already inside the tracer. -/
def threadCall (cfg : Cfg) (cache : Cache) (i : Info) (stopLine : Option Nat) (cur : Entry) (back : Stack) (ev : Ev)
    (ans : Answers) : Outcome :=
  if cfg.disposed then { ret := .off, info := i }
  else if cacheDrops cache i cur back then
    { ret := .off, info := i,
      effects := notices cfg cache i cur }
  else
    match filterDrops cfg i cur back with
    | (true, w) => { ret := .off, info := i, writes := w, effects := notices cfg cache i cur }
    | (false, w) =>
      let o := dispatch cfg cache i stopLine cur back ev ans
      let w' := if o.ret = .off ∧ ev = .call then [Write.skip cur.frame.code.key 2] else []
      { o with writes := w ++ o.writes ++ w', effects := notices cfg cache i cur ++ o.effects }

/-! ### After the wait -/

/-- The end of `_do_wait_suspend` for the stepping commands (2260-2340): what the step starts from. `stk` is the
stack at the frame the thread was suspended in. -/
def skipFiltered (cfg : Cfg) (force : Bool) : Entry → Stack → Option Frame
  | _, [] => none
  | cur, b :: stk => if cfg.filter b.frame.code force then skipFiltered cfg force b stk else some cur.frame

def afterWait (cfg : Cfg) (ipython : Bool) (i : Info) (cur : Entry) (back : Stack) : Info :=
  let i :=
    match i.cmd with
    | .into | .intoMy =>
      if cur.frame.code.coroutine then
        { i with initialLoc := some (cur.frame, cur.line), cmd := .coroutine, stop := some cur.frame }
      else { i with initialLoc := some (cur.frame, cur.line), stop := none }
    | .over | .overMy | .smart => { i with initialLoc := none, stop := some cur.frame }
    | .ret | .retMy =>
      let target :=
        if i.cmd = .retMy || cfg.filtersOn then skipFiltered cfg (i.cmd = .retMy) cur back
        else if back.isEmpty then none else some cur.frame
      match target with
      | some f => { i with initialLoc := none, stop := some f }
      | none => { i with initialLoc := none, stop := none, orig := .none, cmd := .none, suspended := false }
    | _ => { i with initialLoc := none }
  if ipython then
    { i with ipy := decide (i.cmd = .over ∨ i.cmd = .overMy ∨ i.cmd = .into ∨ i.cmd = .intoMy) &&
        (match back with
         | b1 :: b2 :: _ => b1.frame.code.name == c!"run_code" && b2.frame.code.name == c!"run_ast_nodes"
         | _ => false) }
  else i

/-! ### Conditions (945-982) -/

/-- The outcome of evaluating user code. -/
inductive Eval where
  | value (truthy : Bool)
  /-- raised; the flag says whether the class is in `skip_suspend_on_breakpoint_exception` -/
  | raised (skipSuspend : Bool)
deriving DecidableEq, Repr

/-- `handle_breakpoint_condition`: `hitCond` is the answer of `handle_hit_condition`, `cond` the evaluated
condition if there is one. -/
def handleCondition (hitCond : Bool) (cond : Option Eval) : Bool :=
  if hitCond then true
  else
    match cond with
    | none => false
    | some (.value v) => v
    | some (.raised skip) => !skip

end Dispatch
