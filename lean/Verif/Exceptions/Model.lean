import Verif.Common.Dict
/-!
Model of exception breakpoints: which one applies, when a raised exception stops the program, and what the
client's request sets up.

Source: `/repo/_pydevd_bundle/pydevd_breakpoints.py` `get_exception_breakpoint` (108-123),
`stop_on_unhandled_exception` (126-174); `/repo/_pydevd_bundle/pydevd_frame.py` `should_stop_on_exception`
(1064-1182); `/repo/pydevd.py` `add_break_on_exception` (1870-1914), `ignore_system_exit_code` (923-927),
`exclude_exception_by_filter` (1428-1444); `/repo/_pydevd_bundle/pydevd_frame_utils.py` `just_raised` (49-53),
`ignore_exception_trace` (82-96); `/repo/_pydevd_bundle/pydevd_api.py` `remove_python_exception_breakpoint`
(868-884), `remove_all_exception_breakpoints` (902-910);
`/repo/_pydevd_bundle/pydevd_process_net_command_json.py` `on_setexceptionbreakpoints_request` (896-999).

Simplifications: classes, names, frames and files are numbers; `issubclass` is a parameter; plugins (Django,
Jinja2) are represented only by what `plugin.exception_break` answers; conditions are given by the answer of
`handle_breakpoint_condition`; expressions and messages are recorded, not evaluated.
-/

namespace Exceptions

abbrev Class := Nat
abbrev Name := Nat
abbrev Frame := Nat

/-- `ExceptionBreakpoint` -/
structure Ebp where
  qname : Name
  type : Option Class
  /-- `condition is not None` -/
  hasCondition : Bool := false
  handled : Bool := false
  unhandled : Bool := false
  userUnhandled : Bool := false
  firstRaiseOnly : Bool := false
  ignoreLibraries : Bool := false
deriving DecidableEq, Repr

abbrev Table := List (Name × Ebp)

/-- The loop (116-119). -/
def search (sub : Class → Class → Bool) (exc : Class) : List Ebp → Option Ebp → Option Ebp
  | [], best => best
  | b :: bs, best =>
    match b.type with
    | some t =>
      if sub exc t then
        match best with
        | none => search sub exc bs (some b)
        | some c =>
          -- `exc.type` of the best one is not `None`, since it passed the test above
          match c.type with
          | some tc => if sub t tc then search sub exc bs (some b) else search sub exc bs best
          | none => search sub exc bs best
      else search sub exc bs best
    | none => search sub exc bs best

/-- `get_exception_breakpoint` (108-123) for an exception type that is not `None`. `fullName` is
`module.name` of a class. -/
def getBreakpoint (sub : Class → Class → Bool) (fullName : Class → Name) (exc : Class) (t : Table) : Option Ebp :=
  match Py.Dict.get t (fullName exc) with
  | some b => some b
  | none => search sub exc (t.map (·.2)) none

/-! ### The tables -/

structure Tables where
  uncaught : Table := []
  caught : Table := []
  userUncaught : Table := []
deriving DecidableEq, Repr

/-- `add_break_on_exception` (1870-1914) when the class could be imported. -/
def addBreak (t : Tables) (b : Ebp) : Tables :=
  let t := if b.unhandled then { t with uncaught := Py.Dict.set t.uncaught b.qname b } else t
  let t := if b.handled then { t with caught := Py.Dict.set t.caught b.qname b } else t
  if b.userUnhandled then { t with userUncaught := Py.Dict.set t.userUncaught b.qname b } else t

/-- `remove_python_exception_breakpoint` (868-884) -/
def removeBreak (t : Tables) (n : Name) : Tables :=
  { uncaught := Py.Dict.erase t.uncaught n
    caught := Py.Dict.erase t.caught n
    userUncaught := Py.Dict.erase t.userUncaught n }

/-- `remove_all_exception_breakpoints` (902-905) -/
def removeAll (_ : Tables) : Tables := {}

inductive BreakMode where
  | never | always | unhandled | userUnhandled
deriving DecidableEq, Repr

/-- One of the `exceptionOptions`. The path is a list of lists of names; `isPython` says whether
`"Python Exceptions"` is among the names of a path element. -/
structure ExcOption where
  path : List (List Name)
  mode : BreakMode
deriving DecidableEq, Repr

structure Request where
  filterRaised : Bool := false
  filterUncaught : Bool := false
  filterUser : Bool := false
  options : List ExcOption := []
deriving DecidableEq, Repr

/-- The names an option is about (932-944). -/
def optionNames (isPython : List Name → Bool) (base : Name) (o : ExcOption) : List Name :=
  match o.path with
  | [] => []
  | [p] => if isPython p then [base] else []
  | p :: rest => if isPython p then rest.flatten else []

/-- Class lookup of `ExceptionBreakpoint.__init__`; `none` here means `ImportError` (1887-1889). -/
abbrev Import := Name → Option (Option Class)

def mkBp (n : Name) (t : Option Class) (handled unhandled user ignoreLibs : Bool) : Ebp :=
  { qname := n, type := t, handled, unhandled, userUnhandled := user, ignoreLibraries := ignoreLibs }

def addNamed (imp : Import) (t : Tables) (n : Name) (handled unhandled user ignoreLibs : Bool) : Tables :=
  match imp n with
  | none => t
  | some c => addBreak t (mkBp n c handled unhandled user ignoreLibs)

/-- The loop over the names of one option (946-957). -/
def applyOption (imp : Import) (isPython : List Name → Bool) (base : Name) (ignoreLibs : Bool) (t : Tables)
    (o : ExcOption) : Tables :=
  (optionNames isPython base o).foldl
    (fun t n => addNamed imp t n (o.mode = .always) (o.mode = .unhandled) (o.mode = .userUnhandled) ignoreLibs) t

/-- `on_setexceptionbreakpoints_request` (896-984), without the template breakpoints. -/
def setExceptionBreakpoints (imp : Import) (isPython : List Name → Bool) (base : Name) (ignoreLibs : Bool)
    (t : Tables) (r : Request) : Tables :=
  let t := removeAll t
  if r.options ≠ [] then r.options.foldl (applyOption imp isPython base ignoreLibs) t
  else if r.filterRaised || r.filterUncaught || r.filterUser then
    addNamed imp t base r.filterRaised r.filterUncaught r.filterUser ignoreLibs
  else t

/-! ### A raised exception -/

/-- An entry of a traceback. -/
structure TbEntry where
  frame : Frame
  line : Nat
  /-- the file is one of the importlib bootstrap files or a file with import hooks (85-92) -/
  importing : Bool := false
deriving DecidableEq, Repr

/-- `ignore_exception_trace` (82-96) -/
def ignoreTrace : List TbEntry → Bool
  | [] => false
  | e :: tb => e.importing || ignoreTrace tb

/-- `just_raised` (49-53) -/
def justRaised : List TbEntry → Bool
  | [] => false
  | _ :: next => next.isEmpty

structure Env where
  sub : Class → Class → Bool
  fullName : Class → Name
  tables : Tables
  /-- `SystemExit` -/
  systemExit : Class
  /-- `GeneratorExit`, `StopIteration`, `StopAsyncIteration` -/
  controlFlow : List Class
  /-- `self._exclude_filters_enabled` -/
  excludeFilters : Bool
  inProjectScope : Frame → Bool
  excludedByFilter : Frame → Bool
  /-- `apply_files_filter(frame, .., True)`: the frame is not user code -/
  filtered : Frame → Bool
  /-- `handle_breakpoint_condition` on the frame -/
  condition : Ebp → Frame → Bool
  /-- `skip_on_exceptions_thrown_in_same_context` -/
  skipSameContext : Bool

/-- The raised exception with the state it is raised in. -/
structure Raise where
  /-- `info.pydev_state == STATE_SUSPEND` -/
  suspended : Bool := false
  exc : Class
  /-- the exit code is one of the ignored ones -/
  ignoredCode : Bool := false
  /-- the traceback; `[]` is `None` -/
  trace : List TbEntry
  /-- the frame of the event, its line, and its caller -/
  frame : Frame
  line : Nat
  back : Option Frame := none
  /-- `plugin.exception_break` asked to stop at this frame (the plugins answer `None` or `(True, frame)`) -/
  plugin : Option Frame := none
deriving DecidableEq, Repr

/-- `exclude_exception_by_filter` (1428-1444) -/
def excludeByFilter (env : Env) (b : Ebp) (trace : List TbEntry) : Bool :=
  if !b.ignoreLibraries && !env.excludeFilters then false
  else
    match trace with
    | [] => true
    | e :: _ => (b.ignoreLibraries && !env.inProjectScope e.frame) || (env.excludeFilters && env.excludedByFilter e.frame)

/-- `maybe_user_uncaught_exc_info`: the last raise line and all raise lines. -/
structure ExcInfo where
  exc : Class
  lastLine : Nat
  lines : List Nat
deriving DecidableEq, Repr

/-- `not apply_files_filter(frame) and (f_back is None or apply_files_filter(f_back))` (1125-1127). -/
def leavesUserCode (env : Env) (r : Raise) : Bool :=
  !env.filtered r.frame && (match r.back with | none => true | some b => env.filtered b)

/-- The "user uncaught" part (1120-1139): `prev` is the info at the start of the call. -/
def userInfo (env : Env) (r : Raise) (prev info : Option ExcInfo) : Option ExcInfo :=
  if leavesUserCode env r then
    match prev with
    | none => some ⟨r.exc, r.line, [r.line]⟩
    | some i => some ⟨r.exc, r.line, r.line :: i.lines⟩
  else info

/-- The raise-location options (1140-1163): is the stop prevented? -/
def locationPrevents (env : Env) (b : Ebp) (trace : List TbEntry) : Bool :=
  let wasJustRaised := trace.tail.isEmpty
  if b.firstRaiseOnly && env.skipSameContext && !wasJustRaised && !justRaised trace.tail then true
  else if b.firstRaiseOnly && !env.skipSameContext && !wasJustRaised then true
  else if wasJustRaised && env.skipSameContext then true
  else false

/-- The loop over `check_excs` (1104-1171): the breakpoint to stop for, and the collected info. `prev` is the
info at the start of the call. -/
def checkLoop (env : Env) (r : Raise) (prev : Option ExcInfo) :
    List (Ebp × Bool) → Option ExcInfo → Option Ebp × Option ExcInfo
  | [], info => (none, info)
  | (b, user) :: rest, info =>
    if excludeByFilter env b r.trace then checkLoop env r prev rest info
    else if b.hasCondition && !env.condition b r.frame then checkLoop env r prev rest info
    else if user then checkLoop env r prev rest (userInfo env r prev info)
    else if locationPrevents env b r.trace then checkLoop env r prev rest info
    else (some b, info)

structure Answer where
  stop : Bool
  frame : Frame
  info : Option ExcInfo
  /-- the breakpoint named in the message, if one stopped -/
  bp : Option Ebp := none
deriving DecidableEq, Repr

/-- `should_stop_on_exception` (1064-1182) -/
def shouldStop (env : Env) (r : Raise) (prev : Option ExcInfo) : Answer :=
  if r.suspended then ⟨false, r.frame, prev, none⟩
  else if r.trace.isEmpty then ⟨false, r.frame, prev, none⟩
  else
    match r.plugin with
    | some f => ⟨true, f, prev, none⟩
    | none =>
      if r.exc = env.systemExit && r.ignoredCode then ⟨false, r.frame, prev, none⟩
      else if r.exc ∈ env.controlFlow then ⟨false, r.frame, prev, none⟩
      else if ignoreTrace r.trace then ⟨false, r.frame, prev, none⟩
      else
        let user := (getBreakpoint env.sub env.fullName r.exc env.tables.userUncaught).toList.map (·, true)
        let caught := (getBreakpoint env.sub env.fullName r.exc env.tables.caught).toList.map (·, false)
        match checkLoop env r prev (user ++ caught) prev with
        | (some b, info) => ⟨true, r.frame, info, some b⟩
        | (none, info) => ⟨false, r.frame, info, none⟩

/-! ### Unhandled exceptions -/

/-- The loop over the traceback (147-151): the last frame that is not excluded. -/
def userFrame (env : Env) (b : Ebp) : List TbEntry → Option Frame → Option Frame
  | [], f => f
  | e :: tb, f => userFrame env b tb (if excludeByFilter env b (e :: tb) then f else some e.frame)

/-- `stop_on_unhandled_exception` (126-174): the frame shown, if the program stops. -/
def stopOnUnhandled (env : Env) (keyboardInterrupt exc : Class) (ignoredCode : Bool) (trace : List TbEntry) :
    Option Frame :=
  match (if env.tables.uncaught.isEmpty then none
         else getBreakpoint env.sub env.fullName exc env.tables.uncaught) with
  | none => none
  | some b =>
    if trace.isEmpty then none
    else if exc = keyboardInterrupt then none
    else if exc = env.systemExit && ignoredCode then none
    else
      match userFrame env b trace none with
      | none => none
      | some f => if b.hasCondition && !env.condition b f then none else some f

end Exceptions
