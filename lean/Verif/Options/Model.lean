import Verif.Common.Dict
import Verif.Common.Split
import Verif.Common.Str
/-!
The settings of a debug session: what the arguments of a launch or attach request turn on.

_pydevd_bundle/pydevd_json_debug_options.py (all of it) and
_pydevd_bundle/pydevd_process_net_command_json.py: `_resolve_remote_root` (340-345), `_set_debug_options`
(347-499); the setters of pydevd_api.py it calls and `PyDB.set_ignore_system_exit_codes` /
`ignore_system_exit_code` (pydevd.py 919-927), `PyDB.enable_output_redirection` (1603-1613, the flag only).

The processor with its `DebugOptions` belongs to one connection (pydevd_comm.py 165); the `PyDB` it sets up lives
as long as the process.

Simplifications: `rules` (C14), watching of files (C50) and symlinks are not here; `options` is a text or missing;
`int`, `str`, `upper` and `urllib.parse.unquote` are arbitrary functions.
-/

namespace Options

abbrev Str := List Char

/-- A JSON value, as far as these settings look at it. -/
inductive JV where
  | bool (b : Bool)
  | num (n : Int)
  | str (s : Str)
  | null
deriving DecidableEq, Repr

/-- `bool_parser` (pydevd_json_debug_options.py 109-110): `s in ("True", "true", "1", True, 1)`. -/
def boolParser : JV → Bool
  | .str s => s = c!"True" || s = c!"true" || s = c!"1"
  | .bool b => b
  | .num n => n = 1
  | .null => false

/-- The functions of Python that are not described. -/
structure Env where
  /-- `int_parser` (102-106) -/
  toInt : JV → Int
  toStr : JV → Str
  upper : Str → Str
  unquote : Str → Str
  cwd : Str
  sep : Char

/-- The arguments of a request. -/
structure Args where
  /-- `key in args`, `args[key]` -/
  get : Str → Option JV
  /-- `args.get("options")` -/
  options : Option Str
  /-- `args.get("debugOptions") or []` -/
  flags : List Str
  /-- `args.get("variablePresentation")` when it is a dict -/
  presentation : Option (Str → Option JV)
  /-- `args.get("pathMappings", [])`: `localRoot` and `remoteRoot`, `""` when missing -/
  mappings : List (Str × Str)

/-- A parsed option. -/
inductive Val where
  | flag (b : Bool)
  | text (s : Str)
deriving DecidableEq, Repr

/-- The keys of `DEBUG_OPTIONS_PARSER` (117-130) whose values are flags. -/
def flagKeys : List Str :=
  [c!"WAIT_ON_ABNORMAL_EXIT", c!"WAIT_ON_NORMAL_EXIT", c!"BREAK_SYSTEMEXIT_ZERO", c!"REDIRECT_OUTPUT",
   c!"DJANGO_DEBUG", c!"FLASK_DEBUG", c!"FIX_FILE_PATH_CASE", c!"DEBUG_STDLIB", c!"STOP_ON_ENTRY",
   c!"SHOW_RETURN_VALUE", c!"MULTIPROCESS"]

/-- `DEBUG_OPTIONS_PARSER[key](value)` (117-130), `none` for the `KeyError`. -/
def parseValue (env : Env) (key value : Str) : Option Val :=
  if key ∈ flagKeys then some (.flag (boolParser (.str value)))
  else if key = c!"CLIENT_OS_TYPE" then some (.text (env.unquote value))
  else none

/-- `DEBUG_OPTIONS_BY_FLAG` (132-147). -/
def byFlag : List (Str × Str) :=
  [(c!"RedirectOutput", c!"REDIRECT_OUTPUT=True"),
   (c!"WaitOnNormalExit", c!"WAIT_ON_NORMAL_EXIT=True"),
   (c!"WaitOnAbnormalExit", c!"WAIT_ON_ABNORMAL_EXIT=True"),
   (c!"BreakOnSystemExitZero", c!"BREAK_SYSTEMEXIT_ZERO=True"),
   (c!"Django", c!"DJANGO_DEBUG=True"),
   (c!"Flask", c!"FLASK_DEBUG=True"),
   (c!"Jinja", c!"FLASK_DEBUG=True"),
   (c!"FixFilePathCase", c!"FIX_FILE_PATH_CASE=True"),
   (c!"DebugStdLib", c!"DEBUG_STDLIB=True"),
   (c!"WindowsClient", c!"CLIENT_OS_TYPE=WINDOWS"),
   (c!"UnixClient", c!"CLIENT_OS_TYPE=UNIX"),
   (c!"StopOnEntry", c!"STOP_ON_ENTRY=True"),
   (c!"ShowReturnValue", c!"SHOW_RETURN_VALUE=True"),
   (c!"Multiprocess", c!"MULTIPROCESS=True")]

/-- `_build_debug_options` (150-152). -/
def build (flags : List Str) : Str := Py.join1 ';' (flags.filterMap (Py.Dict.get byFlag))

/-- One round of the loop of `_parse_debug_options` (161-169). -/
def parseEntry (env : Env) (d : List (Str × Val)) (opt : Str) : List (Str × Val) :=
  match Py.split1 '=' opt with
  | [key, value] =>
    match parseValue env key value with
    | some v => Py.Dict.set d key v
    | none => d
  | _ => d

/-- `_parse_debug_options` (155-171). -/
def parse (env : Env) (opts : Str) : List (Str × Val) :=
  if opts = [] then [] else (Py.split1 ';' opts).foldl (parseEntry env) []

/-- `_extract_debug_options` (174-200). -/
def extract (env : Env) (opts : Option Str) (flags : List Str) : List (Str × Val) :=
  let o := opts.getD []
  parse env (if o = [] then build flags else o)

/-- `DebugOptions` (5-29). -/
structure Opts where
  justMyCode : Bool := true
  redirectOutput : Bool := false
  showReturn : Bool := false
  breakZero : Bool := false
  django : Bool := false
  flask : Bool := false
  stopOnEntry : Bool := false
  maxFrames : Int := 0
  gui : Str := c!"matplotlib"
  clientOs : Option Str := none
deriving DecidableEq, Repr

/-- A flag of the parsed options, the value before when it is not among them. -/
def flagOr (d : List (Str × Val)) (key : Str) (before : Bool) : Bool :=
  match Py.Dict.get d key with
  | some (.flag b) => b
  | _ => before

/-- The text of `CLIENT_OS_TYPE`, the one before when it is not there. -/
def textOr (d : List (Str × Val)) (key : Str) (before : Option Str) : Option Str :=
  match Py.Dict.get d key with
  | some (.text s) => some s
  | _ => before

/-- `DebugOptions.update_fom_debug_options` (37-60). -/
def Opts.fromOptions (o : Opts) (d : List (Str × Val)) : Opts :=
  { o with
    justMyCode := !flagOr d c!"DEBUG_STDLIB" (!o.justMyCode)
    redirectOutput := flagOr d c!"REDIRECT_OUTPUT" o.redirectOutput
    showReturn := flagOr d c!"SHOW_RETURN_VALUE" o.showReturn
    breakZero := flagOr d c!"BREAK_SYSTEMEXIT_ZERO" o.breakZero
    django := flagOr d c!"DJANGO_DEBUG" o.django
    flask := flagOr d c!"FLASK_DEBUG" o.flask
    stopOnEntry := flagOr d c!"STOP_ON_ENTRY" o.stopOnEntry
    clientOs := textOr d c!"CLIENT_OS_TYPE" o.clientOs }

/-- `if key in args: x = bool_parser(args[key])`. -/
def argOr (a : Args) (key : Str) (before : Bool) : Bool :=
  match a.get key with
  | some v => boolParser v
  | none => before

/-- `DebugOptions.update_from_args` (64-99). -/
def Opts.fromArgs (env : Env) (o : Opts) (a : Args) : Opts :=
  { justMyCode :=
      match a.get c!"justMyCode" with
      | some v => boolParser v
      | none =>
        match a.get c!"debugStdLib" with
        | some v => !boolParser v
        | none => o.justMyCode
    redirectOutput := argOr a c!"redirectOutput" o.redirectOutput
    showReturn := argOr a c!"showReturnValue" o.showReturn
    breakZero := argOr a c!"breakOnSystemExitZero" o.breakZero
    django := argOr a c!"django" o.django
    flask := argOr a c!"jinja" (argOr a c!"flask" o.flask)
    stopOnEntry := argOr a c!"stopOnEntry" o.stopOnEntry
    maxFrames := env.toInt ((a.get c!"maxExceptionStackFrames").getD (.num 0))
    gui := ((a.get c!"guiEventLoop").map env.toStr).getD o.gui
    clientOs := ((a.get c!"clientOS").map (fun v => some (env.upper (env.toStr v)))).getD o.clientOs }

/-- How a group of variables is shown. -/
inductive Shown where
  | group | inline | hide
deriving DecidableEq, Repr

/-- The code of a `SystemExit`: an integer, `None` or something else. -/
inductive Code where
  | none
  | int (n : Int)
  | other
deriving DecidableEq, Repr

/-- What the settings of a `PyDB` are. -/
structure Db where
  /-- `get_use_libraries_filter()` -/
  librariesFilter : Bool := false
  /-- the last value given to `set_ide_os` -/
  ideOs : Option Str := none
  /-- `redirect_output` -/
  redirect : Bool := false
  /-- `is_output_redirected` -/
  redirected : Option JV := none
  showReturn : Bool := false
  /-- `remove_return_values_flag` -/
  removeReturns : Bool := false
  /-- `_ignore_system_exit_codes` -/
  ignored : List Code := []
  /-- the main thread is told to stop at the start -/
  stopAtEntry : Bool := false
  gui : Str := c!"matplotlib"
  /-- `multi_threads_single_notification` -/
  single : JV := .bool false
  /-- `stepping_resumes_all_threads` -/
  resumesAll : JV := .bool true
  terminateChildren : JV := .bool true
  keyboardInterrupt : Bool := false
  special : Shown := .group
  function : Shown := .group
  class_ : Shown := .group
  protected_ : Shown := .inline
  /-- the path mappings in force -/
  mappings : List (Str × Str) := []
deriving DecidableEq, Repr

/-- `value not in ("group", "inline", "hide")` (367), `none` when it is not one of them. -/
def shownOf : JV → Option Shown
  | .str s => if s = c!"group" then some .group else if s = c!"inline" then some .inline
              else if s = c!"hide" then some .hide else none
  | _ => none

/-- `get_variable_presentation` (365-377). -/
def presentationOf (get : Str → Option JV) (setting : Str) (default : Shown) : Shown :=
  match get setting with
  | none => default
  | some v => (shownOf v).getD default

/-- `_resolve_remote_root` (340-345). -/
def remoteRoot (env : Env) (local_ remote : Str) : Str :=
  if remote = c!"." then
    env.cwd ++ (if Py.endsWith local_ c!"\\" || Py.endsWith local_ c!"/" then [env.sep] else [])
  else remote

/-- The mappings of a request (410-416). -/
def mappingsOf (env : Env) (a : Args) : List (Str × Str) :=
  a.mappings.filterMap (fun m =>
    let r := remoteRoot env m.1 m.2
    if m.1 ≠ [] ∧ r ≠ [] then some (m.1, r) else none)

/-- `args.get(key, default)`. -/
def getOr (a : Args) (key : Str) (default : JV) : JV := (a.get key).getD default

/-- The part of `_set_debug_options` (405-499) after the options are known. -/
def applyOpts (env : Env) (o : Opts) (a : Args) (launch : Bool) (db : Db) : Db :=
  { resumesAll := getOr a c!"steppingResumesAllThreads" (.bool true)
    single := match a.get c!"stopAllThreadsOnSuspend" with
      | none => db.single
      | some .null => db.single
      | some v => v
    terminateChildren := getOr a c!"terminateChildProcesses" (.bool true)
    keyboardInterrupt := getOr a c!"onTerminate" (.str c!"kill") = .str c!"KeyboardInterrupt"
    special := match a.presentation with
      | none => db.special
      | some g => presentationOf g c!"special" (presentationOf g c!"all" .group)
    function := match a.presentation with
      | none => db.function
      | some g => presentationOf g c!"function" (presentationOf g c!"all" .group)
    class_ := match a.presentation with
      | none => db.class_
      | some g => presentationOf g c!"class" (presentationOf g c!"all" .group)
    protected_ := match a.presentation with
      | none => db.protected_
      | some g => presentationOf g c!"protected" (presentationOf g c!"all" .group)
    librariesFilter := o.justMyCode
    ideOs := match o.clientOs with
      | none => db.ideOs
      | some s => if s = [] then db.ideOs else some s
    mappings := if mappingsOf env a = [] then db.mappings else mappingsOf env a
    redirect := o.redirectOutput
    redirected := if o.redirectOutput then some (.bool true) else a.get c!"isOutputRedirected"
    showReturn := o.showReturn
    removeReturns := db.removeReturns || (db.showReturn && !o.showReturn)
    ignored := if o.breakZero then db.ignored
      else [.int 0, .none] ++ (if o.django || o.flask then [.int 3] else [])
    stopAtEntry := db.stopAtEntry || (o.stopOnEntry && launch)
    gui := o.gui }

/-- The process: the options of the connection in use and the debugger. -/
structure State where
  opts : Opts := {}
  db : Db := {}
deriving DecidableEq, Repr

/-- What clients do. -/
inductive Ev where
  /-- a client connects: a new reader with new options (pydevd_comm.py 165) -/
  | connect
  | request (a : Args) (launch : Bool)

/-- `_set_debug_options` (347-499). -/
def step (env : Env) (s : State) : Ev → State
  | .connect => { s with opts := {} }
  | .request a launch =>
    let o := (s.opts.fromOptions (extract env a.options a.flags)).fromArgs env a
    { opts := o, db := applyOpts env o a launch s.db }

/-- A process from its start. -/
def run (env : Env) (h : List Ev) : State := h.foldl (step env) {}

/-- `PyDB.ignore_system_exit_code` (pydevd.py 923-927). -/
def ignoresExit (db : Db) (c : Code) : Bool := db.ignored.contains c

end Options
