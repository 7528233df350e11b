import Verif.Common.Dict
import Verif.Common.Lit
import Verif.Common.Slice
/-!
The stack shown for a suspended thread: the lists of frames made from a traceback and from chained exceptions
(`_pydevd_bundle/pydevd_frame_utils.py` 208-445), the frames that are visible (`_pydevd_bundle/pydevd_net_command_factory_xml.py`
197-247) and the answer to a `stackTrace` request (`_pydevd_bundle/pydevd_net_command_factory_json.py` 240-347,
`_pydevd_bundle/pydevd_process_net_command_json.py` 1001-1022).

Not modelled: columns (see `Columns`), source references (see `Paths`), the events about modules, frames without `f_code`
(IronPython).
-/

namespace Stack

abbrev Str := List Char

/-- an entry of a traceback: `tb.tb_frame`, `tb.tb_lineno` -/
structure Tb where
  frame : Nat
  line : Int
deriving DecidableEq

/-- an exception: `__cause__`, `__context__`, `__suppress_context__`, `__traceback__`. A property that raises an error counts as
`None` (308-320). -/
structure Exc where
  cause : Option Nat
  context : Option Nat
  suppress : Bool
  tb : List Tb

/-- the program: exceptions and frames are given by their identity -/
structure World where
  exc : Nat → Exc
  /-- the frames reached by `f_back`, innermost first -/
  callers : Nat → List Nat
  /-- `f_lineno` -/
  lineno : Nat → Int

/-- a frame of a list: one of the program or the wrapper made for an entry of the traceback of a chained exception (277-297);
each wrapper is a new object, with its own `id()` -/
inductive Ref
  | real (frame : Nat)
  | wrapper (exc i : Nat) (tb : Tb)
deriving DecidableEq

/-- the message about the relation with the exception before (300-302) -/
inductive Msg
  | none
  | cause
  | context
deriving DecidableEq

/-- `FramesList` (208-235); `chained_frames_list` is the next element of a list of these -/
structure FL where
  frames : List Ref
  lines : List (Ref × Int)
  exc : Option Nat
  current : Option Ref
  msg : Msg

def FL.empty : FL := ⟨[], [], none, none, .none⟩

/-- a frame added with its line number (347-350, 407-410) -/
def FL.add (fl : FL) (f : Ref) (line : Int) : FL := { fl with frames := fl.frames ++ [f], lines := Py.Dict.set fl.lines f line }

/-- the exception shown after `e` and the message (307-320); `__suppress_context__` is not looked at -/
def nextExc (w : World) (e : Nat) : Option (Nat × Msg) :=
  match (w.exc e).cause with
  | some c => some (c, .cause)
  | none => (w.exc e).context.map fun c => (c, .context)

/-- the frames of a chained exception (337-350) -/
def addWrappers (e : Nat) : Nat → List Tb → FL → FL
  | _, [], fl => fl
  | i, tb :: tbs, fl => addWrappers e (i + 1) tbs (fl.add (.wrapper e i tb) tb.line)

/-- `create_frames_list_from_exception_cause` (305-352), with the new `memo` -/
def causeList (w : World) (e : Nat) (memo : List Nat) : Option (Nat × FL × List Nat) :=
  match nextExc w e with
  | none => none
  | some (c, msg) =>
    if c ∈ memo then none
    else some (c, addWrappers c 0 (w.exc c).tb { FL.empty with exc := some c, msg := msg }, c :: memo)

/-- the loop over the chained exceptions (426-434); `none`: it has not ended after so many rounds -/
def chain (w : World) : Nat → Nat → List Nat → Option (List FL)
  | 0, _, _ => none
  | fuel + 1, e, memo =>
    match causeList w e memo with
    | none => some []
    | some (c, fl, memo) => (chain w fuel c memo).map (fl :: ·)

/-- `exception_type` (372) -/
inductive Kind
  | handled
  | userUnhandled
  | unhandled
deriving DecidableEq

/-- the frames and line numbers of the callers and of the traceback, `reversed(lst)` (384-398) -/
def entries (w : World) (tb : List Tb) : List (Nat × Int) :=
  (tb.map fun t => (t.frame, t.line)).reverse ++
    match tb with
    | [] => []
    | t :: _ => (w.callers t.frame).map fun f => (f, w.lineno f)

/-- the loop over them (402-410) -/
def collect (start : Nat → Bool) : Option FL → List (Nat × Int) → Option FL
  | st, [] => st
  | none, (f, line) :: rest => collect start (if start f then some (FL.empty.add (.real f) line) else none) rest
  | some fl, (f, line) :: rest => collect start (some (fl.add (.real f) line)) rest

/-- `create_frames_list_from_frame` (439-445) -/
def fromFrame (w : World) (f : Nat) : FL := { FL.empty with frames := (f :: w.callers f).map .real }

/-- the condition on the first frame (403) -/
def startAt (frame : Option Nat) (kind : Kind) (f : Nat) : Bool := frame = some f || frame = none || kind = .userUnhandled

/-- the exception and the current frame (417-424) -/
def finish (frame : Option Nat) (exc : Nat) (kind : Kind) (fl : FL) : FL :=
  { fl with
    exc := some exc
    current := match kind with
      | .userUnhandled => frame.map .real
      | .unhandled => if fl.frames = [] then none else fl.frames.getLast?
      | .handled => none }

/-- `create_frames_list_from_traceback` (372-424), without the chained exceptions; `none`: there is nothing to show and an
`AttributeError` is raised -/
def fromTraceback (w : World) (tb : List Tb) (frame : Option Nat) (exc : Nat) (kind : Kind) : Option FL :=
  match collect (startAt frame kind) none (entries w tb), frame with
  | some fl, _ => some (finish frame exc kind fl)
  | none, some f => some (finish frame exc kind (fromFrame w f))
  | none, none => none

/-- `create_frames_list_from_traceback` (372-436): the list and the chained ones -/
def fromException (w : World) (fuel : Nat) (tb : List Tb) (frame : Option Nat) (exc : Nat) (kind : Kind) : Option (List FL) :=
  (fromTraceback w tb frame exc kind).bind fun fl => (chain w fuel exc [exc]).map (fl :: ·)

/-! ### The answer to a request -/

/-- what is known about a frame -/
structure Info where
  /-- `f_code.co_name` -/
  name : Str
  /-- the absolute path of the file -/
  path : Str
  /-- the file belongs to the debugger (214) -/
  internal : Bool
  /-- `IS_PLUGIN_FRAME` -/
  plugin : Bool
  /-- `py_db.is_files_filter_enabled and py_db.apply_files_filter(...)` -/
  filtered : Bool

/-- the parts of the debugger used -/
structure Env where
  info : Ref → Info
  /-- `f_lineno` of a frame -/
  lineno : Ref → Int
  /-- `str(exc_desc)` -/
  text : Option Nat → Str
  /-- the mapping to the client (source mapping and path mapping, 225-227): file and line -/
  toClient : Str → Int → Str × Int
  /-- `_format_frame_name` (215-237): name, module, line, path -/
  format : Ref → Str → Int → Str → Str

/-- an element of `stackFrames` -/
structure Row where
  id : Ref
  name : Str
  file : Str
  line : Int
deriving DecidableEq

/-- one frame of `_iter_visible_frames_info` (201-238) and of the loop over it (259-321); `none`: it is skipped -/
def row (env : Env) (chained : Bool) (fl : FL) (f : Ref) : Option Row :=
  if (env.info f).internal then none
  else if !(env.info f).plugin && (env.info f).filtered then none
  else
    let name := if chained then c!"[Chained Exc: " ++ env.text fl.exc ++ c!"] " ++ (env.info f).name else (env.info f).name
    let (file, line) := env.toClient (env.info f).path ((Py.Dict.get fl.lines f).getD (env.lineno f))
    let name := env.format f name line file
    some ⟨f, if some f = fl.current then name ++ c!" (Current frame)" else name, file, line⟩

/-- `_iter_visible_frames_info` (197-247) with `flatten_chained` -/
def rows (env : Env) : Bool → List FL → List Row
  | _, [] => []
  | chained, fl :: rest =>
    if chained && fl.frames.isEmpty then [] else fl.frames.filterMap (row env chained fl) ++ rows env true rest

/-- `startFrame`, `levels` (1009-1017): absent or 0 is 0 -/
structure Page where
  start : Int
  levels : Int

/-- the answer (328-346): `stackFrames`, `totalFrames` -/
def respond (frames : List Row) (p : Page) : List Row × Nat :=
  (if p.levels ≠ 0 then Py.slice frames p.start (min (p.start + p.levels) frames.length) else frames, frames.length)

/-- `make_get_thread_stack_message` (240-347) -/
def stackTrace (env : Env) (lists : List FL) (p : Page) : List Row × Nat := respond (rows env false lists) p

end Stack
