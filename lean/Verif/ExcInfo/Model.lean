import Verif.Stack.Model
/-!
Model of the details of an exception given to the client.

Source: `/repo/_pydevd_bundle/pydevd_comm.py` `build_exception_info_response` (1452-1606).

The frames of the exception and of the chained ones are the lists of `Stack.Model`
(`create_frames_list_from_traceback`). The trace is a list of entries instead of a text: how `traceback` formats
an entry (and that it shortens repeated ones) is not modelled, nor are the marks under columns. A frame without
`f_code` (IronPython) is not modelled.
-/

namespace ExcInfo

open Stack

/-- An exception type: `none` where reading or converting raises an error. -/
structure TypeInfo where
  qualname : Option Str
  name : Option Str
  str : Option Str
  /-- `__module__`; inner `none`: not a text -/
  module : Option (Option Str)

structure Env where
  base : Stack.Env
  /-- `type(exc)` -/
  type : Nat → TypeInfo
  /-- `str(exc)`; `none`: it raises an error -/
  desc : Nat → Option Str
  /-- `linecache.getline`, `linecache.getlines` -/
  getline : Str → Int → Str
  getlines : Str → List Str
  /-- `line_col_info`: there is none, or its `end_lineno` -/
  lineCol : Ref → Option (Option Int)
  /-- `IS_PY311_OR_GREATER` -/
  py311 : Bool

/-- An entry of the trace. -/
inductive Entry where
  | frame (file : Str) (line : Int) (name : Str) (text : Str)
  | exc (exc : Option Nat) (type : Str) (desc : Str)
  | msg (m : Msg)
  deriving DecidableEq

/-- An element of `frames` (1518). -/
structure Fr where
  file : Str
  line : Int
  name : Str
  text : Str
  lineCol : Option (Option Int)
  /-- `method_name` without the remark, for the current frame (1515) -/
  current : Option Str

/-- One frame of the loop (1494-1518); `none`: it is not shown. -/
def shown (env : Env) (fl : FL) (f : Ref) : Option Fr :=
  if (env.base.info f).internal then none
  else
    let (file, line) :=
      env.base.toClient (env.base.info f).path ((Py.Dict.get fl.lines f).getD (env.base.lineno f))
    let text := env.getline (env.base.info f).path line
    if !(env.base.info f).plugin && (env.base.info f).filtered then none
    else
      let name := (env.base.info f).name
      if some f = fl.current then some ⟨file, line, name ++ c!" (Current frame)", text, env.lineCol f, some name⟩
      else some ⟨file, line, name, text, env.lineCol f, none⟩

/-- `"\n".join(lines)` -/
def joinLines : List Str → Str
  | [] => []
  | [l] => l
  | l :: ls => l ++ '\n' :: joinLines ls

/-- The entry made for a frame (1523-1548). -/
def entry (env : Env) (f : Fr) : Entry :=
  match env.py311, f.lineCol with
  | true, some (some last) =>
    if f.line < last then .frame f.file f.line f.name (joinLines (Py.slice (env.getlines f.file) f.line (last + 1)))
    else .frame f.file f.line f.name f.text
  | _, _ => .frame f.file f.line f.name f.text

/-- `frames[-max_frames:]` -/
def lastFrames (max : Int) (fs : List Fr) : List Fr := Py.slice fs (-max) fs.length

/-- The type written (1550-1559). -/
def typeText (env : Env) : Option Nat → Str
  | none => c!"<unable to get exception type>"
  | some e =>
    match (env.type e).qualname, (env.type e).module with
    | some q, some m =>
      if m = some c!"__main__" ∨ m = some c!"builtins" then q
      else (m.getD c!"<unknown>") ++ '.' :: q
    | _, _ => c!"<unable to get exception type>"

/-- `"%s" % (exc_desc,)` (1561); `none`: it raises an error -/
def descText (env : Env) : Option Nat → Option Str
  | none => some c!"None"
  | some e => env.desc e

structure St where
  name : Option Str := none
  description : Option Str := none
  source : Str := []
  current : Str := []
  out : List (List Entry) := []

/-- 1462-1466 -/
def St.init : St := {}

/-- `if not name` and `if not description`: `None` or an empty text -/
def absent (s : Option Str) : Bool := s.getD [] = []

/-- `name` (1475-1486) -/
def nameOf (env : Env) (e : Nat) : Option Str :=
  match (env.type e).qualname with
  | some q => some q
  | none =>
    match (env.type e).name with
    | some n => some n
    | none => (env.type e).str

def setName (env : Env) (fl : FL) (st : St) : St :=
  match absent st.name, fl.exc with
  | true, some e => { st with name := (nameOf env e).orElse fun _ => st.name }
  | _, _ => st

/-- `description` (1488-1494) -/
def setDesc (env : Env) (fl : FL) (st : St) : St :=
  match absent st.description, fl.exc with
  | true, some e => { st with description := (env.desc e).orElse fun _ => st.description }
  | _, _ => st

/-- The loop over the exception and the chained ones (1469-1569). -/
def loop (env : Env) (max : Int) : St → List FL → St
  | st, [] => st
  | st, fl :: rest =>
    if fl.frames.isEmpty then st
    else
      let st := setDesc env fl (setName env fl st)
      let fs := fl.frames.filterMap (shown env fl)
      let st := { st with current := fs.foldl (fun c f => f.current.getD c) st.current }
      let st := if st.source = [] then { st with source := (fs.head?.map (·.file)).getD [] } else st
      match descText env fl.exc with
      | none => st
      | some d =>
        let part := (lastFrames max fs).map (entry env) ++ [.exc fl.exc (typeText env fl.exc) d, .msg fl.msg]
        loop env max { st with out := st.out ++ [part] } rest

structure Details where
  id : Str
  description : Str
  trace : List Entry
  source : Str
  deriving DecidableEq

/-- The response (1467-1606). `none`: the thread has no frame or no list of frames. -/
def details (env : Env) (max : Int) (lists : Option (List FL)) : Details :=
  let st := match lists with
    | none => St.init
    | some lists => loop env max St.init lists
  let name := if absent st.name then c!"exception: type unknown" else st.name.getD []
  let name :=
    if st.current = [] then name
    else name ++ c!"       (note: full exception trace is shown but execution is paused at: " ++ st.current ++ c!")"
  ⟨name, if absent st.description then c!"exception: no description" else st.description.getD [],
    st.out.reverse.flatten, st.source⟩

end ExcInfo
