import Verif.Common.Dict
/-!
Model of the tables of breakpoints in templates of all files and kinds, and of the plugin manager between them and the debugger.

Source: `/repo/_pydevd_bundle/pydevd_api.py` `add_breakpoint` (548-633), `remove_all_breakpoints` (647-691), `remove_breakpoint` (693-757);
`/repo/pydevd.py` `consolidate_breakpoints` (1862-1868); `/repo/_pydevd_bundle/pydevd_plugin_utils.py` `PluginManager.add_breakpoint` (46-55),
`activate` (57-59), `get_breakpoints` (86-93), `has_line_breaks` (127-131), `get_breakpoint` (166-171);
`/repo/pydevd_plugins/django_debug.py` and `jinja2_debug.py` `add_line_breakpoint`, `_init_plugin_breaks`, `get_breakpoints`, `has_line_breaks`,
`get_breakpoint`.

Simplifications: file names are numbers and paths are not translated; breakpoints of Python files are those of `Breakpoints`; lines are not moved
(that is `Template`); a breakpoint is its kind, number and line. A plugin is asked at a line if `has_plugin_line_breaks` is set.
-/

namespace PluginBreaks

inductive Kind
  | django
  | jinja2
deriving DecidableEq

structure Bp where
  kind : Kind
  id : Nat
  line : Nat
deriving DecidableEq

abbrev Table := List (Nat × List (Nat × Bp))

structure St where
  /-- `py_db.api_received_breakpoints`: the keys -/
  received : List (Nat × Nat) := []
  /-- `py_db.file_to_id_to_plugin_breakpoint` -/
  ids : Table := []
  /-- `py_db.django_breakpoints`, `py_db.jinja2_breakpoints`; `none`: there is no such attribute -/
  django : Option Table := none
  jinja2 : Option Table := none
  /-- `active_plugins` -/
  active : List Kind := []
  /-- `py_db.has_plugin_line_breaks` -/
  flag : Bool := false

/-- the attribute of a plugin -/
def St.table (s : St) : Kind → Option Table
  | .django => s.django
  | .jinja2 => s.jinja2

def St.setTable (s : St) (t : Table) : Kind → St
  | .django => { s with django := some t }
  | .jinja2 => { s with jinja2 := some t }

/-- `_init_plugin_breaks` (django_debug.py 134-138, jinja2_debug.py 89-93) -/
def init (s : St) (k : Kind) : St := s.setTable [] k

/-- `add_line_breakpoint` of the plugin `p` for a breakpoint of the type `k` (django_debug.py 72-108, jinja2_debug.py 37-67): `none` if it is
not its type -/
def pluginAdd (s : St) (p k : Kind) : Option St :=
  if p = k then some (if (s.table p).isSome then s else init s p) else none

/-- `activate` (57-59) -/
def activate (s : St) (p : Kind) : St := if p ∈ s.active then s else { s with active := s.active ++ [p] }

/-- `PluginManager.add_breakpoint` (46-55), the loop -/
def managerAdd (s : St) (k : Kind) : List Kind → Option St
  | [] => none
  | p :: ps =>
    match pluginAdd s p k with
    | some s => some (activate s p)
    | none => managerAdd s k ps

/-- `consolidate_breakpoints` (1862-1867): what is written for the file -/
def breakDict (d : List (Nat × Bp)) : List (Nat × Bp) := d.foldl (fun acc e => Py.Dict.set acc e.2.line e.2) []

/-- `consolidate_breakpoints` -/
def consolidate (s : St) (k : Kind) (file : Nat) (d : List (Nat × Bp)) : St :=
  s.setTable (Py.Dict.set ((s.table k).getD []) file (breakDict d)) k

/-- `has_line_breaks` of all active plugins (127-131) -/
def hasLineBreaks (s : St) : Bool := s.active.any fun p => ((s.table p).getD []).any fun e => !e.2.isEmpty

/-- `add_breakpoint` (548-633) for a type of the plugins -/
def add (s : St) (k : Kind) (file id line : Nat) : St :=
  let s := { s with received := (file, id) :: s.received.filter (· != (file, id)) }
  match managerAdd s k [.django, .jinja2] with
  | none => s
  | some s =>
    let d := Py.Dict.set ((Py.Dict.get s.ids file).getD []) id ⟨k, id, line⟩
    let s := consolidate { s with ids := Py.Dict.set s.ids file d } k file d
    { s with flag := hasLineBreaks s }

/-- `get_breakpoints` (86-93): whether a table that is not empty is found -/
def getBreakpoints (s : St) (k : Kind) : List Kind → Bool
  | [] => false
  | p :: ps => if p = k ∧ !((s.table p).getD []).isEmpty then true else getBreakpoints s k ps

/-- `remove_breakpoint` (693-757) for a type of the plugins -/
def remove (s : St) (k : Kind) (file id : Nat) : St :=
  let s := { s with received := s.received.filter (· != (file, id)) }
  if getBreakpoints s k s.active then
    match Py.Dict.get s.ids file with
    | none => s
    | some d =>
      if Py.Dict.has d id then
        let d := Py.Dict.erase d id
        let s := consolidate { s with ids := Py.Dict.set s.ids file d } k file d
        { s with flag := hasLineBreaks s }
      else s
  else s

/-- `remove_all_breakpoints` of a file (672-688) -/
def removeAll (s : St) (file : Nat) : St :=
  if s.received.any (·.1 == file) then
    { s with
      received := s.received.filter (·.1 != file)
      ids := Py.Dict.erase s.ids file
      django := s.django.map (Py.Dict.erase · file)
      jinja2 := s.jinja2.map (Py.Dict.erase · file) }
  else s

/-- `remove_all_breakpoints("*")` (663-669) -/
def clear (s : St) : St := { s with received := [], ids := [], django := s.django.map fun _ => [], jinja2 := s.jinja2.map fun _ => [] }

/-- what a client asks for -/
inductive Op
  | add (k : Kind) (file id line : Nat)
  | remove (k : Kind) (file id : Nat)
  | removeAll (file : Nat)
  | clear

def step (s : St) : Op → St
  | .add k f i l => add s k f i l
  | .remove k f i => remove s k f i
  | .removeAll f => removeAll s f
  | .clear => clear s

def run (h : List Op) : St := h.foldl step {}

/-- `get_breakpoint` of the plugin for a line of a file that its templates come to (jinja2_debug.py 463-488, django_debug.py 536-566) -/
def pluginGet (s : St) (k : Kind) (file line : Nat) : Option Bp :=
  ((s.table k).getD [] |> (Py.Dict.get · file)).bind (Py.Dict.get · line)

/-- the breakpoint at which a template stops: the plugin has to be active and the debugger has to ask -/
def stopsAt (s : St) (k : Kind) (file line : Nat) : Option Bp :=
  if s.flag ∧ k ∈ s.active then pluginGet s k file line else none

end PluginBreaks
