import Verif.Exceptions.Model
/-!
The commands that add and remove exception breakpoints, and the events asked of `sys.monitoring` for them.

Code modelled: `_pydevd_bundle/pydevd_api.py` `add_python_exception_breakpoint` (830-854), `add_plugins_exception_breakpoint` (856-866),
`remove_python_exception_breakpoint` (868-884), `remove_plugins_exception_breakpoint` (886-900), `remove_all_exception_breakpoints` (902-910);
`_pydevd_bundle/pydevd_process_net_command.py` `cmd_set_py_exception_json` (444-485) and `cmd_set_py_exception` (487-539), after their text was read;
`pydevd_plugins/jinja2_debug.py` (85-113) and `pydevd_plugins/django_debug.py` (127-157): `add_exception_breakpoint`, `remove_exception_breakpoint`,
`remove_all_exception_breakpoints`, `has_exception_breaks`; `_pydevd_bundle/pydevd_plugin_utils.py` `add_breakpoint` (49-62), `remove_exception_breakpoint`
(72-81), `remove_all_exception_breakpoints` (83-85), `has_exception_breaks` (126-130); `pydevd.py` `on_breakpoints_changed` (1172-1189);
`_pydevd_sys_monitoring.py` `update_monitor_events` (1887-1905, the events of exceptions).

The tables of Python exceptions are those of `Verif.Exceptions.Model`.
-/

namespace ExcTables
open Exceptions

/-- The two plugins. -/
inductive Plugin where
  | django | jinja2
  deriving DecidableEq, Repr

structure St where
  tables : Tables := {}
  /-- `py_db.plugin is not None` -/
  plugin : Bool := false
  /-- `active_plugins` -/
  active : List Plugin := []
  /-- `django_exception_break`, `jinja2_exception_break`: the keys -/
  breaks : Plugin → List Name := fun _ => []
  /-- `has_plugin_exception_breaks` -/
  flag : Bool := false
  /-- `ready_to_run` -/
  ready : Bool := false
  /-- the events set: RAISE and PY_UNWIND -/
  raiseOn : Bool := false
  unwindOn : Bool := false

/-- What `CMD_SET_PY_EXCEPTION` (and its JSON form) has: the flags and the names -/
structure SetAll where
  caught : Bool
  uncaught : Bool
  user : Bool
  ignoreLibs : Bool
  names : List Name
  deriving DecidableEq, Repr

inductive Cmd where
  /-- `add_python_exception_breakpoint` -/
  | add (b : Ebp)
  | remove (n : Name)
  | addPlugin (p : Plugin) (n : Name)
  | removePlugin (p : Plugin) (n : Name)
  /-- a line breakpoint is added to a template: the plugin is made active -/
  | addLine (p : Plugin)
  | removeAll
  | setJson (r : SetAll)
  | setText (r : SetAll)
  /-- the program starts to run (`ready_to_run`, and the events are set for what there is) -/
  | run
  deriving DecidableEq, Repr

/-- `update_monitor_events` (1887-1905), for exceptions -/
def St.update (s : St) : St :=
  if !s.tables.caught.isEmpty || !s.tables.userUncaught.isEmpty || s.flag then { s with raiseOn := true, unwindOn := true }
  else if !s.tables.uncaught.isEmpty then { s with raiseOn := false, unwindOn := true }
  else { s with raiseOn := false, unwindOn := false }

/-- `on_breakpoints_changed` (1172-1189): nothing to do where breakpoints were removed, or before the program runs -/
def St.changed (s : St) (removed : Bool) : St := if !s.ready then s else if removed then s else s.update

/-- `PluginManager.activate` (59-61) -/
def activate (active : List Plugin) (p : Plugin) : List Plugin := if active.contains p then active else active ++ [p]

/-- `PluginManager.has_exception_breaks` (126-130) -/
def hasBreaks (active : List Plugin) (breaks : Plugin → List Name) : Bool := active.any fun p => !(breaks p).isEmpty

/-- The breakpoint `CMD_SET_PY_EXCEPTION` makes of a name (472-483, 521-531); `user` is `False` in the form that is not JSON -/
def mkAll (r : SetAll) (user : Bool) (n : Name) (t : Option Class) : Ebp :=
  { qname := n, type := t, handled := r.caught, unhandled := r.uncaught, userUnhandled := user, firstRaiseOnly := true, ignoreLibraries := r.ignoreLibs }

/-- The loop of `cmd_set_py_exception_json` (468-483) -/
def setJsonLoop (imp : Import) (r : SetAll) (s : St) : List Name → St
  | [] => s
  | n :: rest =>
    let s := match imp n with | none => s | some t => { s with tables := addBreak s.tables (mkAll r r.user n t) }
    setJsonLoop imp r (s.changed false) rest

/-- The loop of `cmd_set_py_exception` (516-531) -/
def setTextLoop (imp : Import) (r : SetAll) (s : St) : List Name → St
  | [] => s
  | n :: rest =>
    let s := match imp n with | none => s | some t => { s with tables := addBreak s.tables (mkAll r false n t) }
    setTextLoop imp r s rest

/-- One command; `imp` says which classes can be imported -/
def step (imp : Import) (s : St) : Cmd → St
  | .add b => match imp b.qname with
    | none => s
    | some _ => { s with tables := addBreak s.tables b }.changed false
  | .remove n => { s with tables := removeBreak s.tables n }.changed true
  | .addPlugin p n =>
    let breaks := fun q => if q = p then (if (s.breaks p).contains n then s.breaks p else s.breaks p ++ [n]) else s.breaks q
    let active := activate s.active p
    { s with plugin := true, breaks := breaks, active := active, flag := hasBreaks active breaks }.changed false
  | .removePlugin p n =>
    if !s.plugin then s
    else
      let s := if s.active.contains p && (s.breaks p).contains n then
          let breaks := fun q => if q = p then (s.breaks p).filter (· ≠ n) else s.breaks q
          { s with breaks := breaks, flag := hasBreaks s.active breaks }
        else s
      s.changed true
  | .addLine p => { s with plugin := true, active := activate s.active p }
  | .removeAll =>
    let s := { s with tables := {} }
    let s := if s.plugin then { s with breaks := fun q => if s.active.contains q then [] else s.breaks q } else s
    s.changed true
  | .setJson r => setJsonLoop imp r { s with tables := {} } r.names
  | .setText r => setTextLoop imp r { s with tables := {} } r.names
  | .run => { s with ready := true }.update

def run (imp : Import) (cmds : List Cmd) : St := cmds.foldl (step imp) {}

end ExcTables
