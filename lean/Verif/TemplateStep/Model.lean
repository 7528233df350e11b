/-!
Stepping in templates.

Code modelled: `pydevd_plugins/jinja2_debug.py` `_find_jinja2_render_frame` (165-169), `cmd_step_into` (387-414), `cmd_step_over` (417-451),
`stop` (454-460) with `_suspend_jinja2` (135-150); `pydevd_plugins/django_debug.py` `cmd_step_into` (501-508), `cmd_step_over` (511-524),
`stop` (527-533) with `suspend_django` (246-253).

What is modelled are the events that reach these functions while a step command is set (`_pydevd_bundle/pydevd_frame.py` 882-898, which leaves
out pauses of generators, 395-411; `_plugin_stepping` of `_pydevd_sys_monitoring.py` 1358-1385). What a frame is (the tests of names, classes
and locals of the plugins) is given with it. One plugin is active.

Simplifications: `pydev_call_from_jinja2` is a flag (it is only compared to `None`, or put in `pydev_step_stop` when a step ends in a template).
-/

namespace TemplateStep

inductive Kind where
  | call | line | ret
  deriving DecidableEq, Repr

structure Frame where
  id : Nat
  /-- Jinja2: `_is_jinja2_render_call` (124-132) -/
  render : Bool := false
  /-- Jinja2: `_is_jinja2_context_call` (157-158) -/
  ctx : Bool := false
  /-- Jinja2: `_is_jinja2_internal_function` (161-162) -/
  internal : Bool := false
  /-- there is a local named `event` -/
  evLocal : Bool := false
  /-- Django: `_is_django_render_call` (181-208) -/
  node : Bool := false
  /-- Django: `_is_django_resolve_call` (224-239) -/
  resolve : Bool := false
  /-- Django: `_is_django_context_get_call` (211-221) -/
  ctxGet : Bool := false
  deriving DecidableEq, Repr

/-- An event: its frame, the frames outside of it, and if the line in the template is known (`f_lineno` of the frame made for it). -/
structure Event where
  kind : Kind
  frame : Frame
  outer : List Frame
  mapped : Bool := true
  deriving DecidableEq, Repr

/-- The thread: `suspend_type == JINJA2_SUSPEND` (or `DJANGO_SUSPEND`), `pydev_call_from_jinja2`, `pydev_call_inside_jinja2`,
`pydev_django_resolve_frame`, `pydev_step_stop` (of Django's function) -/
structure St where
  template : Bool
  from_ : Bool := false
  inside : Option Nat := none
  resolved : Bool := false
  stepStop : Option Nat := none
  deriving DecidableEq, Repr

/-- Where the thread stops: in the template, in Python code, or not at all. -/
inductive Stop where
  | template | python | no
  deriving DecidableEq, Repr

/-- `_find_jinja2_render_frame` (165-169) -/
def findRender : List Frame → Option Nat
  | [] => none
  | f :: rest => if f.render then some f.id else findRender rest

/-- What becomes of `stop, plugin_stop` (`pydevd_frame.py` 988-992; `stop` of the plugins: nothing if the line is not known) -/
def outcome (e : Event) (stop pluginStop : Bool) : Stop :=
  if pluginStop then (if e.mapped then .template else .no) else if stop then .python else .no

/-- Is the frame that called this one a context call (`_is_jinja2_context_call(frame.f_back)`, 407-411 and 444)? -/
def backCtx (e : Event) : Bool := match e.outer with | [] => false | b :: _ => b.ctx
/-- Is the frame that called this one a resolve of a variable (`_is_django_resolve_call(frame.f_back)`, 505 and 516)? -/
def backResolve (e : Event) : Bool := match e.outer with | [] => false | b :: _ => b.resolve
/-- Has the frame that called this one a local named `event` (`"event" not in frame.f_back.f_locals`, 436-440)? -/
def backEvLocal (e : Event) : Bool := match e.outer with | [] => false | b :: _ => b.evLocal

/-- Jinja2's `cmd_step_over` (417-451); `stop` is what the debugger decided -/
def jinjaOver (s : St) (e : Event) (stop : Bool) : St × Stop :=
  if s.template then
    match s.inside with
    | none =>
      if e.frame.render then
        match e.kind with
        | .call => ({ s with inside := e.outer.head?.map (·.id) }, .no)
        | _ => ({ s with inside := some e.frame.id }, .no)
      else (s, .no)
    | some i =>
      match e.kind with
      | .call => (s, .no)
      | .line => (s, outcome e false (e.frame.render && i == e.frame.id))
      | .ret =>
        if e.frame.id == i && !backEvLocal e then ({ s with inside := findRender e.outer }, .no) else (s, .no)
  else
    if e.kind == .ret && backCtx e then
      ({ s with from_ := false, inside := findRender (e.frame :: e.outer), template := true }, .no)
    else (s, outcome e stop false)

/-- Jinja2's `cmd_step_into` (387-414) -/
def jinjaInto (s : St) (e : Event) (stop : Bool) : St × Stop :=
  let pluginStop := s.template && ((e.kind == .call || e.kind == .line) && e.frame.render)
  let r : St × Bool :=
    if s.template then
      let r : St × Bool :=
        if s.from_ then (if e.frame.internal then ({ s with from_ := false }, false) else (s, true)) else (s, false)
      if e.kind == .call && backCtx e then ({ r.1 with from_ := true }, r.2) else r
    else (s, stop)
  let r : St × Bool :=
    if e.kind == .ret && backCtx e then ({ r.1 with from_ := false, template := true }, false) else r
  (r.1, outcome e r.2 pluginStop)

/-- Django's `cmd_step_over` (511-524) -/
def djangoOver (s : St) (e : Event) : St × Stop :=
  if s.template then (s, outcome e false (e.kind == .call && e.frame.node))
  else
    let s' :=
      if e.kind == .ret && s.resolved && backResolve e then
        { s with stepStop := e.outer.head?.map (·.id), resolved := false, template := true }
      else s
    (s', outcome e (s'.stepStop == some e.frame.id && (e.kind == .line || e.kind == .ret)) false)

/-- Django's `cmd_step_into` (501-508) -/
def djangoInto (s : St) (e : Event) (stop : Bool) : St × Stop :=
  if s.template then
    let pluginStop := e.kind == .call && e.frame.node
    let stop := stop && backResolve e && !e.frame.ctxGet
    (if stop then { s with resolved := true } else s, outcome e stop pluginStop)
  else (s, outcome e stop false)

/-- Events one after the other, until one of them stops the thread: the events passed, the state, the event of the stop. -/
def go (f : St → Event → St × Stop) (s : St) : List Event → St × Option (List Event × Event × Stop)
  | [] => (s, none)
  | e :: es =>
    match f s e with
    | (s', .no) =>
      match go f s' es with
      | (s'', some (pre, x, k)) => (s'', some (e :: pre, x, k))
      | (s'', none) => (s'', none)
    | (s', k) => (s', some ([], e, k))

end TemplateStep
