import Verif.Common.Dict
/-!
# Breakpoints in templates

Models `pydevd_plugins/pydevd_line_validation.py`, the parts of `pydevd_plugins/jinja2_debug.py` and
`pydevd_plugins/django_debug.py` which add and look up breakpoints, and how `_pydevd_bundle/pydevd_api.py`
and `consolidate_breakpoints` of `pydevd.py` keep them.

Simplified: one template file (the tables are by file, and nothing here is shared between files). The
lines of a template are given as the sorted tuple the code computes; the frozenset is compared by it.
Breakpoints are named by their ids.
-/
namespace Template

/-- The error codes of `_AddBreakpointResult` (`pydevd_api.py` 400-414) a template breakpoint can have. -/
inductive Err where
  | ok
  | lazy
  | invalid
deriving DecidableEq, Repr

/-- `LineBreakpointWithLazyValidation` (`pydevd_line_validation.py` 7-22) with its `_AddBreakpointResult`. -/
structure Bp where
  /-- the attribute `line` -/
  line : Nat
  /-- `add_breakpoint_result.error_code` -/
  err : Err
  /-- `add_breakpoint_result.translated_line` -/
  shown : Nat
  /-- `verified_cache_key` -/
  key : Option (List Nat)
deriving DecidableEq, Repr

structure State where
  /-- the keys of `id_to_pybreakpoint` for the file -/
  order : List Nat
  bps : Nat → Bp
  /-- `jinja2_breakpoints` (or `django_breakpoints`) of the file: line to breakpoint -/
  lines : List (Nat × Nat)
  /-- `_canonical_normalized_filename_to_last_template_lines` of the file -/
  last : Option (List Nat)
  /-- what the client was told about breakpoints: the answers to its requests and the events -/
  told : List (Nat × Err × Nat)

def init : State := ⟨[], fun _ => ⟨0, .lazy, 0, none⟩, [], none, []⟩

def State.update (s : State) (id : Nat) (f : Bp → Bp) : State :=
  { s with bps := fun i => if i = id then f (s.bps i) else s.bps i }

/-- `on_changed_breakpoint_state` (`pydevd_process_net_command_json.py` 855-863) -/
def State.tell (s : State) (id : Nat) : State :=
  { s with told := s.told ++ [(id, (s.bps id).err, (s.bps id).shown)] }

/-- The first valid line before a line (`pydevd_line_validation.py` 82-88): `bisect_left` in the sorted
lines is the number of those smaller. -/
def pred (valid : List Nat) (line : Nat) : Option Nat := (valid.takeWhile (· < line)).getLast?

/-- The body of the loop of `_verify_breakpoints_with_lines_collected` (76-119). -/
def verifyOne (valid : List Nat) (s : State) (item : Nat × Nat) : State :=
  let line := item.1
  let id := item.2
  if (s.bps id).key = some valid then s
  else
    let s := s.update id fun b => { b with key := some valid }
    if line ∈ valid then
      if (s.bps id).err = .ok then s
      else (s.update id fun b => { b with err := .ok }).tell id
    else
      let blocked :=
        if (s.bps id).err = .invalid then s
        else (s.update id fun b => { b with err := .invalid }).tell id
      match pred valid line with
      | none => blocked
      | some newLine =>
        if Py.Dict.has s.lines newLine then blocked
        else if (s.bps id).err ≠ .ok ∧ (s.bps id).shown ≠ newLine then
          let s := s.update id fun b => { b with err := .ok, shown := newLine }
          { s with lines := Py.Dict.set (Py.Dict.erase s.lines line) newLine id }.tell id
        else s

/-- `_verify_breakpoints_with_lines_collected` (73-119): it goes through a copy of the items. -/
def verify (valid : List Nat) (s : State) : State := s.lines.foldl (verifyOne valid) s

/-- `consolidate_breakpoints` (`pydevd.py` 1862-1868) -/
def consolidate (s : State) : State :=
  { s with lines := s.order.foldl (fun d id => Py.Dict.set d (s.bps id).line id) [] }

/-- `after_breakpoints_consolidated` (`jinja2_debug.py` 72-86): if the template was loaded, its last lines
are used. -/
def afterConsolidated (s : State) : State :=
  match s.last with
  | none => s
  | some valid => verify valid s

inductive Op where
  /-- `remove_all_breakpoints` (`pydevd_api.py` 647-691) for the file -/
  | clear
  /-- `add_breakpoint` (416-633) with `add_line_breakpoint` of the plugin (`jinja2_debug.py` 37-69), and the
  answer -/
  | add (id line : Nat)
  /-- `remove_breakpoint` (693-757) -/
  | remove (id : Nat)
  /-- a node of the template is rendered: `verify_breakpoints` (46-59) with the lines of the template, by
  `get_breakpoint` (`jinja2_debug.py` 446-474, `django_debug.py` 530-563) if there are breakpoints -/
  | render (valid : List Nat)
deriving Repr

def step (s : State) : Op → State
  | .clear => { s with order := [], lines := [] }
  | .add id line =>
    let s := { s with order := if id ∈ s.order then s.order else s.order ++ [id] }
    let s := s.update id fun _ => ⟨line, .lazy, line, none⟩
    (afterConsolidated (consolidate s)).tell id
  | .remove id =>
    if id ∈ s.order then afterConsolidated (consolidate { s with order := s.order.filter (· ≠ id) }) else s
  | .render valid =>
    if s.lines.isEmpty then s else verify valid { s with last := some valid }

def run (s : State) (ops : List Op) : State := ops.foldl step s

/-- The breakpoint at which rendering a line stops, after it was verified (`jinja2_debug.py` 466-471,
`django_debug.py` 556-561). -/
def hit (s : State) (line : Nat) : Option Nat := Py.Dict.get s.lines line

/-- The line of the template for a line of the code made from it (`_get_jinja2_template_line`,
`jinja2_debug.py` 303-314), given the pairs of `debug_info`. -/
def templateLine (info : List (Nat × Nat)) (lineno : Nat) : Option Nat :=
  (info.find? fun p => p.2 == lineno).map (·.1)

end Template
