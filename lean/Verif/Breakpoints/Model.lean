import Verif.Common.Dict
/-!
Model of the store of line breakpoints.

Source: `/repo/_pydevd_bundle/pydevd_api.py` `_get_code_lines` (73-95), `add_breakpoint` (416-633),
`reapply_breakpoints` (635-645), `remove_all_breakpoints` (647-691), `remove_breakpoint` (693-757);
`/repo/pydevd.py` `consolidate_breakpoints` (1862-1868);
`/repo/_pydevd_bundle/pydevd_process_net_command_json.py` `on_setfunctionbreakpoints_request` (757-789),
`on_setbreakpoints_request` (791-853), `_next_breakpoint_id` (146).

Simplifications: only breakpoints of type `python-line` (template breakpoints live in a second pair of dicts
handled the same way); condition, function name, expression, suspend policy and hit condition are one
opaque `payload`; path translation, normalisation, source mapping, file existence and the files filter
are parameters (`Env`), fixed during a call; cache clearing and plugin notification are left out here.
-/

namespace Breakpoints

/-- a file name as the client sends it -/
abbrev Name := Nat
/-- `normcase_from_client(name)` -/
abbrev Norm := Nat
/-- a canonical normalised server file -/
abbrev File := Nat

/-- A code object: its file, its line starts (`None` allowed) and its nested code constants. -/
inductive Code where
  | mk (file : Nat) (lineStarts : List (Option Nat)) (consts : List Code)

mutual
/-- `_get_code_lines(code)` (80-95). -/
def codeLines : Code → List Nat
  | .mk file starts consts => starts.filterMap id ++ constLines file consts
/-- The loop over `co_consts` (90-93); constants that are not code are not represented. -/
def constLines (file : Nat) : List Code → List Nat
  | [] => []
  | .mk f starts consts :: rest =>
    (if f = file then codeLines (.mk f starts consts) else []) ++ constLines file rest
end

/-- `bisect.bisect_left(a, x, lo, hi)`; an index out of range cannot occur when `hi ≤ len(a)`. -/
def bisectLeft (a : List Nat) (x : Nat) (lo hi : Nat) : Nat :=
  if h : lo < hi then
    let mid := (lo + hi) / 2
    match a[mid]? with
    | some v => if v < x then bisectLeft a x (mid + 1) hi else bisectLeft a x lo mid
    | none => lo
  else lo
termination_by hi - lo

/-- `sorted(...)` -/
def sortLines (ls : List Nat) : List Nat := ls.mergeSort (fun a b => a ≤ b)

/-- Adjusting a line (516-528); `none`: the code could not be read or compiled. -/
def adjustLine (code : Option (List Nat)) (line : Nat) : Nat :=
  match code with
  | none => line
  | some ls =>
    let lines := sortLines ls
    if lines.contains line then line
    else
      let idx := bisectLeft lines line 0 lines.length
      if idx > 0 then lines.getD (idx - 1) line else line

/-- The world outside: path translation, source mapping and the file system. -/
structure Env where
  /-- `normcase_from_client` -/
  norm : Name → Norm
  /-- `canonical_normalized_path(filename_to_server(name))` -/
  canon : Name → File
  /-- `source_mapping.map_to_server(..)` when a mapping applies -/
  mapped : Name → Nat → Option (File × Nat)
  /-- the executable lines of the translated file; `none` when it cannot be compiled or starts with `<` -/
  code : Name → Option (List Nat)
  /-- the file of the (unmapped) name exists or starts with `<` -/
  nameOk : Name → Bool
  /-- the mapped file exists or starts with `<` -/
  fileOk : File → Bool
  /-- excluded by the files filter (only an error code) -/
  filtered : File → Bool

/-- `LineBreakpoint` -/
structure Bp where
  id : Nat
  line : Nat
  payload : Nat
deriving DecidableEq, Repr

/-- `api_add_breakpoint_params` (486-497) -/
structure Params where
  name : Name
  id : Nat
  line : Nat
  payload : Nat
deriving DecidableEq, Repr

inductive Err where
  | none
  | notFound
  | filtered
deriving DecidableEq, Repr

/-- `_AddBreakpointResult` -/
structure Result where
  id : Nat
  /-- `translated_line` -/
  line : Nat
  err : Err
deriving DecidableEq, Repr

structure State where
  /-- `api_received_breakpoints` -/
  received : List ((Norm × Nat) × (File × Params)) := []
  /-- `file_to_id_to_line_breakpoint` -/
  ids : File → Option (List (Nat × Bp)) := fun _ => none
  /-- `breakpoints`: file → line → breakpoint -/
  lines : File → Option (List (Nat × Bp)) := fun _ => none

/-- `consolidate_breakpoints` (1862-1866): the line dict made from the id dict. -/
def breakDict (m : List (Nat × Bp)) : List (Nat × Bp) :=
  m.foldl (fun d e => Py.Dict.set d e.2.line e.2) []

def setFile {α : Type} (m : File → Option α) (f : File) (v : Option α) : File → Option α :=
  fun g => if g = f then v else m g

/-- Where a breakpoint goes: file, line in that file, line reported, and whether the file is fine
(503-531, 538-544). -/
def target (env : Env) (p : Params) (adjust : Bool) : File × Nat × Nat × Bool :=
  match env.mapped p.name p.line with
  | some (f, l) => (f, l, p.line, env.fileOk f)
  | none =>
    let line := if adjust then adjustLine (env.code p.name) p.line else p.line
    (env.canon p.name, line, line, env.nameOk p.name)

/-- `add_breakpoint` (416-633). -/
def addBreakpoint (env : Env) (s : State) (p : Params) (adjust : Bool) : State × Result :=
  let (file, line, reported, ok) := target env p adjust
  let s := { s with received := Py.Dict.set s.received (env.norm p.name, p.id) (file, p) }
  if !ok then (s, ⟨p.id, reported, .notFound⟩)
  else
    let m := Py.Dict.set ((s.ids file).getD []) p.id ⟨p.id, line, p.payload⟩
    ({ s with ids := setFile s.ids file (some m), lines := setFile s.lines file (some (breakDict m)) },
     ⟨p.id, reported, if env.filtered file then .filtered else .none⟩)

/-- `remove_all_breakpoints` with `"*"` (666-672). -/
def clearAll (_ : State) : State := {}

/-- Popping files from both dicts (685-689). -/
def popFiles (s : State) (fs : List File) : State :=
  { s with
    ids := fun f => if f ∈ fs then none else s.ids f
    lines := fun f => if f ∈ fs then none else s.lines f }

/-- `remove_all_breakpoints` with a file name (674-689). -/
def removeAll (env : Env) (s : State) (name : Name) : State :=
  let n := env.norm name
  let files := (s.received.filter (fun e => e.1.1 == n)).map (fun e => e.2.1)
  popFiles { s with received := s.received.filter (fun e => e.1.1 != n) } files

/-- `remove_breakpoint` (693-757). -/
def removeBreakpoint (env : Env) (s : State) (name : Name) (id : Nat) : State :=
  let s := { s with received := Py.Dict.erase s.received (env.norm name, id) }
  let f := env.canon name
  let m := (s.ids f).getD []
  if Py.Dict.has m id then
    let m := Py.Dict.erase m id
    { s with ids := setFile s.ids f (some m), lines := setFile s.lines f (some (breakDict m)) }
  else s                                                   -- `KeyError` is caught (749-755)

/-- `reapply_breakpoints` (635-645): the lines are not adjusted again (`adjust_line` is not among the stored
parameters). -/
def reapply (env : Env) (s : State) : State :=
  (s.received.map (fun e => e.2.2)).foldl (fun s p => (addBreakpoint env s p false).1) (clearAll s)

/-- The breakpoint that a line event in `file` at `line` finds. -/
def lookup (s : State) (file : File) (line : Nat) : Option Bp :=
  match s.lines file with
  | none => none
  | some d => Py.Dict.get d line

/-! ### The two DAP requests -/

/-- One entry of `setBreakpoints` (817-847). -/
structure Wanted where
  line : Nat
  payload : Nat
deriving DecidableEq, Repr

structure Session where
  store : State := {}
  /-- what `_next_breakpoint_id()` returns next (`itertools.count(0)`) -/
  nextId : Nat := 0

/-- An entry of the response. -/
structure Answer where
  id : Nat
  line : Nat
  verified : Bool
deriving DecidableEq, Repr

/-- The loop over the requested breakpoints (815-847). -/
def setLoop (env : Env) (name : Name) : Session → List Wanted → Session × List Answer
  | s, [] => (s, [])
  | s, w :: ws =>
    let (store, r) := addBreakpoint env s.store ⟨name, s.nextId, w.line, w.payload⟩ true
    let (s', as) := setLoop env name { store, nextId := s.nextId + 1 } ws
    (s', ⟨s.nextId, r.line, r.err == .none⟩ :: as)

/-- `on_setbreakpoints_request` (791-853), after the launch request. -/
def setBreakpoints (env : Env) (s : Session) (name : Name) (ws : List Wanted) : Session × List Answer :=
  setLoop env name { s with store := removeAll env s.store name } ws

/-- `on_setfunctionbreakpoints_request` (757-789): the ids handed out for `n` breakpoints. -/
def setFunctionBreakpoints (s : Session) (n : Nat) : Session × List Nat :=
  ({ s with nextId := s.nextId + n }, (List.range n).map (s.nextId + ·))

end Breakpoints
