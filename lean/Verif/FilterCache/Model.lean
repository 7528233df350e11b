import Verif.Filtering.Model
import Verif.Common.Dict
/-!
Model of the file-filter decision for a frame and of its four caches.

Source: `/repo/pydevd.py` `get_file_type` (1037-1107), `in_project_scope` (1252-1303), `_clear_caches` (1308-1324),
`clear_dont_trace_start_end_patterns_caches` (1326-1332), `_exclude_by_filter` (1334-1356), `apply_files_filter`
(1358-1426), setters (1446-1456); `/repo/_pydevd_bundle/pydevd_api.py` `set_dont_trace_start_end_patterns` (945-979).

Simplifications: no plugin is active (1381-1387); a query is one atomic step, except in `Action.rootsDuring`;
`_internal_get_file_type` (994-1019), which looks only at the file name, the absolute path of a file name and its
base name are parameters.
-/

namespace FilterCache
open Filtering

/-- `PYDEV_FILE`, `LIB_FILE`; `None` is `none` -/
inductive FileType where
  | pydev | lib
deriving DecidableEq, Repr

/-- Platform functions. -/
structure Plat where
  env : Env
  norm : Str → Str
  /-- `absolute_path` / `get_abs_path_real_path_and_base_from_frame(..)[0]` -/
  abs : Str → Str
  base : Str → Str
  /-- `_internal_get_file_type` -/
  builtin : Str → Option FileType

/-- The configuration: what the client can change. -/
structure Conf where
  filters : List Filter := []
  projectRoots : List Str := []
  libraryRoots : List Str := []
  useLib : Bool := false
  /-- runtime sources with a mapping (`has_mapping_entry`) -/
  mapped : List Str := []
  /-- `none` until `set_dont_trace_start_end_patterns` installs a function -/
  patterns : Option (List Str × List Str) := none
deriving DecidableEq, Repr

/-- A code object, up to `==`. -/
structure Code where
  id : Nat
  firstLine : Nat := 1
  name : Str := c!"<module>"
  filename : Str
deriving DecidableEq, Repr

structure Frame where
  code : Code
  /-- `frame.f_globals.get("__name__", "")` -/
  module : Str
deriving DecidableEq, Repr

abbrev Key := Nat × Str × Code
abbrev ExKey := Str × Str × Nat
abbrev ApKey := Nat × Str × Bool × Code

structure Caches where
  fileType : List (Key × Option FileType) := []
  scope : List (Key × Bool) := []
  excl : List (ExKey × Option Bool) := []
  apply : List (ApKey × Bool) := []
deriving DecidableEq, Repr

structure State where
  conf : Conf := {}
  exclEnabled : Bool := false
  libEnabled : Bool := false
  caches : Caches := {}
deriving DecidableEq, Repr

variable (P : Plat)

def key (f : Frame) : Key := (f.code.firstLine, P.abs f.code.filename, f.code)

/-- `dont_trace_external_files` (1021-1035; pydevd_api.py 970-972) -/
def external (c : Conf) (abs : Str) : Bool :=
  match c.patterns with
  | none => false
  | some (ss, es) => ss.any (fun s => Py.startsWith (P.env.normcase abs) s) || es.any (fun e => Py.endsWith (P.env.normcase abs) e)

/-- The file type of a file that is not `<string>` (1099-1103). -/
def plainType (c : Conf) (abs : Str) : Option FileType :=
  match P.builtin abs with
  | some t => some t
  | none => if external P c abs then some .pydev else none

/-- `get_file_type` (1037-1107); `scan` is the loop over the back frames. -/
def getFileType (c : Conf) (f : Frame) (scan : Caches → Bool × Caches) (k : Caches) : Option FileType × Caches :=
  match Py.Dict.get k.fileType (key P f) with
  | some v => (v, k)
  | none =>
    if P.abs f.code.filename = c!"<string>" then
      let (found, k) := scan k
      let v := if found then some .lib else none
      (v, { k with fileType := Py.Dict.set k.fileType (key P f) v })
    else
      let v := plainType P c (P.abs f.code.filename)
      (v, { k with fileType := Py.Dict.set k.fileType (key P f) v })

/-- The loop of 1077-1094: is some back frame neither internal nor `runpy.py` nor `<string>`. -/
def scanBack (c : Conf) : List Frame → Caches → Bool × Caches
  | [], k => (false, k)
  | g :: rest, k =>
    let (t, k) := getFileType P c g (scanBack c rest) k
    if t ≠ some .pydev && P.base g.code.filename ≠ c!"runpy.py" && P.base g.code.filename ≠ c!"<string>" then (true, k)
    else scanBack c rest k

/-- `in_project_scope` (1252-1303) -/
def inScope (c : Conf) (f : Frame) (back : List Frame) (k : Caches) : Bool × Caches :=
  match Py.Dict.get k.scope (key P f) with
  | some v => (v, k)
  | none =>
    let (t, k) := getFileType P c f (scanBack P c back) k
    let abs := P.abs f.code.filename
    let v :=
      if t = some .pydev then false
      else if abs = c!"<string>" then t ≠ some .lib
      else if c.mapped.contains abs then true
      else inProjectRoots P.env.sep P.norm c.projectRoots c.libraryRoots abs
    (v, { k with scope := Py.Dict.set k.scope (key P f) v })

/-- `_exclude_by_filter` (1334-1356); `abs` is the absolute file name given by the caller. -/
def excluded (c : Conf) (f : Frame) (back : List Frame) (abs : Str) (k : Caches) : Option Bool × Caches :=
  match Py.Dict.get k.excl (abs, f.code.name, f.code.firstLine) with
  | some v => (v, k)
  | none =>
    let (t, k) := getFileType P c f (scanBack P c back) k
    let v := if t = some .pydev then some true else excludeByFilter P.env abs f.module c.filters
    (v, { k with excl := Py.Dict.set k.excl (abs, f.code.name, f.code.firstLine) v })

/-- the second half of `apply_files_filter` (1407-1426) -/
def applyScope (s : State) (f : Frame) (back : List Frame) (force : Bool) (k : Caches) : Bool × Caches :=
  if s.libEnabled || force then
    let (b, k) := inScope P s.conf f back k
    (!b, k)
  else (false, k)

/-- the first half (1389-1405) -/
def applyExcl (s : State) (f : Frame) (back : List Frame) (orig : Str) (k : Caches) : Option Bool × Caches :=
  if s.exclEnabled then excluded P s.conf f back (P.abs orig) k else (none, k)

/-- `apply_files_filter` (1358-1426) -/
def applyFilter (s : State) (f : Frame) (back : List Frame) (orig : Str) (force : Bool) : Bool × Caches :=
  match Py.Dict.get s.caches.apply (f.code.firstLine, orig, force, f.code) with
  | some v => (v, s.caches)
  | none =>
    let (e, k) := applyExcl P s f back orig s.caches
    let (v, k) :=
      match e with
      | some b => (b, k)
      | none => applyScope P s f back force k
    (v, { k with apply := Py.Dict.set k.apply (f.code.firstLine, orig, force, f.code) v })

/-- `_clear_caches` (1308-1324) -/
def clear (s : State) : State :=
  { s with
    caches := { s.caches with scope := [], excl := [], apply := [] }
    exclEnabled := !s.conf.filters.isEmpty
    libEnabled := s.conf.useLib }

/-- `set_dont_trace_start_end_patterns` (pydevd_api.py 945-979); the patterns are already normalized. -/
def setPatterns (s : State) (ss es : List Str) : State :=
  if s.conf.patterns = none ∧ ss = [] ∧ es = [] then s
  else
    let reset := !s.caches.fileType.isEmpty && decide (s.conf.patterns ≠ some (ss, es))
    let s := { s with conf := { s.conf with patterns := some (ss, es) } }
    if reset then clear { s with caches := { s.caches with fileType := [] } } else s

/-- What a client or a traced thread can do. -/
inductive Action where
  | setFilters (fs : List Filter)
  | setProjectRoots (rs : List Str)
  | setUseLib (b : Bool)
  | setMapped (ms : List Str)
  | setPatterns (ss es : List Str)
  /-- breakpoints changed: caches are cleared, the configuration is the same -/
  | touch
  | askType (f : Frame) (back : List Frame)
  | askScope (f : Frame) (back : List Frame)
  | askExcluded (f : Frame) (back : List Frame) (orig : Str)
  | askApply (f : Frame) (back : List Frame) (orig : Str) (force : Bool)
  /-- the project roots change between the computation of the scope of a frame in another thread and the moment
  when that thread stores it in the cache -/
  | rootsDuring (rs : List Str) (f : Frame) (back : List Frame)

def step (s : State) : Action → State
  | .setFilters fs => clear { s with conf := { s.conf with filters := fs } }
  | .setProjectRoots rs => clear { s with conf := { s.conf with projectRoots := fixRoots P.env.sep P.norm rs } }
  | .setUseLib b => clear { s with conf := { s.conf with useLib := b } }
  | .setMapped ms => clear { s with conf := { s.conf with mapped := ms } }
  | .setPatterns ss es => setPatterns s ss es
  | .touch => clear s
  | .askType f back => { s with caches := (getFileType P s.conf f (scanBack P s.conf back) s.caches).2 }
  | .askScope f back => { s with caches := (inScope P s.conf f back s.caches).2 }
  | .askExcluded f back orig => { s with caches := (excluded P s.conf f back (P.abs orig) s.caches).2 }
  | .askApply f back orig force => { s with caches := (applyFilter P s f back orig force).2 }
  | .rootsDuring rs f back =>
    let (v, k) := inScope P s.conf f back s.caches
    let s' := clear { s with caches := k, conf := { s.conf with projectRoots := fixRoots P.env.sep P.norm rs } }
    { s' with caches := { s'.caches with scope := Py.Dict.set s'.caches.scope (key P f) v } }

def run (s : State) (as : List Action) : State := as.foldl (step P) s

/-- after `__init__`: libraries roots and filters come from the environment -/
def start (c : Conf) : State := { conf := c, exclEnabled := !c.filters.isEmpty, libEnabled := c.useLib }

end FilterCache
