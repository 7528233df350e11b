import Verif.Common.Str
import Verif.Common.Dict
/-!
The names under which the debugger knows files: `/repo/pydevd_file_utils.py` `_abs_and_canonical_path` (438-470), `_get_relative_filename_abs_path`
(473-484), `_apply_func_and_normalize_case` (487-526), `exists` (533-583), `set_resolve_symlinks` (713-715),
`get_abs_path_real_path_and_base_from_file` (905-938) and `get_abs_path_real_path_and_base_from_frame` (941-964).

Simplified: paths are those of posix (`os.path.join`, `isabs`, `basename` as in `posixpath`); `normcase` is any function of the path (on Linux the
identity), so its own cache is left out; `os.path.abspath`, `realpath` and `exists` are any functions, which may change at any time (`World`); the branches for
the shutdown of the interpreter are left out.
-/

namespace Canonical
open Py

abbrev Path := List Char

/-- What the process and the file system are like at some moment. -/
structure World where
  abs : Path → Path
  real : Path → Path
  ex : Path → Bool
  /-- `sys.path` -/
  sysPath : List Path
  /-- `_library_dir` -/
  lib : Path
  /-- `_global_resolve_symlinks` -/
  resolve : Bool
  /-- `zipfile.ZipFile(path)`: the names in it, or an error -/
  zip : Path → Option (List Path)

/-- `os.path.join` of two (`posixpath`) -/
def join (a b : Path) : Path :=
  if b.head? = some '/' then b
  else if a = [] ∨ a.getLast? = some '/' then a ++ b
  else a ++ ('/' :: b)

/-- `os.path.isabs` -/
def isabs (p : Path) : Bool := startsWith p ['/']

/-- `os.path.basename` -/
def basename (p : Path) : Path := (p.reverse.takeWhile (· ≠ '/')).reverse

/-- The loop of `_get_relative_filename_abs_path` (476-479) -/
def searchPath (w : World) (func : Path → Path) (f : Path) : List Path → Option Path
  | [] => none
  | p :: rest => let r := func (join p f); if w.ex r then some r else searchPath w func f rest

/-- `_get_relative_filename_abs_path` (473-484) -/
def relative (w : World) (func : Path → Path) (f : Path) : Path :=
  match searchPath w func f w.sysPath with
  | some r => r
  | none => func (join w.lib f)

/-- `r.find(".zip")`, or else `r.find(".egg")` (501-503, 541-543) -/
def marker (r : Path) : Option Nat :=
  match find c!".zip" r with
  | some i => some i
  | none => find c!".egg" r

/-- The path to the archive and that within it, before the separator is dropped (505-515, 546-556) -/
def archive (r : Path) (i : Nat) : Path × Path :=
  let zip := r.take (i + 4)
  let inner := r.drop (i + 4)
  if startsWith inner ['!'] then (zip ++ ['!'], inner.drop 1) else (zip, inner)

/-- (517-518, 571-572) -/
def dropSep (inner : Path) : Path := if startsWith inner ['/'] || startsWith inner ['\\'] then inner.drop 1 else inner

/-- `_apply_func_and_normalize_case` from the search for archives on (501-526) -/
def fix (norm : Path → Path) (r : Path) : Path :=
  match marker r with
  | none => norm r
  | some i =>
    let zi := archive r i
    let inner := dropSep zi.2
    if inner ≠ [] then join (norm zi.1) inner else norm r

/-- `_apply_func_and_normalize_case` (487-526) -/
def apply (w : World) (norm : Path → Path) (func : Path → Path) (f : Path) : Path :=
  if startsWith f ['<'] then f
  else
    let r := func f
    let r := if !isabs f then (if !w.ex r then relative w func f else r) else r
    fix norm r

/-- What `_abs_and_canonical_path` computes (458-466) -/
def compute (nc : Path → Path) (w : World) (f : Path) : Path × Path :=
  (apply w id (if w.resolve then w.real else w.abs) f, apply w nc w.real f)

/-- The answer: absolute path, canonical path, base name -/
structure Res where
  abs : Path
  canon : Path
  base : Path
  deriving DecidableEq, Repr

structure St where
  world : World
  /-- `NORM_PATHS_CONTAINER` -/
  norm : List (Path × (Path × Path)) := []
  /-- `NORM_PATHS_AND_BASE_CONTAINER` -/
  base : List (Path × Res) := []
  /-- `_ZIP_SEARCH_CACHE`, where an archive was opened (the entry made where it was not is the one `get` gives for none) -/
  zips : List (Path × List Path) := []

/-- `_abs_and_canonical_path` (438-470) -/
def absCanonical (nc : Path → Path) (s : St) (f : Path) : St × (Path × Path) :=
  match Dict.get s.norm f with
  | some r => (s, r)
  | none => let r := compute nc s.world f; ({ s with norm := Dict.set s.norm f r }, r)

/-- (922-926) -/
def strip (f : Path) : Path :=
  if endsWith f c!".pyc" then f.take (f.length - 1)
  else if endsWith f c!"$py.class" then f.take (f.length - 9) ++ c!".py"
  else f

/-- `get_abs_path_real_path_and_base_from_file` (905-938) -/
def fromFile (nc : Path → Path) (s : St) (name : Path) : St × Res :=
  match Dict.get s.base name with
  | some r => (s, r)
  | none =>
    let f := if name = [] then c!"<string>" else name
    if startsWith f ['<'] then (s, ⟨f, nc f, f⟩)
    else
      let (s, ac) := absCanonical nc s (strip f)
      let r : Res := ⟨ac.1, ac.2, basename ac.2⟩
      ({ s with base := Dict.set s.base name r }, r)

def bdist (f : Path) : Bool := startsWith f c!"build/bdist." || startsWith f c!"build\\bdist."

/-- `get_abs_path_real_path_and_base_from_frame` (941-964): the code's file name and the `__file__` of its module -/
def fromFrame (nc : Path → Path) (s : St) (co file : Path) : St × Res :=
  match Dict.get s.base co with
  | some r => (s, r)
  | none =>
    let f := if bdist co then file else co
    let (s, r) := fromFile nc s f
    ({ s with base := Dict.set s.base co r }, r)

/-- `exists` (533-583): whether what it returns is true -/
def exists_ (s : St) (f : Path) : St × Bool :=
  if s.world.ex f then (s, true)
  else
    let g := if !isabs f then relative s.world s.world.abs f else f
    if !isabs f && s.world.ex g then (s, true)
    else match marker g with
      | none => (s, false)
      | some i =>
        let zi := archive g i
        let search (names : List Path) : Bool := names.contains ((dropSep zi.2).map fun c => if c = '\\' then '/' else c)
        match Dict.get s.zips zi.1 with
        | some names => (s, search names)
        | none => match s.world.zip zi.1 with
          | none => (s, false)
          | some names => ({ s with zips := Dict.set s.zips zi.1 names }, search names)

/-- What may happen: the program, the file system or the option changes; a name is looked up -/
inductive Act where
  | world (w : World)
  | file (name : Path)
  | frame (co file : Path)
  | exists_ (f : Path)

/-- A run: the state, the answers on names (newest first) and on whether files exist, and the worlds there were -/
structure Run where
  st : St
  log : List (Path × Res) := []
  elog : List (Path × Bool) := []
  seen : List World

def Run.step (nc : Path → Path) (r : Run) : Act → Run
  | .world w => { r with st := { r.st with world := w }, seen := w :: r.seen }
  | .file n => let (s, x) := fromFile nc r.st n; { r with st := s, log := (n, x) :: r.log }
  | .frame co f => let (s, x) := fromFrame nc r.st co f; { r with st := s, log := (co, x) :: r.log }
  | .exists_ f => let (s, b) := exists_ r.st f; { r with st := s, elog := (f, b) :: r.elog }

def run (nc : Path → Path) (w : World) (acts : List Act) : Run := acts.foldl (Run.step nc) { st := { world := w }, seen := [w] }

end Canonical
