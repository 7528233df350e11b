import Verif.Common.Dict
import Verif.Common.Str
/-!
Watching directories for changes: `_pydev_bundle/fsnotify/__init__.py`.

Not modelled: the sleeps, paths given as bytes, paths of Windows, changes of the tree while it is scanned, and calls of
`set_tracked_paths` while a scan is running.
-/

namespace FsNotify

abbrev Str := List Char

/-- `(stat.st_mtime_ns, stat.st_size)` (152) -/
structure Stat where
  mtime : Int
  size : Nat
deriving DecidableEq

/-- what is known about an entry of a directory -/
inductive Kind
  | dir
  /-- not a directory; `none`: `entry.stat()` raises `OSError`, for example a symbolic link to nothing -/
  | file (stat : Option Stat)
  /-- `entry.is_dir()` raises `OSError` -/
  | unknown
deriving DecidableEq

structure Entry where
  name : Str
  kind : Kind
deriving DecidableEq

/-- the result of `scandir` for each path; `none`: it raises `OSError` -/
abbrev FS := Str → Option (List Entry)

/-- `entry.path` for the entry with the name `n` of `scandir(d)` -/
def join (d n : Str) : Str := if d.getLast? = some '/' then d ++ n else d ++ '/' :: n

/-- `Change` (61-64) -/
inductive Change
  | added
  | modified
  | deleted
deriving DecidableEq

/-- `accept_directory`, `accept_file`, `max_recursion_level` (80-90, 194) -/
structure Cfg where
  acceptDir : Str → Bool
  acceptFile : Str → Bool
  maxLevel : Nat

/-- `_SingleVisitInfo.visited_dirs`, `_SingleVisitInfo.file_to_mtime` (67-72), `old_file_to_mtime`, `changes` (292-295) -/
structure St where
  visited : List Str
  new : List (Str × Stat)
  old : List (Str × Stat)
  changes : List (Change × Str)

/-- a file that is accepted (152-160) -/
def record (st : St) (path : Str) (s : Stat) : St :=
  { st with
    new := Py.Dict.set st.new path s
    old := Py.Dict.erase st.old path
    changes := match Py.Dict.get st.old path with
      | none => st.changes ++ [(.added, path)]
      | some o => if o ≠ s then st.changes ++ [(.modified, path)] else st.changes }

/-- the loop over the entries of the directory `d` (133-160); an `OSError` ends it (162-163). `sub` is `_check_dir` one level
further. -/
def entries (c : Cfg) (sub : Str → St → St) (d : Str) : List Entry → St → St
  | [], st => st
  | e :: es, st =>
    match e.kind with
    | .unknown => st
    | .dir => entries c sub d es (if c.acceptDir (join d e.name) then sub (join d e.name) st else st)
    | .file s =>
      if c.acceptFile (join d e.name) then
        match s with
        | none => st
        | some s => entries c sub d es (record st (join d e.name) s)
      else entries c sub d es st

/-- `_check_dir` (116-163); the number is `max_recursion_level + 1 - level` -/
def checkDir (c : Cfg) (fs : FS) : Nat → Str → St → St
  | 0, _, st => st
  | k + 1, d, st =>
    if d ∈ st.visited then st
    else
      match fs d with
      | none => { st with visited := d :: st.visited }
      | some es => entries c (checkDir c fs k) d es { st with visited := d :: st.visited }

/-- a scan of `iter_changes` (292-306): the new `file_to_mtime` and the changes. The roots are visited in the order of a set. -/
def scan (c : Cfg) (fs : FS) (order : List Str) (old : List (Str × Stat)) : List (Str × Stat) × List (Change × Str) :=
  let st := order.foldl (fun st r => checkDir c fs (c.maxLevel + 1) r st) ⟨[], [], old, []⟩
  (st.new, st.changes ++ st.old.map fun e => (.deleted, e.1))

/-- insertion into a list sorted by decreasing length -/
def insertLen (x : Str) : List Str → List Str
  | [] => [x]
  | y :: ys => if y.length ≤ x.length then x :: y :: ys else y :: insertLen x ys

/-- `sorted(set(paths), key=lambda path: -len(path))` (254), for paths without repetitions -/
def initialOrder : List Str → List Str
  | [] => []
  | p :: ps => insertLen p (initialOrder ps)

/-- the first snapshot, `set_tracked_paths` (244-279): the changes are not kept -/
def snapshot (c : Cfg) (fs : FS) (paths : List Str) : List (Str × Stat) := (scan c fs (initialOrder paths) []).1

/-- the trees found by consecutive scans, with the order of the roots in each -/
structure Scan where
  order : List Str
  fs : FS

/-- `iter_changes` (281-306): the changes reported by each scan -/
def iterChanges (c : Cfg) : List (Str × Stat) → List Scan → List (List (Change × Str))
  | _, [] => []
  | old, s :: ss =>
    let r := scan c s.fs s.order old
    r.2 :: iterChanges c r.1 ss

end FsNotify
