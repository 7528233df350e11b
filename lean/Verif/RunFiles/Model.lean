import Verif.Common.Str
import Verif.Common.Split
/-!
Model of how the test runner finds files and imports them.

Source: `/repo/_pydev_runfiles/pydev_runfiles.py` `__adjust_path` (326-347), `__is_valid_py_file` (349-358), `__importify`
(364-382), `__add_files` (384-389), `find_import_files` (391-462), `__get_module_from_str` (464-491),
`remove_duplicates_keeping_order` (493-496), `find_modules_from_files` (498-531).

Simplifications: paths are absolute and normal, and kept as lists of names (`normpath` and `unixify` change nothing);
directories are trees, without links; whether a name matches a pattern of the user (`fnmatchcase`) is an input; importing a
name gives a module or fails; what is printed is left out, except that a file is said to have no path.
-/

namespace RunFiles

abbrev Str := List Char
abbrev Path := List Str

/-! ### Directories -/

mutual
/-- a directory: its files and its subdirectories -/
inductive Tree
  | mk (files : List Str) (dirs : Forest)
inductive Forest
  | nil
  | cons (name : Str) (t : Tree) (rest : Forest)
end

def Tree.files : Tree → List Str
  | .mk fs _ => fs

def Tree.dirs : Tree → Forest
  | .mk _ ds => ds

def Forest.list : Forest → List (Str × Tree)
  | .nil => []
  | .cons n t r => (n, t) :: r.list

/-- `__is_valid_py_file` (349-358): `*.py` or `*.pyw`, and not `__init__.*` -/
def isValidPyFile (f : Str) : Bool :=
  !(Py.startsWith f c!"__init__.") && (Py.endsWith f c!".py" || Py.endsWith f c!".pyw")

/-- the names that make a directory a package (405) -/
def initNames : List Str := [c!"__init__.py", c!"__init__.pyo", c!"__init__.pyc", c!"__init__.pyw", c!"__init__$py.class"]

/-- `os.path.exists(os.path.join(root, d, init))` for some `init` (404-407) -/
def hasInit (t : Tree) : Bool :=
  initNames.any fun n => decide (n ∈ t.files) || decide (n ∈ t.dirs.list.map (·.1))

mutual
/-- the files of `os.walk(base_dir)`, with the directories without `__init__` left out (400-420), and `__add_files`: the
names of the directories from the base, and of the file -/
def walk : Tree → List Path
  | .mk files dirs => ((files.filter isValidPyFile).map fun f => [f]) ++ walkDirs dirs
def walkDirs : Forest → List Path
  | .nil => []
  | .cons n t r => (if hasInit t then (walk t).map (n :: ·) else []) ++ walkDirs r
end

/-- what is at a path -/
inductive Node
  | missing
  | file
  | dir (t : Tree)

/-- the options that choose files; `match name pattern` is `fnmatchcase` -/
structure Options where
  /-- the keys of `files_to_tests` -/
  filesToTests : List Path := []
  filesOrDirs : List Path := []
  includeFiles : List Str := []
  excludeFiles : List Str := []

/-- whether a file is kept by the patterns (427-460) -/
def keeps (mtch : Str → Str → Bool) (o : Options) (f : Path) : Bool :=
  let base := f.getLast?.getD []
  let add := if o.includeFiles ≠ [] then o.includeFiles.any (mtch base) else true
  if !add then false else if o.excludeFiles ≠ [] then !(o.excludeFiles.any (mtch base)) else true

/-- the files before the patterns (393-422) -/
def candidates (fs : Path → Node) (o : Options) : List Path :=
  if o.filesToTests ≠ [] then o.filesToTests
  else o.filesOrDirs.flatMap fun b =>
    match fs b with
    | .dir t => (walk t).map (b ++ ·)
    | .file => [b]
    | .missing => []

/-- `find_import_files` (391-462) -/
def findImportFiles (fs : Path → Node) (mtch : Str → Str → Bool) (o : Options) : List Path :=
  let pyfiles := candidates fs o
  if o.excludeFiles ≠ [] ∨ o.includeFiles ≠ [] then pyfiles.filter (keeps mtch o) else pyfiles

/-! ### Modules -/

/-- the text of a path -/
def text (p : Path) : Str := if p = [] then ['/'] else p.flatMap ('/' :: ·)

/-- `os.path.split(s)` -/
def splitPath (s : Str) : Str × Str :=
  let tail := (s.reverse.takeWhile (· ≠ '/')).reverse
  let head := s.take (s.length - tail.length)
  (if head.all (· = '/') then head else (head.reverse.dropWhile (· = '/')).reverse, tail)

/-- `os.path.splitext(fname)[0]` of a name with at most one dot -/
def stem (f : Str) : Str :=
  match Py.split1 '.' f with
  | [a, _] => if a = [] then f else a
  | _ => f

/-- `.replace("\\", "/").replace("/", ".")` -/
def dots (s : Str) : Str := s.map fun c => if c = '\\' ∨ c = '/' then '.' else c

/-- `__importify` (364-382) of a file -/
def importify (s : Str) : Option Str :=
  let (dirname, fname) := splitPath s
  if fname.count '.' > 1 then none
  else
    let d := dots dirname
    some (if d = [] then stem fname else d ++ ['.'] ++ stem fname)

/-- `remove_duplicates_keeping_order` (493-496) -/
def removeDuplicates : List Str → List Str → List Str
  | _, [] => []
  | seen, x :: xs => if x ∈ seen then removeDuplicates seen xs else x :: removeDuplicates (x :: seen) xs

/-- the names to import a file by (513-521) -/
def choices (sysPath : List Str) (imp : Str) : List Str :=
  ((removeDuplicates [] sysPath).map dots).filterMap fun s =>
    if Py.startsWith imp s then
      let add := imp.drop (s.length + 1)
      if add ≠ [] then some add else none
    else none

/-- what happens with a file: not a name for a module, no path for it, imported by a name, or an error is notified for the
last of the names (499-531) -/
inductive Fate
  | notModule
  | noPath
  | imported (name : Str)
  | error (name : Str)
deriving DecidableEq

/-- the loop over the names (525-531): only the failure of the last is notified (526, 473-489) -/
def tryNames (imports : Str → Bool) : List Str → Option Str → Fate
  | [], none => .noPath
  | [], some n => .error n
  | n :: ns, _ => if imports n then .imported n else tryNames imports ns (some n)

/-- one file in `find_modules_from_files` (506-531) -/
def findModule (imports : Str → Bool) (sysPath : List Str) (f : Str) : Fate :=
  match importify f with
  | none => .notModule
  | some imp =>
    let cs := choices sysPath imp
    if cs = [] then .noPath else tryNames imports cs none

/-- `__adjust_path` (326-347): `none` if something is neither a file nor a directory and the method returns early -/
def adjustPath (fs : Path → Node) : List Path → Option Path → Option Path
  | [], last => last
  | p :: ps, _ =>
    match fs p with
    | .dir _ => adjustPath fs ps (some p)
    | .file => adjustPath fs ps (some p.dropLast)
    | .missing => none

end RunFiles
