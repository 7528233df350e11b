import Verif.Common.Split
import Verif.Common.Str
import Verif.Common.Lit
/-!
Model of the file filters: path globs, filter rules, project and library roots.

Source: `/repo/_pydevd_bundle/pydevd_filtering.py` `_check_matches` (28-57), `glob_matches_path` (60-84), `_fix_roots`
(199-208), `in_project_roots` (230-299), `exclude_by_filter` (315-328);
`/repo/_pydevd_bundle/pydevd_process_net_command_json.py` `_convert_rules_to_exclude_filters` (64-119).

Parameters (not modelled): `normcase`, `fnmatch.fnmatch` inside one path component, `os.path.isdir`, the absolute
path of a file name, `str.lower` of one character.
-/

namespace Filtering

abbrev Str := List Char

/-- The platform. -/
structure Env where
  sep : Char := '/'
  altsep : Option Char := none
  normcase : Str → Str := id
  /-- `fnmatch.fnmatch(name, pattern)` -/
  fnmatch : Str → Str → Bool
  lower : Char → List Char := fun c => [c]

/-! ### Globs -/

/-- `glob.has_magic`: contains `*`, `?` or `[` -/
def hasMagic (s : Str) : Bool := s.any (fun c => c = '*' || c = '?' || c = '[')

/-- `_check_matches` (28-57) -/
def checkMatches (env : Env) : List Str → List Str → Bool
  | [], [] => true
  | [], _ :: _ => false
  | _ :: _, [] => false
  | p :: ps, x :: xs =>
    let pattern := env.normcase p
    let path := env.normcase x
    if !hasMagic pattern then
      if pattern != path then false else checkMatches env ps xs
    else if pattern = c!"**" then
      if ps.isEmpty then true
      else (List.range (x :: xs).length).any (fun i => checkMatches env ps ((x :: xs).drop i)) || checkMatches env ps xs
    else if !env.fnmatch path pattern then false
    else checkMatches env ps xs

/-- The leading empty part is dropped (77-82). -/
def dropEmpty : List Str → List Str
  | [] => []
  | x :: xs => if x = [] then xs else x :: xs

/-- The drive letter of the path, if any (63-70). -/
def splitDrive (path : Str) : Option Char × Str :=
  match path with
  | d :: ':' :: rest => (some d, rest)
  | _ => (none, path)

/-- `glob_matches_path` (60-84) -/
def globMatches (env : Env) (path pattern : Str) : Bool :=
  let pattern := match env.altsep with | some a => Py.replaceChar a env.sep pattern | none => pattern
  let path := match env.altsep with | some a => Py.replaceChar a env.sep path | none => path
  let (drive, path) := splitDrive path
  match drive, pattern with
  | some d, e :: ':' :: rest =>
    if env.lower d ≠ env.lower e then false
    else checkMatches env (dropEmpty (Py.split1 env.sep rest)) (dropEmpty (Py.split1 env.sep path))
  | _, _ => checkMatches env (dropEmpty (Py.split1 env.sep pattern)) (dropEmpty (Py.split1 env.sep path))

/-! ### Rules -/

/-- `ExcludeFilter` -/
structure Filter where
  name : Str
  exclude : Bool
  isPath : Bool
deriving DecidableEq, Repr

/-- A rule of the client; missing keys are `none` (88-99 report and skip rules without "include" or without both
"path" and "module"). -/
structure Rule where
  include_ : Option Bool := some true
  path : Option Str := none
  module : Option Str := none
deriving DecidableEq, Repr

/-- One filter matches (319-327). -/
def matchesFilter (env : Env) (file module : Str) (f : Filter) : Bool :=
  if f.isPath then globMatches env file f.name
  else f.name = module || Py.startsWith module (f.name ++ ['.'])

/-- `FilesFiltering.exclude_by_filter` (315-328) -/
def excludeByFilter (env : Env) (file module : Str) : List Filter → Option Bool
  | [] => none
  | f :: fs => if matchesFilter env file module f then some f.exclude else excludeByFilter env file module fs

inductive Class where
  | directory | glob | module
deriving DecidableEq, Repr

/-- One iteration of the loop (74-104). -/
def convertRule (isdir : Str → Bool) (r : Rule) : Option (Class × Filter) :=
  match r.include_ with
  | none => none
  | some inc =>
    match r.path, r.module with
    | some p, _ =>
      if !p.contains '*' && !p.contains '?' then
        let g := if isdir p then (if !Py.endsWith p ['/'] && !Py.endsWith p ['\\'] then p ++ ['/'] else p) ++ c!"**" else p
        some (.directory, { name := g, exclude := !inc, isPath := true })
      else some (.glob, { name := p, exclude := !inc, isPath := true })
    | none, some m => some (.module, { name := m, exclude := !inc, isPath := false })
    | none, none => none

def ofClass (isdir : Str → Bool) (c : Class) (rules : List Rule) : List Filter :=
  (rules.filterMap (convertRule isdir)).filterMap (fun x => if x.1 = c then some x.2 else none)

/-- `sorted(.., key=lambda f: -len(f.name))`: stable -/
def bySize (fs : List Filter) : List Filter := fs.mergeSort (fun a b => decide (b.name.length ≤ a.name.length))

/-- `_convert_rules_to_exclude_filters` (64-119) -/
def convertRules (isdir : Str → Bool) (rules : List Rule) : List Filter :=
  bySize (ofClass isdir .directory rules) ++ ofClass isdir .glob rules ++ bySize (ofClass isdir .module rules)

/-! ### Roots -/

/-- `_fix_roots` (199-208); `norm` is `_absolute_normalized_path` -/
def fixRoots (sep : Char) (norm : Str → Str) (roots : List Str) : List Str :=
  (roots.filter (· ≠ [])).map (fun r => norm r ++ [sep])

/-- the test of one root (257, 266) -/
def underRoot (sep : Char) (file root : Str) : Bool := root ≠ [] && (Py.startsWith file root || root = file ++ [sep])

def maxLen (l : List Str) : Nat := (l.map List.length).foldl max 0

/-- `in_project_roots` (230-299); the roots are as stored by `_fix_roots`. -/
def inProjectRoots (sep : Char) (norm : Str → Str) (projectRoots libraryRoots : List Str) (file : Str) : Bool :=
  if Py.startsWith file c!"<ipython" then true
  else if Py.startsWith file c!"<" then false
  else
    let f := norm file
    let inProject := projectRoots.filter (underRoot sep f)
    let inLibrary := libraryRoots.filter (underRoot sep f)
    if projectRoots.isEmpty then inLibrary.isEmpty
    else if inProject.isEmpty then false
    else if inLibrary.isEmpty then true
    else decide (maxLen inProject > maxLen inLibrary)

end Filtering
