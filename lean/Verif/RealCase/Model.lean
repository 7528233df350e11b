import Verif.Common.Dict
import Verif.Common.Split
import Verif.Common.Str
/-!
The case of letters in paths, where the file system does not look at it: how the debugger finds the path as it is
on the disk, with a cache of listed directories.

pydevd_file_utils.py: `_resolve_listing` (144-167), `_resolve_listing_parts` (170-204), `get_path_with_real_case` on
Mac (286-297) and `_get_path_with_real_case` on Windows (240-259).

What a directory holds is asked of a file system that may change at any time. Lower case is letter by letter, each
letter giving a text (`lowC`); which is so but for the last sigma of a word.

Simplifications: names with `~` on Windows (247-248) are not here; `os.path.normpath`, `os.path.splitdrive` and
`upper` on Windows are arbitrary functions; messages to the log are left out.
-/

namespace RealCase

abbrev Str := List Char

/-- What `os.listdir` gives. -/
inductive Listing where
  | names (l : List Str)
  /-- `FileNotFoundError` -/
  | missing
  /-- another `OSError`, such as `PermissionError` -/
  | denied
deriving DecidableEq, Repr

/-- A file system as it is at a time. -/
structure Fs where
  listdir : Str → Listing
  exist : Str → Bool

/-- The platform. -/
structure Env where
  sep : Char
  /-- `c.lower()` -/
  lowC : Char → Str
  /-- the characters after which `os.path.join` puts no separator -/
  noSep : Char → Bool
  /-- Windows: `splitdrive(normpath(filename))`, the drive in upper case -/
  drive : Str → Str × Str

/-- `s.lower()`. -/
def Env.low (env : Env) (s : Str) : Str := s.flatMap env.lowC

/-- `os.path.join(a, b)`, `b` a name of a directory. -/
def Env.join (env : Env) (a b : Str) : Str :=
  match a.getLast? with
  | none => b
  | some c => if env.noSep c then a ++ b else a ++ env.sep :: b

/-- `_listdir_cache` (138): listings by directory in lower case; paths by directory and name in lower case. -/
structure Cache where
  dirs : List (Str × List Str) := []
  joined : List ((Str × Str) × Str) := []
deriving DecidableEq, Repr

/-- How the walk ends. -/
inductive Res where
  | found (p : Str)
  | missing
  | denied
deriving DecidableEq, Repr

/-- The loop over the contents (158-162). -/
def lookIn (env : Env) (c : Cache) (resolved part : Str) (names : List Str) : Res × Cache :=
  match names.find? (fun n => env.low n == part) with
  | some n =>
    (.found (env.join resolved n),
      { c with joined := Py.Dict.set c.joined (env.low resolved, part) (env.join resolved n) })
  | none => (.missing, c)

/-- One round of `_resolve_listing` (151-167). -/
def resolveOne (env : Env) (fs : Fs) (c : Cache) (resolved part : Str) : Res × Cache :=
  match Py.Dict.get c.joined (env.low resolved, part) with
  | some p => (.found p, c)
  | none =>
    match Py.Dict.get c.dirs (env.low resolved) with
    | some names => lookIn env c resolved part names
    | none =>
      match fs.listdir resolved with
      | .names l => lookIn env { c with dirs := Py.Dict.set c.dirs (env.low resolved) l } resolved part l
      | .missing => (.missing, c)
      | .denied => (.denied, c)

/-- `_resolve_listing` (144-167). -/
def resolve (env : Env) (fs : Fs) (c : Cache) (resolved : Str) : List Str → Res × Cache
  | [] => (.found resolved, c)
  | part :: parts =>
    match resolveOne env fs c resolved part with
    | (.found p, c') => resolve env fs c' p parts
    | (r, c') => (r, c')

/-- What is given back: a path, or the error of the second try goes to the caller. -/
inductive Answer where
  | path (p : Str)
  | raised
deriving DecidableEq, Repr

/-- The second try (175-193), with the cache cleared; only `FileNotFoundError` is caught in it. -/
def retry (env : Env) (fs : Fs) (resolved : Str) (parts : List Str) (filename : Str) : Answer × Cache :=
  match resolve env fs {} resolved parts with
  | (.found p, c) => (.path p, c)
  | (.missing, c) => (.path filename, c)
  | (.denied, c) => (.raised, c)

/-- `_resolve_listing_parts` (170-204). -/
def resolveParts (env : Env) (fs : Fs) (c : Cache) (resolved : Str) (parts : List Str) (filename : Str) :
    Answer × Cache :=
  if parts = [[]] then (.path resolved, c)
  else
    match resolve env fs c resolved parts with
    | (.found p, c') => (.path p, c')
    | (.missing, _) => retry env fs resolved parts filename
    | (.denied, c') => (.path filename, c')

/-- The loop of Mac (292-295): leading separators go to what is found already. -/
def dropEmpty (sep : Char) (found : Str) : List Str → Str × List Str
  | [] => (found, [])
  | p :: ps => if p = [] then dropEmpty sep (found ++ [sep]) ps else (found, p :: ps)

/-- The path a name of a file is not looked up at all (287-288, 250-251). -/
def notLookedUp (fs : Fs) (filename : Str) : Bool := Py.startsWith filename c!"<" || !fs.exist filename

/-- `get_path_with_real_case` on Mac (286-297). -/
def macCase (env : Env) (fs : Fs) (c : Cache) (filename : Str) : Answer × Cache :=
  if notLookedUp fs filename then (.path filename, c)
  else
    let d := dropEmpty env.sep [] (Py.split1 env.sep (env.low filename))
    resolveParts env fs c d.1 d.2 filename

/-- The loop of Windows (255-257). -/
def moveSeps (sep : Char) (drive : Str) : Str → Str × Str
  | [] => (drive, [])
  | p :: ps => if p = sep then moveSeps sep (drive ++ [sep]) ps else (drive, p :: ps)

/-- `_get_path_with_real_case` on Windows (240-259). -/
def windowsCase (env : Env) (fs : Fs) (c : Cache) (filename : Str) : Answer × Cache :=
  if notLookedUp fs filename then (.path filename, c)
  else
    let d := moveSeps env.sep (env.drive filename).1 (env.drive filename).2
    resolveParts env fs c d.1 (Py.split1 env.sep (env.low d.2)) filename

/-- Which of the two. -/
inductive Platform where
  | mac
  | windows
deriving DecidableEq, Repr

/-- `get_path_with_real_case`. -/
def realCase (pl : Platform) (env : Env) (fs : Fs) (c : Cache) (filename : Str) : Answer × Cache :=
  match pl with
  | .mac => macCase env fs c filename
  | .windows => windowsCase env fs c filename

/-- The cache after questions, each asked of the file system as it was then. -/
def asked (pl : Platform) (env : Env) (c : Cache) : List (Fs × Str) → Cache
  | [] => c
  | q :: qs => asked pl env (realCase pl env q.1 c q.2).2 qs

end RealCase
