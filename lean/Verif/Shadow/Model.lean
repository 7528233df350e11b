import Verif.Common.Lit
import Verif.Common.Split
import Verif.Common.Str
/-!
Model of the check that modules of the standard library are not hidden by files of the user.

Source: `/repo/_pydev_bundle/_pydev_saved_modules.py` `find_in_pythonpath` (5-21), `VerifyShadowedImport` (28-76), its uses (79-130).

Simplifications: the file system is two predicates. `os.path.join` puts `/` between a path and the parts unless the path is empty or ends in `/`;
no part begins with `/`. The attributes of a module are a list, reading one outside it raises. The message is kept as the name of the module and the
file it names.
-/

namespace Shadow

abbrev Str := List Char

/-- what `os.path` says of the disk -/
structure Disk where
  isdir : Str → Bool
  exists_ : Str → Bool

/-- `os.path.join(a, b)` -/
def join2 (a b : Str) : Str := if a = [] ∨ Py.endsWith a c!"/" then a ++ b else a ++ c!"/" ++ b

/-- `os.path.join(path, *parts)` -/
def joinAll (path : Str) (parts : List Str) : Str := parts.foldl join2 path

/-- the loop of `find_in_pythonpath` (14-21) -/
def findLoop (d : Disk) (parts : List Str) (foundAt : List Str) : List Str → List Str
  | [] => foundAt
  | path :: ps =>
    let target := joinAll path parts
    let targetPy := target ++ c!".py"
    let foundAt := if d.isdir target then foundAt ++ [target] else foundAt
    let foundAt := if d.exists_ targetPy then foundAt ++ [targetPy] else foundAt
    findLoop d parts foundAt ps

/-- `find_in_pythonpath` (5-21) -/
def find (d : Disk) (sysPath : List Str) (moduleName : Str) : List Str := findLoop d (Py.split1 '.' moduleName) [] sysPath

/-- an exception: that of the debugger with the module and the file it names, or any other -/
inductive Exc
  | debugger (name foundAt : Str)
  | other (what : Nat)
deriving DecidableEq

/-- a module: the names of its attributes, its `__file__`; a number for the exception when there is none -/
structure Module where
  attrs : List Str
  file : Except Nat Str

/-- the loop of `check` (66-76); `none`: no exception -/
def check (importName : Str) (m : Module) : List Str → Option Exc
  | [] => none
  | a :: as =>
    if m.attrs.contains a then check importName m as
    else
      match m.file with
      | .ok f => some (.debugger importName f)
      | .error e => some (.other e)

/-- `__exit__` (35-52): what comes out of the block when this comes to its end -/
def exit (d : Disk) (sysPath : List Str) (importName : Str) : Option Exc → Option Exc
  | none => none
  | some (.debugger n f) => some (.debugger n f)
  | some (.other e) =>
    match find d sysPath importName with
    | [] => some (.other e)
    | [_] => some (.other e)
    | f :: _ :: _ => some (.debugger importName f)

/-- `with VerifyShadowedImport(name) as verify_shadowed: import ...; verify_shadowed.check(module, attributes)` (79-130) -/
def block (d : Disk) (sysPath : List Str) (importName : Str) (imported : Except Nat Module) (expected : List Str) : Option Exc :=
  exit d sysPath importName (match imported with
    | .error e => some (.other e)
    | .ok m => check importName m expected)

end Shadow
