import Verif.Shadow.Model
/-!
Where a module may be.
-/

namespace Shadow.Spec

/-- a directory of the path and the place below it; directories are written without a `/` at the end -/
def place (path : Str) (parts : List Str) : Str := path ++ (parts.map fun p => '/' :: p).flatten

/-- a directory as it is written in `sys.path` -/
def Dir (path : Str) : Prop := path ≠ [] ∧ path.getLast? ≠ some '/'

/-- the places of a module, in the order in which Python looks: the directories of `sys.path`, in each the package and then the file -/
def places (d : Disk) (sysPath : List Str) (parts : List Str) : List Str :=
  sysPath.flatMap fun p =>
    [place p parts, place p parts ++ c!".py"].filter fun x => (x = place p parts && d.isdir x) || (x ≠ place p parts && d.exists_ x)

end Shadow.Spec
