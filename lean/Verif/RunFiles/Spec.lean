import Verif.RunFiles.Model
/-!
What a user expects of the files of the test runner. Nothing of the walk or of the choices is used here: only the trees.
-/

namespace RunFiles.Spec

open RunFiles

/-- a file of tests: `x.py` or `x.pyw`, and not `__init__.…` -/
def TestFile (f : Str) : Prop :=
  (∃ s, f = s ++ c!".py" ∨ f = s ++ c!".pyw") ∧ ¬ ∃ s, f = c!"__init__." ++ s

/-- a directory is a package: there is an `__init__` of some kind in it -/
def Package (t : Tree) : Prop :=
  ∃ ext, ext ∈ [c!".py", c!".pyo", c!".pyc", c!".pyw", c!"$py.class"] ∧
    ((c!"__init__" ++ ext) ∈ t.files ∨ ∃ t', (c!"__init__" ++ ext, t') ∈ t.dirs.list)

/-- going down from a directory by packages -/
inductive Below : Tree → List Str → Tree → Prop
  | here (t) : Below t [] t
  | down {t n t1 ns t2} : (n, t1) ∈ t.dirs.list → Package t1 → Below t1 ns t2 → Below t (n :: ns) t2

/-- there are no two entries of a directory with one name -/
inductive Distinct : Tree → Prop
  | mk {t} : t.files.Nodup → (t.dirs.list.map (·.1)).Nodup → (∀ n t', (n, t') ∈ t.dirs.list → Distinct t') → Distinct t

/-- a path is asked for: it is among the files and tests given, or else it is a file given, or in a directory given -/
def Asked (fs : Path → Node) (o : Options) (p : Path) : Prop :=
  (o.filesToTests ≠ [] ∧ p ∈ o.filesToTests) ∨
  (o.filesToTests = [] ∧ p ∈ o.filesOrDirs ∧ fs p = .file) ∨
  (o.filesToTests = [] ∧ ∃ b t ns t' f, b ∈ o.filesOrDirs ∧ fs b = .dir t ∧ Below t ns t' ∧ f ∈ t'.files ∧ TestFile f ∧
    p = b ++ ns ++ [f])

/-- the name of a module: the names from a directory to the file, with dots between them -/
def moduleName : List Str → Str
  | [] => []
  | [a] => a
  | a :: b :: r => a ++ '.' :: moduleName (b :: r)

/-- a name of a file or directory -/
def Name (n : Str) : Prop := n ≠ [] ∧ '/' ∉ n ∧ '\\' ∉ n

/-- the names from a directory to a file -/
def rel : Path → Path → Option Path
  | [], p => some p
  | _ :: _, [] => none
  | a :: r, b :: p => if a = b then rel r p else none

/-- the entries of the path, in their order and each once: the specification's own -/
def uniq : List Path → List Path
  | [] => []
  | x :: xs => x :: (uniq xs).filter (· ≠ x)

/-- a path by which something else is not taken for the file: where its text begins as that of the file, it holds the file -/
def Clean (sysPath : List Path) (mod : Path) : Prop :=
  ∀ e ∈ sysPath, e ≠ [] ∧ (∀ d ∈ e, Name d) ∧
    (e.flatMap ('.' :: ·) <+: mod.flatMap ('.' :: ·) → ∃ q, q ≠ [] ∧ mod = e ++ q)

/-- the fate of a file whose module may have the names `ns` -/
def fateOf (imports : Str → Bool) (ns : List Str) : Fate :=
  match ns.find? imports with
  | some n => .imported n
  | none => match ns.getLast? with
    | some n => .error n
    | none => .noPath

end RunFiles.Spec
