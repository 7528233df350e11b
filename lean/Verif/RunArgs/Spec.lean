import Verif.Common.PyInt
import Verif.Common.Split
import Verif.Common.Dict
import Verif.RunArgs.Model
/-!
What a command line of the test runner says. Only the types `Config` and `World` of the model are used, and library
functions on text (`int`, `strip`, splitting at a character).
-/

namespace RunArgs.Spec
open RunArgs (Str Config World)

/-- the options there are; all have a value -/
def names : List Str :=
  [c!"verbosity", c!"tests", c!"port", c!"config_file", c!"jobs", c!"split_jobs", c!"include_tests", c!"include_files",
   c!"exclude_files", c!"exclude_tests", c!"coverage_output_dir", c!"coverage_include", c!"django"]

/-- `w` stands for the option `n`: it is its name, or the beginning of its name and of no other -/
def Means (w n : Str) : Prop := n ∈ names ∧ (w = n ∨ w <+: n ∧ ∀ m ∈ names, w <+: m → m = n)

/-- `Line args os fs`: the arguments give the options `os` and the files `fs`, each in order -/
inductive Line : List Str → List (Str × Str) → List Str → Prop
  | nil : Line [] [] []
  /-- after `--` there are only files -/
  | rest (fs : List Str) : Line (c!"--" :: fs) [] fs
  | file {f args os fs} : f.head? ≠ some '-' → Line args os fs → Line (f :: args) os (f :: fs)
  /-- `--name=value` -/
  | joined {w n v args os fs} : '=' ∉ w → Means w n → Line args os fs → Line ((c!"--" ++ w ++ ['='] ++ v) :: args) ((n, v) :: os) fs
  /-- `--name value`, whatever the value looks like -/
  | apart {w n v args os fs} : '=' ∉ w → Means w n → Line args os fs → Line ((c!"--" ++ w) :: v :: args) ((n, v) :: os) fs
  /-- a single dash is passed over -/
  | lone {args os fs} : Line args os fs → Line (c!"-" :: args) os fs

/-- the value given last for an option -/
def last (n : Str) (os : List (Str × Str)) : Option Str := ((os.filter fun o => o.1 = n).getLast?).map (·.2)

/-- the file and the test of a line `file|test` of a configuration file; other lines say nothing -/
def entry (l : Str) : Option (Str × Str) :=
  if l.count '|' = 1 then some (l.takeWhile (· ≠ '|'), (l.dropWhile (· ≠ '|')).drop 1) else none

/-- the files and tests asked for: of the configuration files that exist, in order, and of the environment -/
def asked (w : World) (os : List (Str × Str)) : List (Str × Str) :=
  (os.flatMap fun o => if o.1 = c!"config_file" then ((w.lines (Py.strip o.2)).getD []).filterMap entry else []) ++ w.env

/-- the tests asked for in a file -/
def testsIn (l : List (Str × Str)) (f : Str) : Option (List Str) :=
  if f ∈ l.map (·.1) then some ((l.filter fun p => p.1 = f).map (·.2)) else none

/-- values that can be used -/
def Valid (os : List (Str × Str)) : Prop :=
  (∀ o ∈ os, (o.1 = c!"port" ∨ o.1 = c!"jobs" → (Py.parseInt o.2).isSome) ∧ (o.1 = c!"split_jobs" → o.2 = c!"module" ∨ o.2 = c!"tests")) ∧
  ∀ v, last c!"verbosity" os = some v → (Py.parseInt v).isSome

/-- the configuration says what the options and files say -/
structure Says (w : World) (os : List (Str × Str)) (fs : List Str) (c : Config) : Prop where
  dirs : c.dirs = fs.flatMap (Py.split1 '|')
  level : c.level = ((last c!"verbosity" os).bind Py.parseInt).getD 2
  port : c.port = (last c!"port" os).bind Py.parseInt
  jobs : c.jobs = ((last c!"jobs" os).bind Py.parseInt).getD 1
  splitJobs : c.splitJobs = (last c!"split_jobs" os).getD c!"tests"
  coverageOutputDir : c.coverageOutputDir = (last c!"coverage_output_dir" os).map Py.strip
  coverageInclude : c.coverageInclude = (last c!"coverage_include" os).map Py.strip
  includeTests : c.includeTests = (last c!"include_tests" os).map (Py.split1 ',')
  tests : c.tests = (last c!"tests" os).map (Py.split1 ',')
  excludeFiles : c.excludeFiles = if (last c!"tests" os).isSome then none else (last c!"exclude_files" os).map (Py.split1 ',')
  excludeTests : c.excludeTests = if (last c!"tests" os).isSome then none else (last c!"exclude_tests" os).map (Py.split1 ',')
  includeFiles : c.includeFiles = if (last c!"tests" os).isSome then none else (last c!"include_files" os).map (Py.split1 ',')
  django : c.django = true ↔ ∃ v, last c!"django" os = some v ∧ Py.strip v ∈ [c!"true", c!"True", c!"1"]
  files : ∀ f, Py.Dict.get c.filesToTests f = testsIn (asked w os) f

end RunArgs.Spec
