import Verif.Common.Split
import Verif.Common.Dict
import Verif.Common.Str
/-!
# Which tests the test runner collects

Models `_pydev_runfiles/pydev_runfiles.py`: loading the tests of modules, by class and method names
if such are given, and filtering them.

Modules which could not be imported are left out. What `unittest` does when it loads a module is
modelled as far as the runner relies on it: each name of the module bound to a test class gives the
tests of that class, and a class of which no method is chosen gives `runTest` if it has one. The
`load_tests` hook is left out. Matching of patterns (`fnmatch.fnmatchcase`) is a parameter.
-/
namespace RunTests

abbrev Str := List Char

/-- A test case: its file and module, set by `_decorate_test_suite` (`pydev_runfiles.py` 566-586),
the name of its class and its method. -/
structure Case where
  file : Str
  mod : Str
  cls : Str
  method : Str
deriving DecidableEq, Repr

/-- What a suite holds: tests, suites, and objects which are neither. -/
inductive Tree where
  | case (c : Case)
  | suite (ts : List Tree)
  | other

/-- A test class: its name, and what `dir` lists for it (sorted), with whether it can be called. -/
structure Cls where
  name : Str
  attrs : List (Str × Bool)
deriving DecidableEq, Repr

/-- A module which was imported (`pydev_runfiles.py` 498-531): its file, its name, and the test
classes its names are bound to, in the order of `dir`. -/
structure Module where
  file : Str
  name : Str
  classes : List Cls
deriving DecidableEq, Repr

/-- The options which choose tests (`pydev_runfiles.py` 17-60); `None` and an empty list are alike
for the code. -/
structure Config where
  filesToTests : List (Str × List Str)
  tests : List Str
  includeTests : List Str
  excludeTests : List Str

/-- `"test"` -/
def testPrefix : Str := ['t', 'e', 's', 't']

/-- `"runTest"` -/
def runTest : Str := ['r', 'u', 'n', 'T', 'e', 's', 't']

/-- `className + "." + attrname` (`pydev_runfiles.py` 558) -/
def dotted (c m : Str) : Str := c ++ '.' :: m

/-- Whose names are loaded: all which begin with `test`, or those given. -/
inductive Names where
  | all
  | chosen (classes methods : List Str)

/-- `getTestCaseNames`: of `unittest`, or `GetTestCaseNames.__call__` (`pydev_runfiles.py` 537-564).
`dir` is sorted, so the sort at its end changes nothing. -/
def Names.get (n : Names) (k : Cls) : List Str :=
  match n with
  | .all => (k.attrs.filter fun a => Py.startsWith a.1 testPrefix && a.2).map (·.1)
  | .chosen classes methods =>
    if k.name ∈ classes then
      (k.attrs.filter fun a => Py.startsWith a.1 testPrefix && a.2).map (·.1)
    else
      (k.attrs.filter fun a => decide (dotted k.name a.1 ∈ methods) && a.2).map (·.1)

/-- `unittest`'s `loadTestsFromTestCase`: the names, or `runTest` if there are none and the class
has it. -/
def caseNames (n : Names) (k : Cls) : List Str :=
  if n.get k = [] ∧ runTest ∈ k.attrs.map (·.1) then [runTest] else n.get k

/-- `loader.loadTestsFromModule(m)`, decorated with the file and the name of the module
(`pydev_runfiles.py` 566-586, 608-610). -/
def loadModule (n : Names) (m : Module) : Tree :=
  .suite (m.classes.map fun k => .suite ((caseNames n k).map fun t => .case ⟨m.file, m.name, k.name, t⟩))

mutual
/-- What `_decorate_test_suite` returns: whether there is a test in it
(`pydev_runfiles.py` 566-586). -/
def hasCase : Tree → Bool
  | .case _ => true
  | .suite ts => hasCases ts
  | .other => false
/-- The same for the tests of a suite (`pydev_runfiles.py` 574-578). -/
def hasCases : List Tree → Bool
  | [] => false
  | t :: ts => hasCase t || hasCases ts
end

/-- The names given by `--tests`: those without a dot are classes, those with one dot are methods
(`pydev_runfiles.py` 613-626). -/
def testsNames (tests : List Str) : Names :=
  .chosen (tests.filter fun t => (Py.split1 '.' t).length = 1)
    (tests.filter fun t => (Py.split1 '.' t).length = 2)

/-- `find_tests_from_modules` (`pydev_runfiles.py` 588-632). A file for which no tests are given is
a `KeyError` in the code; it does not happen, as the modules are those of the files given. -/
def findTests (cfg : Config) (mods : List Module) : List Tree :=
  if cfg.filesToTests ≠ [] then
    (mods.map fun m => loadModule (.chosen [] ((Py.Dict.get cfg.filesToTests m.file).getD [])) m).filter hasCase
  else if cfg.tests ≠ [] then
    (mods.map fun m => loadModule (testsNames cfg.tests) m).filter hasCase
  else
    (mods.map fun m => loadModule .all m).filter hasCase

/-- `__match_tests` (`pydev_runfiles.py` 729-745). -/
def matchTests (tests : List Str) (c : Case) : Bool :=
  tests.isEmpty || tests.any fun t =>
    match Py.split1 '.' t with
    | [k] => k == c.cls
    | [k, m] => k == c.cls && m == c.method
    | _ => false

/-- Whether `filter_tests` keeps a test (`pydev_runfiles.py` 662-703). The tests to match are empty
when files with their tests are given (312-321). -/
def keeps (fm : Str → Str → Bool) (cfg : Config) (c : Case) : Bool :=
  !(cfg.excludeTests.any fun p => fm c.method p) &&
  matchTests (if cfg.filesToTests ≠ [] then [] else cfg.tests) c &&
  (cfg.includeTests.isEmpty || cfg.includeTests.any fun p => fm c.method p)

mutual
/-- One turn of the loop of `filter_tests`: what is kept of an object (`pydev_runfiles.py` 656-703). -/
def filterTree (fm : Str → Str → Bool) (cfg : Config) : Tree → Option Tree
  | .suite ts =>
    match filterList fm cfg ts with
    | [] => none
    | l => some (.suite l)
  | .case c => if keeps fm cfg c then some (.case c) else none
  | .other => none
/-- The loop of `filter_tests` (`pydev_runfiles.py` 655-703). -/
def filterList (fm : Str → Str → Bool) (cfg : Config) : List Tree → List Tree
  | [] => []
  | t :: ts =>
    match filterTree fm cfg t with
    | some t' => t' :: filterList fm cfg ts
    | none => filterList fm cfg ts
end

/-- `filter_tests(test_objs)` (`pydev_runfiles.py` 634-703): nothing is filtered if there is nothing
to filter by. -/
def filterTests (fm : Str → Str → Bool) (cfg : Config) (ts : List Tree) : List Tree :=
  if cfg.includeTests = [] ∧ (if cfg.filesToTests ≠ [] then [] else cfg.tests) = [] ∧ cfg.excludeTests = [] then ts
  else filterList fm cfg ts

mutual
/-- `flatten_test_suite` (`pydev_runfiles_parallel.py` 14-20); `iter_tests`
(`pydev_runfiles.py` 705-716) gives the same list. -/
def flatten : Tree → List Case
  | .case c => [c]
  | .suite ts => flattenList ts
  | .other => []
/-- The loop over the tests of a suite (`pydev_runfiles_parallel.py` 16-17). -/
def flattenList : List Tree → List Case
  | [] => []
  | t :: ts => flatten t ++ flattenList ts
end

/-- What `run_tests` collects (`pydev_runfiles.py` 777-778). -/
def collect (fm : Str → Str → Bool) (cfg : Config) (mods : List Module) : List Tree :=
  filterTests fm cfg (findTests cfg mods)

end RunTests
