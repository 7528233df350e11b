import Verif.Common.Dict
import Verif.Common.Lit
/-!
Running tests with pytest: which tests run, and what the client is told of each.

Code modelled: `runfiles.py` `main` (100-138, the tests given for files, for pytest); `_pydev_runfiles/pydev_runfiles_pytest2.py` `_load_filters` (20-36),
`pytest_collection_modifyitems` (97-160), `_get_error_contents_from_report` and `append_strings` (174-211, strings of one type),
`pytest_runtest_logreport` (214-271).

Simplifications: `canonical_normalized_path` and `Path(…).resolve()` are given functions of paths. The way the filter takes through the environment is
left out (it is pickled). The time a test took is left out. Strings are all of one type.
-/

namespace Pytest

abbrev Str := List Char

/-- A test pytest collected: `item.parent.fspath`, `item.name`, `item.cls.__name__` -/
structure Item where
  path : Str
  name : Str
  cls : Option Str
  deriving DecidableEq, Repr

abbrev Filter := List (Str × List Str)

/-- `d.update(l)` -/
def update (d l : Filter) : Filter := l.foldl (fun d e => Py.Dict.set d e.1 e.2) d

/-- The filter `runfiles.py` makes of the tests given for each file (108-126): under the file's name and under its canonical name -/
def build (canon : Str → Str) (given : List (Str × List Str)) : Filter :=
  given.foldl (fun d e => Py.Dict.set (Py.Dict.set d e.1 e.2) (canon e.1) e.2) []

/-- `_load_filters` (20-36): each also under the canonical name of what it resolves to -/
def load (canon resolve : Str → Str) (d : Filter) : Filter :=
  update d (update [] (d.map fun e => (canon (resolve e.1), e.2)))

/-- `name_without_parametrize` (115-118) -/
def base (name : Str) : Option Str :=
  match name.findIdx? (· == '[') with
  | some i => if 0 < i then some (name.take i) else none
  | none => none

/-- Does one of the tests given fit the item (122-152)? -/
def fits (item : Item) (test : Str) : Bool :=
  if test == item.name then true
  else if (match base item.name with | some b => test == b | none => false) then true
  else match item.cls with
    | some c =>
      if test == c ++ '.' :: item.name then true
      else if (match base item.name with | some b => test == c ++ '.' :: b | none => false) then true
      else c == test
    | none => false

/-- `pytest_collection_modifyitems` (97-160): the items that are run -/
def modifyItems (canon : Str → Str) (filter : Filter) (items : List Item) : List Item :=
  if filter.isEmpty then items
  else items.filter fun item =>
    match Py.Dict.get filter (canon item.path) with
    | none => false
    | some tests => tests.any (fits item)

/-! ### Reports -/

inductive When where
  | setup | call | teardown
  deriving DecidableEq, Repr

inductive Outcome where
  | passed | failed | skipped
  deriving DecidableEq, Repr

inductive Status where
  | ok | skip | error | fail
  deriving DecidableEq, Repr

/-- What pytest reports of a part of a test. `exc` is what the terminal would show for `longrepr`, stripped. -/
structure Report where
  test : Str
  when_ : When
  outcome : Outcome
  wasxfail : Bool := false
  out : Str := []
  err : Str := []
  sections : List (Str × Str) := []
  exc : Str := []
  deriving DecidableEq, Repr

/-- `report_outcome` after 222-225 -/
def outcomeOf (r : Report) : Outcome := if r.wasxfail && r.outcome != .skipped then .passed else r.outcome

/-- The status, if there is something to tell (227-246) -/
def status (r : Report) : Option Status :=
  match outcomeOf r with
  | .passed => if r.when_ == .setup || r.when_ == .teardown then none else some .ok
  | .skipped => some .skip
  | .failed => if r.when_ == .setup || r.when_ == .teardown then some .error else some .fail

/-- The names of sections with errors (253) -/
def errSections : List Str := [c!"err", c!"stderr", c!"Captured stderr call"]

/-- The loop over the sections (251-256): `captured_output` and `error_contents`. Note that a section with output is put after the errors, in place of
the output there was (256). -/
def contents (out err : Str) : List (Str × Str) → Str × Str
  | [] => (out, err)
  | (type, value) :: rest =>
    if value.isEmpty then contents out err rest
    else if errSections.contains type then contents out (err ++ value) rest
    else contents (err ++ value) err rest

/-- What is between the errors and the exception (266) -/
def ruler : Str := c!"----------------------------- Exceptions -----------------------------\n"

structure Told where
  status : Status
  test : Str
  out : Str
  err : Str
  deriving DecidableEq, Repr

/-- `pytest_runtest_logreport` (214-271); `node`: a process of xdist -/
def logreport (node : Bool) (r : Report) : Option Told :=
  if node then none
  else
    match status r with
    | none => none
    | some st =>
      let c := contents r.out r.err r.sections
      let err :=
        if outcomeOf r != .skipped && !r.exc.isEmpty then
          (if c.2.isEmpty then c.2 else c.2 ++ ruler) ++ r.exc
        else c.2
      some ⟨st, r.test, c.1, err⟩

end Pytest
