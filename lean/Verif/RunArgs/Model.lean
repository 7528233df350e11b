import Verif.Common.Str
import Verif.Common.PyInt
import Verif.Common.Split
import Verif.Common.Dict
/-!
Model of the command line of the test runner.

Source: `/repo/runfiles.py` `main` (14-28, the arguments for another framework); `/repo/_pydev_bundle/_pydev_getopt.py`
`gnu_getopt` (17-60), `do_longs` (63-80), `long_has_args` (86-107), `do_shorts` (110-122), `short_has_arg` (125-129);
`/repo/_pydev_runfiles/pydev_runfiles.py` `parse_cmdline` (104-291).

Simplifications: the texts of errors are left out (any exception is `none`); the lines of a configuration file (read,
stripped and split) and the entries of the variable `PYDEV_RUNFILES_FILTER_TESTS` (parsed) are inputs; `int` and `strip` are
those of ASCII text.
-/

namespace RunArgs

abbrev Str := List Char

/-- `long_has_args` (86-107): whether the option has an argument, and its full name -/
def longHasArgs (opt : Str) (longopts : List Str) : Option (Bool × Str) :=
  let possibilities := longopts.filter fun o => Py.startsWith o opt
  if possibilities = [] then none
  else if opt ∈ possibilities then some (false, opt)
  else if opt ++ ['='] ∈ possibilities then some (true, opt)
  else match possibilities with
    | [u] => if Py.endsWith u ['='] then some (true, u.dropLast) else some (false, u)
    | _ => none

/-- `opt.index("=")` and the two parts (64-69) -/
def cutAt : Str → Str × Option Str
  | [] => ([], none)
  | c :: cs => if c = '=' then ([], some cs) else ((cutAt cs).map (c :: ·) id)

/-- `do_longs` (63-80): the option, its value, and the arguments that are left -/
def doLongs (opt : Str) (longopts : List Str) (args : List Str) : Option ((Str × Str) × List Str) :=
  let (name, optarg) := cutAt opt
  match longHasArgs name longopts with
  | none => none
  | some (true, full) =>
    match optarg, args with
    | none, [] => none
    | none, a :: rest => some ((c!"--" ++ full, a), rest)
    | some v, args => some ((c!"--" ++ full, v), args)
  | some (false, full) =>
    match optarg with
    | none => some ((c!"--" ++ full, []), args)
    | some v => if v ≠ [] then none else some ((c!"--" ++ full, []), args)

/-- `short_has_arg` (125-129) -/
def shortHasArg (opt : Char) : Str → Option Bool
  | [] => none
  | c :: cs => if opt = c ∧ c ≠ ':' then some (Py.startsWith cs [':']) else shortHasArg opt cs

/-- `do_shorts` (110-122) -/
def doShorts (shortopts : Str) : Str → List Str → Option (List (Str × Str) × List Str)
  | [], args => some ([], args)
  | o :: rest, args =>
    match shortHasArg o shortopts with
    | none => none
    | some true =>
      if rest = [] then
        match args with
        | [] => none
        | a :: args => some ([(['-', o], a)], args)
      else some ([(['-', o], rest)], args)
    | some false => (doShorts shortopts rest args).map fun (os, args) => ((['-', o], []) :: os, args)

theorem doLongs_length {opt : Str} {longopts args rest : List Str} {o : Str × Str} (h : doLongs opt longopts args = some (o, rest)) :
    rest.length ≤ args.length := by
  unfold doLongs at h
  dsimp only at h
  repeat' split at h
  all_goals cases h
  all_goals simp

theorem doShorts_length {shortopts opt : Str} {args rest : List Str} {os : List (Str × Str)} (h : doShorts shortopts opt args = some (os, rest)) :
    rest.length ≤ args.length := by
  induction opt generalizing os rest with
  | nil => cases h; exact Nat.le_refl _
  | cons o opt ih =>
    simp only [doShorts] at h
    split at h
    · cases h
    · split at h
      · split at h
        · cases h
        · cases h; simp
      · cases h; exact Nat.le_refl _
    · cases hd : doShorts shortopts opt args with
      | none => rw [hd] at h; cases h
      | some x =>
        rw [hd] at h
        cases h
        exact ih hd

/-- `gnu_getopt` (17-60), without the `+` mode and with a list of long options -/
def getopt (shortopts : Str) (longopts : List Str) : List Str → Option (List (Str × Str) × List Str)
  | [] => some ([], [])
  | a :: args =>
    if a = c!"--" then some ([], args)
    else if a.take 2 = c!"--" then
      match _h : doLongs (a.drop 2) longopts args with
      | none => none
      | some (o, rest) => (getopt shortopts longopts rest).map fun (os, fs) => (o :: os, fs)
    else if a.take 1 = c!"-" then
      match _h : doShorts shortopts (a.drop 1) args with
      | none => none
      | some (os, rest) => (getopt shortopts longopts rest).map fun (os', fs) => (os ++ os', fs)
    else (getopt shortopts longopts args).map fun (os, fs) => (os, a :: fs)
termination_by args => args.length
decreasing_by
  · have := doLongs_length _h; simp; omega
  · have := doShorts_length _h; simp; omega
  · simp

/-- the long options (`pydev_runfiles.py` 145-159) -/
def longopts : List Str :=
  [c!"verbosity=", c!"tests=", c!"port=", c!"config_file=", c!"jobs=", c!"split_jobs=", c!"include_tests=", c!"include_files=",
   c!"exclude_files=", c!"exclude_tests=", c!"coverage_output_dir=", c!"coverage_include=", c!"django="]

/-- what `parse_cmdline` collects (126-138); `verbosity` is still text once given -/
structure Config where
  dirs : List Str := []
  verbosity : Option Str := none
  includeTests : Option (List Str) := none
  tests : Option (List Str) := none
  port : Option Int := none
  jobs : Int := 1
  splitJobs : Str := c!"tests"
  filesToTests : List (Str × List Str) := []
  coverageOutputDir : Option Str := none
  coverageInclude : Option Str := none
  excludeFiles : Option (List Str) := none
  excludeTests : Option (List Str) := none
  includeFiles : Option (List Str) := none
  django : Bool := false
  /-- `int(verbosity)` (265) -/
  level : Int := 2

/-- the configuration files there are: their lines (210-217), or none if the file does not exist; and the entries of the
environment variable (229-232) -/
structure World where
  lines : Str → Option (List Str)
  env : List (Str × Str) := []

/-- `files_to_tests[file].append(test)` or a new list (222-225, 233-236) -/
def addTest (d : List (Str × List Str)) (file test : Str) : List (Str × List Str) :=
  match Py.Dict.get d file with
  | some l => Py.Dict.set d file (l ++ [test])
  | none => Py.Dict.set d file [test]

/-- the lines of a configuration file (217-225) -/
def addLines (d : List (Str × List Str)) (lines : List Str) : List (Str × List Str) :=
  lines.foldl (fun d l => match Py.split1 '|' l with | [file, test] => addTest d file test | _ => d) d

/-- one round of the loop over the options (162-227) -/
def applyOpt (w : World) (c : Config) (opt value : Str) : Option Config :=
  if opt = c!"-v" ∨ opt = c!"--verbosity" then some { c with verbosity := some value }
  else if opt = c!"-p" ∨ opt = c!"--port" then (Py.parseInt value).map fun n => { c with port := some n }
  else if opt = c!"-j" ∨ opt = c!"--jobs" then (Py.parseInt value).map fun n => { c with jobs := n }
  else if opt = c!"-s" ∨ opt = c!"--split_jobs" then
    if value = c!"module" ∨ value = c!"tests" then some { c with splitJobs := value } else none
  else if opt = c!"-d" ∨ opt = c!"--coverage_output_dir" then some { c with coverageOutputDir := some (Py.strip value) }
  else if opt = c!"-i" ∨ opt = c!"--coverage_include" then some { c with coverageInclude := some (Py.strip value) }
  else if opt = c!"-I" ∨ opt = c!"--include_tests" then some { c with includeTests := some (Py.split1 ',' value) }
  else if opt = c!"-E" ∨ opt = c!"--exclude_files" then some { c with excludeFiles := some (Py.split1 ',' value) }
  else if opt = c!"-F" ∨ opt = c!"--include_files" then some { c with includeFiles := some (Py.split1 ',' value) }
  else if opt = c!"-e" ∨ opt = c!"--exclude_tests" then some { c with excludeTests := some (Py.split1 ',' value) }
  else if opt = c!"-t" ∨ opt = c!"--tests" then some { c with tests := some (Py.split1 ',' value) }
  else if opt = c!"--django" then some { c with django := decide (Py.strip value ∈ [c!"true", c!"True", c!"1"]) }
  else if opt = c!"-c" ∨ opt = c!"--config_file" then
    match w.lines (Py.strip value) with
    | some ls => some { c with filesToTests := addLines c.filesToTests ls }
    | none => some c
  else some c

def applyOpts (w : World) : Config → List (Str × Str) → Option Config
  | c, [] => some c
  | c, (o, v) :: os => match applyOpt w c o v with | none => none | some c => applyOpts w c os

/-- `int(verbosity)` (265); 2 if it was not given -/
def levelOf : Option Str → Option Int
  | none => some 2
  | some v => Py.parseInt v

/-- `parse_cmdline(["…"] + args)` (104-291); `none` is an exception -/
def parseCmdline (w : World) (args : List Str) : Option Config :=
  match getopt [] longopts args with
  | none => none
  | some (opts, dirs) =>
    match applyOpts w {} opts with
    | none => none
    | some c =>
      let c := { c with filesToTests := w.env.foldl (fun d (p : Str × Str) => addTest d p.1 p.2) c.filesToTests }
      let c := { c with dirs := dirs.flatMap fun d => if '|' ∈ d then Py.split1 '|' d else [d] }
      match levelOf c.verbosity with
      | none => none
      | some n =>
        let c := { c with level := n }
        match c.tests with
        | some (_ :: _) => some { c with excludeFiles := none, excludeTests := none, includeFiles := none }
        | _ => some c

/-- the arguments for the runner, and for another framework (`runfiles.py` 14-28) -/
def splitArgs : List Str → List Str × Option (Str × List Str)
  | [] => ([], none)
  | a :: args =>
    if a = c!"--nose-params" ∨ a = c!"--py-test-params" then ([], some (a, args))
    else ((splitArgs args).map (a :: ·) id)

end RunArgs
