import Verif.PatchArgs.Model
/-!
What a Python command line is: `python [flags] [-c code | -m module | script | -] [arguments]`.
-/

namespace PatchArgs.Spec

/-- a path without the quotes around it -/
def bare (path : Str) : Str :=
  if path.getLast? = some '\'' ∨ path.getLast? = some '"' then path.tail.dropLast else path

/-- the name of a program's file, the part after the last `/`, has `python`, `jython` or `pypy` in it, whatever the case -/
def RunsPython (path : Str) : Prop :=
  ∃ dir base, bare path = dir ++ base ∧ (dir = [] ∨ dir.getLast? = some '/') ∧ '/' ∉ base ∧
  ∃ name ∈ [c!"python", c!"jython", c!"pypy"], name <:+: base.map Char.toLower

/-- letters of flags that take no value -/
def Plain (s : Str) : Prop := ∀ c ∈ s, c ∉ ['W', 'X', 'Q', 'c', 'm']

/-- the flags whose value is in the next argument -/
def longFlags : List Str := [c!"--check-hash-based-pycs", c!"--jit"]

/-- an argument that is not one of them -/
def Short (arg : Str) : Prop := ∀ n ∈ longFlags, ¬ n <+: arg

/-- a flag of the interpreter, with its value -/
inductive Flag : List Str → Prop
  /-- `-O`, `-Bs`, `--version` -/
  | plain (letters : Str) (h : Plain letters) (hne : letters ≠ []) (hs : Short ('-' :: letters)) : Flag ['-' :: letters]
  /-- `-Wignore`, `-OXdev` -/
  | joined (letters : Str) (c : Char) (value : Str) (h : Plain letters) (hc : c ∈ ['W', 'X', 'Q']) (hne : value ≠ [])
      (hs : Short ('-' :: (letters ++ c :: value))) : Flag ['-' :: (letters ++ c :: value)]
  /-- `-W ignore`, `-OX dev` -/
  | separate (letters : Str) (c : Char) (value : Str) (h : Plain letters) (hc : c ∈ ['W', 'X', 'Q'])
      (hs : Short ('-' :: (letters ++ [c]))) : Flag ['-' :: (letters ++ [c]), value]
  /-- `--check-hash-based-pycs always` -/
  | long (name value : Str) (h : name ∈ longFlags) : Flag [name, value]
  /-- `--check-hash-based-pycs=always` -/
  | longJoined (name value : Str) (h : name ∈ longFlags) (hne : value ≠ []) : Flag [name ++ value]

/-- a sequence of flags -/
inductive Flags : List Str → Prop
  | nil : Flags []
  | cons (f fs : List Str) (h : Flag f) (hs : Flags fs) : Flags (f ++ fs)

/-- `args` is `-lettersc value` or `-letterscvalue`: `-m module` and `-c code`, possibly with other letters -/
inductive Valued (c : Char) (letters value : Str) : List Str → Prop
  | separate (h : Plain letters) (hs : Short ('-' :: (letters ++ [c]))) : Valued c letters value ['-' :: (letters ++ [c]), value]
  | joined (h : Plain letters) (hs : Short ('-' :: (letters ++ c :: value))) (hne : value ≠ []) :
      Valued c letters value ['-' :: (letters ++ c :: value)]

/-- a last argument whose value is missing -/
inductive Incomplete : Str → Prop
  | short (letters : Str) (c : Char) (h : Plain letters) (hc : c ∈ ['W', 'X', 'Q', 'c', 'm']) (hs : Short ('-' :: (letters ++ [c]))) :
      Incomplete ('-' :: (letters ++ [c]))
  | long (name : Str) (h : name ∈ longFlags) : Incomplete name

/-- what follows the flags, when nothing is run that the debugger can be put into -/
inductive NoTarget : List Str → Prop
  /-- the interactive interpreter -/
  | none : NoTarget []
  /-- the program is read from the standard input -/
  | stdin (args : List Str) : NoTarget (c!"-" :: args)
  /-- the debugger is already there -/
  | managed (program : Str) (args : List Str) (h : program.head? ≠ some '-') (hm : c!"pydevd.py" <:+ program) : NoTarget (program :: args)
  /-- an error -/
  | incomplete (arg : Str) (h : Incomplete arg) : NoTarget [arg]

/-- what follows the flags -/
inductive Target : List Str → Prop
  | script (program : Str) (args : List Str) (h : program.head? ≠ some '-') (hm : ¬ c!"pydevd.py" <:+ program) : Target (program :: args)
  | module (letters name : Str) (m args : List Str) (h : Valued 'm' letters name m) : Target (m ++ args)
  | code (letters code : Str) (c args : List Str) (h : Valued 'c' letters code c) : Target (c ++ args)

/-- What is run after the text that attaches the debugger: of `after`, the code after the imports from `__future__`, all but the spaces,
semicolons, parentheses and newlines it begins with, and before it newlines, so that the line numbers stay what they were. -/
def Rest (after rest : Str) : Prop :=
  ∃ (gap : Str) (n : Nat) (tail : Str), after = gap ++ tail ∧ (∀ c ∈ gap, c ∈ [' ', '\t', ';', ')', '\n']) ∧
    (∀ c, tail.head? = some c → c ∉ [' ', '\t', ';', ')', '\n']) ∧ rest = List.replicate n '\n' ++ tail

end PatchArgs.Spec
