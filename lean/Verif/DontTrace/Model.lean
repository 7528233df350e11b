import Verif.Common.Str
import Verif.Common.Dict
/-!
# Functions tagged not to be traced

Models `_pydevd_bundle/pydevd_dont_trace.py`: which functions are skipped because of a `@DontTrace`
comment, and the cache of that.

Simplified: `linecache`, which is cleared along with the cache, is left out: lines are read from the
file when they are not in the cache. What counts as white space in a regular expression is a
parameter.
-/
namespace DontTrace

abbrev Line := List Char

/-- `DONT_TRACE_TAG` (20) -/
def tag : Line := ['@', 'D', 'o', 'n', 't', 'T', 'r', 'a', 'c', 'e']

/-- `RE_DECORATOR.match` (24): white space, then `@`. -/
def isDeco (sp : Char → Bool) : Line → Bool
  | [] => false
  | c :: cs => c == '@' || (sp c && isDeco sp cs)

/-- The test of a line (50-53): the tag is in what comes from the first `#` on. -/
def hasTag (line : Line) : Bool :=
  match Py.find ['#'] line with
  | none => false
  | some j => Py.isIn tag (line.drop j)

/-- The loop upwards (57-63) from line `k` on; the number is `k + 1`. -/
def markUp (sp : Char → Bool) (lines : List Line) : Nat → List Nat → List Nat
  | 0, acc => acc
  | k + 1, acc => if isDeco sp (lines.getD k []) then markUp sp lines k (k :: acc) else acc

/-- The loop downwards (65-71). It goes on up to the line after the last: asking for that raises. -/
def markDown (sp : Char → Bool) : List Line → Nat → List Nat → Option (List Nat)
  | [], _, _ => none
  | l :: ls, k, acc => if isDeco sp l then markDown sp ls (k + 1) (k :: acc) else some acc

/-- The loop over the lines (49-71): those to be ignored, or `none` if it raises. -/
def scan (sp : Char → Bool) (lines : List Line) : List Line → Nat → List Nat → Option (List Nat)
  | [], _, acc => some acc
  | l :: ls, i, acc =>
    if hasTag l then
      match markDown sp ls (i + 1) (markUp sp lines i (i :: acc)) with
      | none => none
      | some acc => scan sp lines ls (i + 1) acc
    else scan sp lines ls (i + 1) acc

/-- The file contents, and `_filename_to_ignored_lines` (28). -/
structure State where
  disk : Nat → List Line
  cache : List (Nat × List Nat)

/-- The answer (75-79); `co_firstlineno` starts at one. -/
def answer (ignored : List Nat) (first : Nat) : Bool :=
  !((2 ≤ first && ignored.contains (first - 2)) || (1 ≤ first && ignored.contains (first - 1)))

/-- `default_should_trace_hook` (31-79): whether to trace the function which begins at line `first` of
the file; `none` if it raises. -/
def shouldTrace (sp : Char → Bool) (s : State) (file first : Nat) : State × Option Bool :=
  match Py.Dict.get s.cache file with
  | some ignored => (s, some (answer ignored first))
  | none =>
    match scan sp (s.disk file) (s.disk file) 0 [] with
    | none => (s, none)
    | some ignored => ({ s with cache := Py.Dict.set s.cache file ignored }, some (answer ignored first))

/-- What happens: a function is asked about, a file is edited, code is reloaded
(`clear_trace_filter_cache`, 85-102). -/
inductive Act where
  | ask (file first : Nat)
  | edit (file : Nat) (lines : List Line)
  | clear

def step (sp : Char → Bool) (s : State) : Act → State × Option (Option Bool)
  | .ask f n => ((shouldTrace sp s f n).1, some (shouldTrace sp s f n).2)
  | .edit f ls => ({ s with disk := fun g => if g = f then ls else s.disk g }, none)
  | .clear => ({ s with cache := [] }, none)

def run (sp : Char → Bool) (s : State) : List Act → State
  | [] => s
  | a :: as => run sp (step sp s a).1 as

end DontTrace
