/-!
Model of the lines at which exceptions are ignored: the `@IgnoreException` comment in the source, the lines the client sent,
and the caches between them.

Source: `/repo/_pydevd_bundle/pydevd_frame.py` `IGNORE_EXCEPTION_TAG` (62), `handle_exception` (1206-1269) with the
module-level `filename_to_lines_where_exceptions_are_ignored` and `filename_to_stat_info` (1187-1188);
`/repo/_pydevd_bundle/pydevd_process_net_command.py` `cmd_ignore_thrown_exception_at` (708-732). The part of Python's
`linecache` that is used (`getline`, `checkcache`) is modelled with them.

Simplifications: files are numbers, and so is what `os.stat` says about one; dictionaries are functions; a query is atomic
with respect to edits of the file; source that `linecache` gets from a module loader is left out.
-/

namespace IgnoreExc

abbrev Canon := Nat
abbrev Abs := Nat

/-- The text after the first `#`, up to the end of the line. -/
def comment : List Char → List Char
  | [] => []
  | c :: cs => if c = '#' then cs.takeWhile (· ≠ '\n') else comment cs

def contains (pat : List Char) : List Char → Bool
  | [] => pat.isEmpty
  | c :: cs => pat.isPrefixOf (c :: cs) || contains pat cs

/-- `IGNORE_EXCEPTION_TAG.match(line)` (62, 1267): `[^#]*#.*@IgnoreException` -/
def tagged (line : List Char) : Bool := contains "@IgnoreException".toList (comment line)

/-- What is on the disk: the version of each file that exists. `os.stat` tells versions apart. -/
abbrev Disk := Canon → Option Nat

structure State where
  disk : Disk
  /-- the next version; an edit never gives a file an earlier version's size and time -/
  next : Nat
  /-- `linecache.cache`: the version whose lines are held -/
  linecache : Abs → Option Nat
  /-- `filename_to_stat_info` (module level) -/
  statInfo : Abs → Option Nat
  /-- `filename_to_lines_where_exceptions_are_ignored` (module level) -/
  lines : Canon → Nat → Option Bool
  /-- `py_db.filename_to_lines_where_exceptions_are_ignored` -/
  user : Canon → Nat → Bool

/-- Fixed for a run: which file an absolute name stands for, and the text of each version. -/
structure World where
  canon : Abs → Canon
  text : Canon → Nat → Nat → List Char

def set {α : Type} (f : Nat → α) (k : Nat) (v : α) : Nat → α := fun x => if x = k then v else f x

/-- `linecache.checkcache(absolute_filename)`: drop the entry if the file is gone or different. -/
def checkcache (w : World) (s : State) (a : Abs) : State :=
  match s.linecache a with
  | none => s
  | some v => if s.disk (w.canon a) = some v then s else { s with linecache := set s.linecache a none }

/-- `linecache.getline(absolute_filename, n)`: from the cache, else from the disk; `''` for a file that does not exist. -/
def getline (w : World) (s : State) (a : Abs) (n : Nat) : State × List Char :=
  match s.linecache a with
  | some v => (s, w.text (w.canon a) v n)
  | none =>
    match s.disk (w.canon a) with
    | none => (s, [])
    | some v => ({ s with linecache := set s.linecache a (some v) }, w.text (w.canon a) v n)

/-- The part of a query that looks at the file (1231-1243). -/
def refresh (w : World) (s : State) (a : Abs) : State :=
  if s.statInfo a = s.disk (w.canon a) then s
  else checkcache w { s with statInfo := set s.statInfo a (s.disk (w.canon a)), lines := set s.lines (w.canon a) (fun _ => none) } a

/-- One round of the loop (1221-1269): is this line of this file marked? -/
def isIgnored (w : World) (s : State) (a : Abs) (n : Nat) : State × Bool :=
  let c := w.canon a
  let s := refresh w s a
  -- `merged`: what the client sent overrides what was found
  match (if s.user c n then some true else s.lines c n) with
  | some b => (s, b)
  | none =>
    let r := getline w s a n
    let b := tagged r.2
    ({ r.1 with lines := set r.1.lines c (set (r.1.lines c) n (some b)) }, b)

/-- The two checks of `handle_exception` (1220-1269): the line where the exception is and the line where it was raised.
`true`: it returns without stopping. -/
def suppressed (w : World) (on : Bool) (s : State) (here raised : Abs × Nat) : State × Bool :=
  if on then
    let r := isIgnored w s here.1 here.2
    if r.2 then r else isIgnored w r.1 raised.1 raised.2
  else (s, false)

/-- The entries of the command (715-732): `none` is one that raises (no single `|`, not a number). -/
def addUser (w : World) : State → List (Option (Abs × Nat)) → State
  | s, [] => s
  | s, none :: _ => s
  | s, some (a, n) :: es =>
    let c := w.canon a
    addUser w (if (s.disk c).isSome then { s with user := set s.user c (set (s.user c) n true) } else s) es

/-- `cmd_ignore_thrown_exception_at` (708-732) -/
def cmdIgnore (w : World) (s : State) (replace : Bool) (es : List (Option (Abs × Nat))) : State :=
  addUser w (if replace then { s with user := fun _ _ => false } else s) es

/-- What can happen, in any order. -/
inductive Action where
  /-- the file is written -/
  | write (c : Canon)
  | delete (c : Canon)
  /-- other code in the process looks at the source (tracebacks) -/
  | otherGetline (a : Abs) (n : Nat)
  | otherCheckcache (a : Abs)
  | clearcache
  /-- an exception is about to be shown -/
  | exception (on : Bool) (here raised : Abs × Nat)
  | command (replace : Bool) (es : List (Option (Abs × Nat)))

def step (w : World) (s : State) : Action → State
  | .write c => { s with disk := set s.disk c (some s.next), next := s.next + 1 }
  | .delete c => { s with disk := set s.disk c none }
  | .otherGetline a n => (getline w s a n).1
  | .otherCheckcache a => checkcache w s a
  | .clearcache => { s with linecache := fun _ => none }
  | .exception on h r => (suppressed w on s h r).1
  | .command rep es => cmdIgnore w s rep es

def run (w : World) : State → List Action → State
  | s, [] => s
  | s, a :: as => run w (step w s a) as

/-- At the start of the process: any files, nothing cached (`linecache` may already hold current lines). -/
def start (disk : Disk) (next : Nat) : State :=
  { disk, next, linecache := fun _ => none, statInfo := fun _ => none, lines := fun _ _ => none, user := fun _ _ => false }

end IgnoreExc
