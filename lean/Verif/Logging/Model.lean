import Verif.Common.Dict
import Verif.Common.PyInt
import Verif.Common.Str
import Verif.Common.Lit
/-!
Model of the log of the debugger: `pydevd.log_to`, the files of the processes, and temporary settings.

Source: `/repo/_pydev_bundle/pydev_log.py` (1-270), and `_on_forked_process` of `/repo/_pydev_bundle/pydev_monkey.py` (230-232).

Simplifications: an operation is one step (the two initializations that may race are made under a lock, 30-42); a target is a
directory and a base name; whether a file can be opened is an input; writing does not fail and messages are formatted; the
name of the open file, kept beside the stream, is left out; pids are not used again.
-/

namespace Logging

abbrev Str := List Char

/-- the file given to `log_to`: `os.path.dirname`, `os.path.basename` -/
structure Target where
  dir : Str
  base : Str
deriving DecidableEq

/-- `os.path.splitext(basename)` -/
def splitext (b : Str) : Str × Str :=
  let ext := (b.reverse.takeWhile (· ≠ '.')).reverse
  match (b.reverse.dropWhile (· ≠ '.')) with
  | [] => (b, [])
  | _ :: name => if name.any (· ≠ '.') then (name.reverse, '.' :: ext) else (b, [])

/-- `_compute_filename_with_pid` (63-75): the directory and the name of the file -/
def filenameWithPid (t : Target) (pid : Nat) : Target :=
  ⟨t.dir, (splitext t.base).1 ++ '.' :: Py.natStr pid ++ (splitext t.base).2⟩

/-- `list_log_files` (95-104); `ls` is what `os.listdir` gives for a directory, `none` if it is none (`isdir("")` is false) -/
def listLogFiles (ls : Str → Option (List Str)) (t : Target) : List Target :=
  match (if t.dir = [] then none else ls t.dir) with
  | none => []
  | some fs =>
    (fs.filter fun f => Py.startsWith f (splitext t.base).1 && Py.endsWith f (splitext t.base).2).map fun f => ⟨t.dir, f⟩

/-- where messages are written: `NULL`, `sys.stderr`, a file that is open, or a stream given to `log_context` -/
inductive Stream
  | null
  | stderr
  | file (t : Target)
  | user (n : Nat)
deriving DecidableEq

/-- the settings that `log_context` saves: `DEBUG_TRACE_LEVEL`, `PYDEVD_DEBUG_FILE`, `_debug_stream`,
`_debug_stream_initialized` -/
structure Settings where
  level : Int := 0
  target : Option Target := none
  stream : Stream := .null
  init : Bool := false
deriving DecidableEq

/-- the globals of a process: the settings, those saved by the contexts it is in, `_warn_once_map` -/
structure Proc where
  cur : Settings := {}
  saved : List Settings := []
  once : List Str := []

structure World where
  procs : List (Nat × Proc)
  disk : Target → List Str
  stderr : List Str
  users : Nat → List Str

def updDisk (w : World) (t : Target) (c : List Str) : World :=
  { w with disk := fun x => if x = t then c else w.disk x }

def setProc (w : World) (p : Nat) (g : Proc) : World := { w with procs := Py.Dict.set w.procs p g }

/-- the part of `initialize_debug_stream` under the lock (43-60): opening truncates the file -/
def openStream (canOpen : Target → Nat → Bool) (w : World) (p : Nat) (s : Settings) : World × Settings :=
  match s.target with
  | none => (w, { s with stream := .stderr, init := true })
  | some t =>
    if canOpen t p then (updDisk w (filenameWithPid t p) [], { s with stream := .file (filenameWithPid t p), init := true })
    else (w, { s with stream := .stderr, init := true })

/-- `initialize_debug_stream()` (16-42) -/
def initStream (canOpen : Target → Nat → Bool) (w : World) (p : Nat) (s : Settings) : World × Settings :=
  if s.init then (w, s) else openStream canOpen w p s

/-- `initialize_debug_stream(reinitialize=True)` (16-42) -/
def reinitStream (canOpen : Target → Nat → Bool) (w : World) (p : Nat) (s : Settings) : World × Settings :=
  if s.init then openStream canOpen w p s else (w, s)

/-- `_debug_stream.write(msg)` -/
def write (w : World) (s : Stream) (msg : Str) : World :=
  match s with
  | .null => w
  | .stderr => { w with stderr := w.stderr ++ [msg] }
  | .file t => updDisk w t (w.disk t ++ [msg])
  | .user n => { w with users := fun x => if x = n then w.users n ++ [msg] else w.users x }

/-- `_pydevd_log` (141-198) -/
def pydevdLog (canOpen : Target → Nat → Bool) (w : World) (p : Nat) (g : Proc) (level : Int) (msg : Str) : World :=
  if level ≤ g.cur.level then
    let (w1, s1) := initStream canOpen w p g.cur
    write (setProc w1 p { g with cur := s1 }) s1.stream msg
  else w

inductive Op
  /-- `verbose`, `debug`, `info`, `critical` (212-230) -/
  | log (p : Nat) (level : Int) (msg : Str)
  /-- `error_once` (244-255) -/
  | once (p : Nat) (msg : Str)
  /-- `log_to` (78-92) -/
  | logTo (p : Nat) (t : Option Target) (level : Int)
  /-- `log_context` (108-129): the beginning and the end -/
  | enter (p : Nat) (level : Int) (stream : Nat)
  | exit (p : Nat)
  /-- a fork and `_on_forked_process` in the child -/
  | fork (p q : Nat)

/-- one operation; a process that does not exist does nothing -/
def step (canOpen : Target → Nat → Bool) (w : World) : Op → World
  | .log p level msg =>
    match Py.Dict.get w.procs p with
    | none => w
    | some g => pydevdLog canOpen w p g level msg
  | .once p msg =>
    match Py.Dict.get w.procs p with
    | none => w
    | some g =>
      if msg ∈ g.once then w
      else
        let g' := { g with once := msg :: g.once }
        pydevdLog canOpen (setProc w p g') p g' 0 msg
  | .logTo p t level =>
    match Py.Dict.get w.procs p with
    | none => w
    | some g =>
      let s := { g.cur with level := level }
      let s := if s.target ≠ t then { s with stream := .null, target := t, init := false } else s
      setProc w p { g with cur := s }
  | .enter p level n =>
    match Py.Dict.get w.procs p with
    | none => w
    | some g =>
      setProc w p { g with cur := { g.cur with level := level, stream := .user n, init := true }, saved := g.cur :: g.saved }
  | .exit p =>
    match Py.Dict.get w.procs p with
    | none => w
    | some g =>
      match g.saved with
      | [] => w
      | s :: ss => setProc w p { g with cur := s, saved := ss }
  | .fork p q =>
    match Py.Dict.get w.procs p with
    | none => w
    | some g =>
      let (w1, s1) := reinitStream canOpen w q g.cur
      setProc w1 q { g with cur := s1 }

def run (canOpen : Target → Nat → Bool) (w : World) (ops : List Op) : World := ops.foldl (step canOpen) w

/-- a process that has just imported the debugger, with the level and file of the environment -/
def start (p : Nat) (level : Int) (t : Option Target) (disk : Target → List Str) : World :=
  { procs := [(p, { cur := { level := level, target := t } })], disk := disk, stderr := [], users := fun _ => [] }

end Logging
