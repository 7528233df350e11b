import Verif.Process.Model
/-!
# Forking

Models what happens when a process with the debugger forks:
`/repo/_pydev_bundle/pydev_monkey.py` `_on_forked_process` (230-241), `create_fork` (933-971);
`/repo/pydevd.py` `dispatch` (3274-3290), `settrace_forked` (3293-3346);
`/repo/_pydevd_bundle/pydevd_constants.py` `ForkSafeLock`, `after_fork` (451-509).

Any number of processes, each with any number of threads and locks; each action is one of a thread of a process.

Simplified:
* a connection is a number; the client accepts every one, and `dispatch` gives the port of the setup;
* of the setup of the debugger there are the access tokens (as one), the parent's id and whether there is a port;
* the locks are the ones made by `ForkSafeLock`, by their identity; the locks of a debugger itself go with it;
* the trace function, the log and the monitoring state of threads, which are reset as well, are left out.
-/
namespace Process.Fork
open Process

/-- A process. -/
structure Proc where
  /-- the connection of the global debugger, if there is one -/
  dbg : Option Nat := none
  /-- the access tokens (3312-3313) -/
  tokens : Nat := 0
  /-- `setup["ppid"]` -/
  ppid : Nat := 0
  /-- `setup["port"]` is not `None` -/
  port : Bool := true
  /-- the locks there are, with the thread that holds each -/
  live : List (Nat × Option Nat) := []
  /-- `_fork_safe_locks`: references that do not keep a lock alive -/
  refs : List Nat := []
  /-- `_arg_patch.apply_arg_patching` by thread -/
  skip : Nat → Option Bool := fun _ => none

/-- All processes, the number of the next one, the number of the next connection, and what was sent on connections. -/
structure Sys where
  procs : Nat → Option Proc
  next : Nat
  conn : Nat
  sent : List (Nat × Msg) := []

/-- Where `os.fork` is called: by the program, or from `subprocess._execute_child`, with an `executable` or not, which is
Python or not (940-953). -/
inductive Caller where
  | program
  | popen (executable : Option Bool)
  deriving DecidableEq, Repr

/-- What a thread of a process does. -/
inductive Act where
  /-- makes a lock -/
  | make (p l : Nat)
  | acquire (p t l : Nat)
  | release (p l : Nat)
  /-- a lock nobody uses is collected -/
  | collect (p l : Nat)
  /-- `skip_subprocess_arg_patch` -/
  | skip (p : Nat) (s : Skip)
  | fork (p t : Nat) (c : Caller)
  /-- `settrace`, in a process without a debugger -/
  | attach (p : Nat)
  /-- `stoptrace` -/
  | stop (p : Nat)
  deriving DecidableEq, Repr

def upd {α : Type} (f : Nat → α) (k : Nat) (v : α) : Nat → α := fun x => if x = k then v else f x

/-- Sets the holder of a lock. -/
def setHolder (ls : List (Nat × Option Nat)) (l : Nat) (h : Option Nat) : List (Nat × Option Nat) :=
  ls.map fun x => if x.1 = l then (x.1, h) else x

/-- `ForkSafeLock.__init__` and `_init` (477-497): two references. -/
def make (p : Proc) (l : Nat) : Proc := { p with live := p.live ++ [(l, none)], refs := p.refs ++ [l, l] }

/-- `_init` of a lock, by `after_fork` (489-497, 507-509). -/
def reinit (p : Proc) (l : Nat) : Proc :=
  if p.live.any (fun x => x.1 == l) then { p with live := setHolder p.live l none, refs := p.refs ++ [l] } else p

/-- `after_fork` (500-509). -/
def afterFork (p : Proc) : Proc := p.refs.foldl reinit { p with refs := [] }

/-- `is_new_python_process` (936, 943-953). -/
def isNew : Caller → Bool
  | .program => true
  | .popen none => true
  | .popen (some py) => py

/-- `settrace_forked` (3293-3346), with the connection a new debugger would get. -/
def settraceForked (parent : Nat) (p : Proc) (tracing : Bool) (conn : Nat) : Proc :=
  { p with dbg := if tracing && p.port then some conn else none, ppid := parent }

/-- `_on_forked_process` (230-241). -/
def onForked (parent : Nat) (p : Proc) (tracing : Bool) (conn : Nat) : Proc :=
  settraceForked parent (afterFork p) tracing conn

/-- Whether the child is to have a debugger (964). -/
def tracing (p : Proc) (t : Nat) (c : Caller) : Bool := applies p.skip t && decide (c = .program)

/-- What a child is after `new_fork` returned (961-967). -/
def child (parent : Nat) (p : Proc) (t : Nat) (c : Caller) (conn : Nat) : Proc :=
  if isNew c then onForked parent p (tracing p t c) conn else { p with dbg := none }

/-- `new_fork` (934-971). -/
def fork (s : Sys) (pid : Nat) (p : Proc) (t : Nat) (c : Caller) : Sys :=
  { procs := upd s.procs s.next (some (child pid p t c s.conn))
    next := s.next + 1
    conn := s.conn + 1
    sent := s.sent ++ (if isNew c then (p.dbg.toList.map fun d => (d, .created)) else []) }

/-- What it returns: in the process, and in the child. -/
def returns (s : Sys) : Nat × Nat := (s.next, 0)

def step (s : Sys) (a : Act) : Sys :=
  match a with
  | .make q l =>
    match s.procs q with
    | some p => if p.live.any (fun x => x.1 == l) then s else { s with procs := upd s.procs q (some (make p l)) }
    | none => s
  | .acquire q t l =>
    match s.procs q with
    | some p => if p.live.contains (l, none) then { s with procs := upd s.procs q (some { p with live := setHolder p.live l (some t) }) } else s
    | none => s
  | .release q l =>
    match s.procs q with
    | some p => { s with procs := upd s.procs q (some { p with live := setHolder p.live l none }) }
    | none => s
  | .collect q l =>
    match s.procs q with
    | some p =>
      { s with procs := upd s.procs q (some { p with live := p.live.filter fun x => !(x.1 == l && x.2.isNone) }) }
    | none => s
  | .skip q k =>
    match s.procs q with
    | some p => { s with procs := upd s.procs q (some { p with skip := skipStep p.skip k }) }
    | none => s
  | .fork q t c =>
    match s.procs q with
    | some p => fork s q p t c
    | none => s
  | .attach q =>
    match s.procs q with
    | some p =>
      if p.dbg.isNone then { s with procs := upd s.procs q (some { p with dbg := some s.conn }), conn := s.conn + 1 } else s
    | none => s
  | .stop q =>
    match s.procs q with
    | some p => { s with procs := upd s.procs q (some { p with dbg := none }) }
    | none => s

/-- One process, with a debugger. -/
def init (tokens : Nat) (port : Bool) : Sys :=
  { procs := upd (fun _ => none) 0 (some { dbg := some 0, tokens := tokens, port := port }), next := 1, conn := 1 }

def run (tokens : Nat) (port : Bool) (acts : List Act) : Sys := acts.foldl step (init tokens port)

end Process.Fork
