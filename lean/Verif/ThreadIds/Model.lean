import Verif.Common.PyInt
import Verif.Common.Str
/-!
The ids of threads: how a thread object gets the id under which the client knows it, over several processes
made by forking.

_pydevd_bundle/pydevd_constants.py: `clear_cached_thread_id` (615-623), `_thread_id_to_thread_found` (627),
`_get_or_compute_thread_id_with_lock` (630-646), `get_current_thread_id` (649-666), `get_thread_id` (669-681),
`set_thread_id` (684-686); pydevd_thread_lifecycle.py: `pydevd_find_thread_by_id` (12-26); pydevd.py:
`process_internal_commands` (1777-1796), which clears the cached ids in a new process; fork copies everything
(pydev_monkey.py `create_fork` 932-971).

An object is a number that is never used twice (`Uid`); its address (`id(thread)`) may be used again once it was
collected. Each action is one critical section under `_thread_id_lock`, or the read of the attribute without
lock, which is atomic and gives the answer of a section that would start then.

Simplifications: `set_thread_id` is called with `"console_main"` only, as in the code
(pydev_console_utils.py 555); process ids are not used again; the id of a process is a number.
-/

namespace ThreadIds

abbrev Str := List Char

/-- The id of a thread: `"pid_%s_id_%s"` or the one of the console. -/
inductive Tid where
  | gen (pid addr : Nat)
  | console
deriving DecidableEq, Repr

/-- The text of an id: line 642, pydev_console_utils.py 555. -/
def Tid.str : Tid → Str
  | .gen p a => c!"pid_" ++ (Py.natStr p ++ (c!"_id_" ++ Py.natStr a))
  | .console => c!"console_main"

/-- What one process holds. -/
structure Proc where
  /-- thread objects that exist: address and object -/
  heap : List (Nat × Nat)
  /-- `thread.__pydevd_id__` -/
  cached : Nat → Option Tid
  /-- `_thread_id_to_thread_found`: address and object -/
  pinned : List (Nat × Nat)

structure World where
  procs : List (Nat × Proc)
  /-- objects made so far -/
  nextUid : Nat
  /-- ghost: the answers given: process, object, id -/
  log : List (Nat × Nat × Tid)

def getProc (w : World) (p : Nat) : Option Proc := (w.procs.find? (fun e => e.1 = p)).map (·.2)

def setProc (w : World) (p : Nat) (x : Proc) : World :=
  { w with procs := w.procs.map (fun e => if e.1 = p then (p, x) else e) }

/-- `get_thread_id` (669-681) with `_get_or_compute_thread_id_with_lock` (630-646) of the object at `a`. -/
def getId (pid : Nat) (x : Proc) (a u : Nat) : Proc × Tid :=
  match x.cached u with
  | some t => (x, t)
  | none =>
    let t := Tid.gen pid a
    ({ x with pinned := (a, u) :: x.pinned.filter (fun e => e.1 ≠ a),
              cached := fun v => if v = u then some t else x.cached v }, t)

/-- `clear_cached_thread_id` (615-623) -/
def clearId (x : Proc) (u : Nat) : Proc :=
  if x.cached u = some .console then x
  else { x with cached := fun v => if v = u then none else x.cached v }

/-- `set_thread_id(thread, "console_main")` (684-686) -/
def setId (x : Proc) (u : Nat) : Proc :=
  { x with cached := fun v => if v = u then some .console else x.cached v }

inductive Action where
  /-- a thread object is made at an address -/
  | new (p a : Nat)
  /-- a thread object is collected -/
  | collect (p u : Nat)
  | get (p u : Nat)
  | clear (p u : Nat)
  | setConsole (p u : Nat)
  | fork (p child : Nat)
deriving DecidableEq, Repr

def addrOf (x : Proc) (u : Nat) : Option Nat := (x.heap.find? (fun e => e.2 = u)).map (·.1)

/-- One step; actions that cannot happen (unknown process or object, used address, collected object that is still
referred to, used process id) change nothing. -/
def step (w : World) : Action → World
  | .new p a =>
    match getProc w p with
    | none => w
    | some x =>
      if a ∈ x.heap.map (·.1) then w
      else { setProc w p { x with heap := (a, w.nextUid) :: x.heap, cached := fun v => if v = w.nextUid then none else x.cached v }
             with nextUid := w.nextUid + 1 }
  | .collect p u =>
    match getProc w p with
    | none => w
    | some x =>
      if u ∈ x.pinned.map (·.2) then w
      else setProc w p { x with heap := x.heap.filter (fun e => e.2 ≠ u) }
  | .get p u =>
    match getProc w p with
    | none => w
    | some x =>
      match addrOf x u with
      | none => w
      | some a => { setProc w p (getId p x a u).1 with log := (p, u, (getId p x a u).2) :: w.log }
  | .clear p u =>
    match getProc w p with
    | none => w
    | some x => setProc w p (clearId x u)
  | .setConsole p u =>
    match getProc w p with
    | none => w
    | some x => if (addrOf x u).isSome then setProc w p (setId x u) else w
  | .fork p c =>
    match getProc w p with
    | none => w
    | some x => if c ∈ w.procs.map (·.1) then w else { w with procs := (c, x) :: w.procs }

def run (w : World) (as : List Action) : World := as.foldl step w

/-- The first process, without thread objects. -/
def init (pid : Nat) : World := { procs := [(pid, { heap := [], cached := fun _ => none, pinned := [] })], nextUid := 0, log := [] }

/-- Line 17 of pydevd_thread_lifecycle.py: `thread_id == tid or thread_id.endswith("|" + tid)` -/
def matchesId (req : Str) (t : Tid) : Bool := req = t.str || Py.endsWith req ('|' :: t.str)

/-- `pydevd_find_thread_by_id` (12-26): the first of the enumerated threads whose id matches. -/
def findThread (pid : Nat) (req : Str) : Proc → List (Nat × Nat) → Option Nat
  | _, [] => none
  | x, (a, u) :: rest =>
    let r := getId pid x a u
    if matchesId req r.2 then some u else findThread pid req r.1 rest

end ThreadIds
