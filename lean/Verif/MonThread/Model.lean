/-!
Which thread an event is taken to be of, and if it is looked at, where the debugger uses `sys.monitoring` (Python 3.12 and newer).

Code modelled, in `_pydevd_sys_monitoring/_pydevd_sys_monitoring.py`: `_get_bootstrap_frame` (141-190),
`_create_thread_info` (327-373), `_get_thread_info` (459-478), `ThreadInfo` (261-297), the head of `_start_method_event`
(1714-1733; the other events have the same head), `start_monitoring` and `stop_monitoring` for one thread
(1813-1822, 1846-1854).

One thread of the operating system is followed; what is kept for it is in a thread local (`_thread_local_info`).

Simplifications: a frame is told by its number and by what the code looks at: the name of its file without directory and extension
and the name of its function. `isinstance(t, threading.Thread)` is part of the lookup of the local. The global debugger is there and not
disposed. Dummy threads are removed as `_DeleteDummyThreadOnDel` does (300-320) elsewhere.
-/

namespace MonThread

/-- `threading.Thread` objects -/
abbrev Th := Nat

/-- What the code tells apart (lines 156-180): the functions of `threading`, of `pydev_monkey`, of `pydevd`, and all other files. -/
inductive Kind where
  /-- `threading`: `_bootstrap`, `__bootstrap` -/
  | boot
  /-- `threading`: `_bootstrap_inner`, `__bootstrap_inner` -/
  | inner
  /-- `threading`: `is_alive` -/
  | isAlive
  /-- `threading`: any other function -/
  | threading
  /-- `pydev_monkey`: `__call__` -/
  | call
  /-- `pydev_monkey`: any other function -/
  | monkey
  /-- `pydevd`: `run`, `main` -/
  | runMain
  /-- `pydevd`: `_exec` -/
  | exec
  /-- `pydevd`: any other function -/
  | pydevd
  /-- any other file -/
  | user
  deriving DecidableEq, Repr

/-- A frame: which, and what `_get_bootstrap_frame` (153-180) tells by its file and function. -/
structure Frame where
  id : Nat
  kind : Kind
  deriving DecidableEq, Repr

/-- The loop of `_get_bootstrap_frame` (153-183), from the frame of the event outwards: the frame found and
`is_bootstrap_frame_internal`; `none` is the result `None, False`. -/
def walk : List Frame → Option (Frame × Bool)
  | [] => none
  | f :: rest =>
    match f.kind with
    | .boot | .runMain => none
    | .inner | .isAlive | .call | .exec => some (f, true)
    | .threading | .monkey | .pydevd => walk rest
    | .user => if rest = [] then some (f, false) else walk rest

/-- What is there when an event comes. -/
structure Event where
  /-- the frames, the one of the event first -/
  stack : List Frame
  /-- the threads in the locals of frames: `self` where `inner` and `isAlive`, `t` where `call` and `exec`, if it is a thread -/
  loc : Nat → Option Th
  /-- `threading._active.get(get_ident())` -/
  active : Option Th
  /-- the object `threading.current_thread()` makes if there is none -/
  dummy : Th

/-- `ThreadInfo`: the thread and `trace` -/
structure Info where
  thread : Th
  trace : Bool
  deriving DecidableEq, Repr

/-- The thread local: `f_bootstrap` and `is_bootstrap_frame_internal`, `thread_info` -/
structure St where
  boot : Option (Frame × Bool)
  info : Option Info
  deriving DecidableEq, Repr

/-- Nothing is kept yet for a thread (1714-1719, 459-471: the attributes are not there). -/
def St.init : St := ⟨none, none⟩

/-- `_get_bootstrap_frame` (141-190): what was found is kept -/
def bootstrap (s : St) (e : Event) : St :=
  match s.boot with
  | some _ => s
  | none => { s with boot := walk e.stack }

/-- The thread `_create_thread_info` finds (337-359) -/
def threadOf (e : Event) (b : Frame × Bool) : Option Th :=
  match (if b.2 then e.loc b.1.id else some (e.active.getD e.dummy)) with
  | some t => some t
  | none => e.active

/-- `_get_thread_info(create=True)` (459-478) with `_create_thread_info` (327-373); `helper` is `is_pydev_daemon_thread` -/
def getInfo (helper : Th → Bool) (s : St) (e : Event) : St :=
  match s.info with
  | some _ => s
  | none =>
    let s := bootstrap s e
    match s.boot with
    | none => s
    | some b =>
      match threadOf e b with
      | none => s
      | some t => { s with info := some ⟨t, !helper t⟩ }

/-- Something that happens in the thread: an event, `start_monitoring()`, `stop_monitoring()` -/
inductive Act where
  | event (e : Event)
  | start (e : Event)
  | stop

/-- `start_monitoring` (1813-1822) makes the info if it can, `stop_monitoring` (1846-1854) does not. -/
def step (helper : Th → Bool) (s : St) : Act → St
  | .event e => getInfo helper s e
  | .start e =>
    let s := getInfo helper s e
    { s with info := s.info.map fun i => { i with trace := true } }
  | .stop => { s with info := s.info.map fun i => { i with trace := false } }

/-- A history of the thread. -/
def run (helper : Th → Bool) (acts : List Act) : St := acts.foldl (step helper) .init

/-- Does the debugger go on with the event (1714-1733)? `alive` is `is_thread_alive` (289-297). -/
def looks (helper : Th → Bool) (alive : Th → Bool) (s : St) (e : Event) : Bool :=
  match (getInfo helper s e).info with
  | none => false
  | some i => i.trace && alive i.thread

end MonThread
