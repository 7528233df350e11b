import Verif.Common.Dict
/-!
Breakpoints and pauses with `sys.monitoring`: `_pydevd_sys_monitoring/_pydevd_sys_monitoring.py`, with the updates of
`pydevd.py` and `_pydevd_bundle/pydevd_api.py`.

Any number of threads run the program. A thread that causes an event runs the event's handler, one read at a time. One more
thread processes the commands of the client, one at a time (they hold `py_db._main_lock`). Everything is interleaved arbitrarily.

Line and start events are modelled; jump, return, raise and unwind events are not. Breakpoints are unconditional (conditions and
log messages are the subject of C50); there are no plugins. Whether other threads are stepping is a flag that changes arbitrarily,
and line events of a function can be enabled at any time (as stepping does).
The debugger is `ready_to_run`, every thread has `trace` set, and which files are filtered does not change.

The interpreter (`sys.monitoring`) is modelled as documented: a handler that returns `DISABLE` switches off the event at that
location of that code object when it returns, for all threads; `restart_events` switches all of them on again.
-/

namespace Monitor

/-- a code object -/
structure Code where
  file : Nat
  /-- `co_name` -/
  name : Nat
  /-- everything else that `code.__eq__` compares (the file is not compared) -/
  body : Nat
  /-- the lines of `dis.findlinestarts` -/
  lines : List Nat
deriving DecidableEq

/-- what code objects are compared by when they are the key of a dict: not by `co_filename` -/
structure Key where
  name : Nat
  body : Nat
  lines : List Nat
deriving DecidableEq

def Code.key (c : Code) : Key := ⟨c.name, c.body, c.lines⟩

/-- `line -> breakpoint` of a file -/
abbrev Bps := List (Nat × Nat)

/-- what does not change -/
structure Env where
  /-- the code of the program -/
  prog : List Code
  /-- its threads -/
  tids : List Nat
  /-- `get_file_type(...) is not None` -/
  skip : Code → Bool
  /-- excluded by the filters or marked with `@DontTrace` -/
  filtered : Code → Bool
  /-- the thread is in `threading._active` -/
  known : Nat → Bool

/-- `FuncCodeInfo` (386-450) -/
structure Info where
  /-- `pydb_mtime` -/
  mtime : Nat
  /-- `always_skip_code` -/
  skip : Bool
  /-- `always_filtered_out` -/
  filtered : Bool
  /-- `bp_line_to_breakpoint`; `breakpoint_found` is that it is not empty -/
  bps : Bps
  /-- `function_breakpoint` -/
  fn : Option Nat
deriving DecidableEq

/-- the event being handled: `PY_START`, or `LINE` with its line -/
inductive Ev
  | start
  | line (l : Nat)
deriving DecidableEq

/-- where a thread is in its handler; the code is the one on top of its stack -/
inductive Pc
  /-- running the program -/
  | idle
  /-- the beginning of `_get_func_code_info` (541-) -/
  | lookup (ev : Ev)
  /-- nothing usable in the cache -/
  | miss (ev : Ev)
  /-- `func_code_info.pydb_mtime = py_db.mtime` (594) done -/
  | mtimed (ev : Ev) (m : Nat)
  /-- the breakpoints of the file read (664) -/
  | breaks (ev : Ev) (m : Nat) (bs : Bps)
  /-- the function breakpoint read (665) -/
  | fns (ev : Ev) (m : Nat) (bs : Bps) (fn : Option Nat)
  /-- `_get_func_code_info` has returned -/
  | ready (ev : Ev) (info : Info)
deriving DecidableEq

/-- the steps of the commands -/
inductive Op
  /-- `consolidate_breakpoints`, a dict with a breakpoint more (pydevd.py 1862-1867) -/
  | write (f : Nat) (bs : Bps)
  /-- `consolidate_breakpoints`, without the line `l` -/
  | unset (f l : Nat)
  /-- `py_db.breakpoints.pop(f, None)` (pydevd_api.py 686) -/
  | drop (f : Nat)
  /-- `py_db.breakpoints.clear()` (pydevd_api.py 668) -/
  | clear
  /-- `py_db.function_breakpoint_name_to_breakpoint = ...` (pydevd_api.py 764) -/
  | writeFn (d : List (Nat × Nat))
  /-- `self.mtime += 1` -/
  | bump
  /-- `update_monitor_events(suspend_requested)`: `True`, or `None` -/
  | update (requested : Bool)
  /-- `restart_events()` -/
  | restart
  /-- `sys._current_frames()` and their callers (pydevd.py 1200-1210) -/
  | snapshot
  /-- the frames of one thread (pydevd.py 1966-1974) -/
  | snapshotOf (t : Nat)
  /-- `enable_code_tracing(thread_ident, frame.f_code, frame)` for one of them (735-775) -/
  | trace (t : Nat) (c : Code)
  /-- `mark_thread_suspended(thread, CMD_THREAD_SUSPEND)` -/
  | mark (t : Nat)
deriving DecidableEq

/-- a thread is suspended -/
inductive Stop
  | line (t : Nat) (c : Code) (l : Nat)
  | function (t : Nat) (c : Code)
  | pause (t : Nat) (c : Code) (l : Nat)
deriving DecidableEq

structure State where
  /-- `py_db.mtime` -/
  mtime : Nat
  /-- `py_db.breakpoints` -/
  breaks : List (Nat × Bps)
  /-- `py_db.function_breakpoint_name_to_breakpoint` -/
  fnBreaks : List (Nat × Nat)
  /-- `_code_to_func_code_info_cache` -/
  cache : Key → Option Info
  /-- the callbacks are registered and the event `PY_START` is on -/
  active : Bool
  /-- `PY_START` is disabled for this code -/
  startOff : Code → Bool
  /-- the local event `LINE` is on for this code -/
  lineOn : Code → Bool
  /-- `LINE` is disabled at this line of this code -/
  lineOff : Code → Nat → Bool
  /-- the frames of each thread, innermost first -/
  stack : Nat → List Code
  /-- the frames of generators and coroutines that are not running -/
  waiting : List Code
  pc : Nat → Pc
  /-- what is left of the command being processed -/
  queue : List Op
  /-- `any_thread_stepping()` -/
  stepping : Bool
  /-- `pydev_state == STATE_SUSPEND` and not yet in the wait loop -/
  pausing : Nat → Bool
  /-- the stops so far, the last one first -/
  stops : List Stop

def start : State :=
  ⟨0, [], [], fun _ => none, false, fun _ => false, fun _ => false, fun _ _ => false, fun _ => [], [], fun _ => .idle, [], false,
    fun _ => false, []⟩

/-- `_clear_caches` (pydevd.py 1308-1324) -/
def clearCaches : List Op := [.bump, .update false, .restart]

/-- `on_breakpoints_changed()` (pydevd.py 1172-1189, 1191-1233) -/
def changed : List Op := [.bump] ++ clearCaches ++ [.update false, .snapshot, .restart]

/-- a command of the client -/
inductive Cmd
  /-- `add_breakpoint`: afterwards the breakpoints of the file are `bs` (pydevd_api.py 615-632) -/
  | add (f : Nat) (bs : Bps)
  /-- `remove_breakpoint` (pydevd_api.py 741-757) -/
  | remove (f l : Nat)
  /-- `remove_all_breakpoints` for a file (pydevd_api.py 683-691) -/
  | removeFile (f : Nat)
  /-- `remove_all_breakpoints` for all files (pydevd_api.py 663-669, 691) -/
  | removeAll
  /-- `set_function_breakpoints` (pydevd_api.py 759-765) -/
  | functions (d : List (Nat × Nat))
  /-- pausing one thread: `set_suspend(..., is_pause=True)` (pydevd.py 1916-1984) -/
  | pause (t : Nat)
deriving DecidableEq

def ops : Cmd → List Op
  | .add f bs => [.write f bs] ++ clearCaches ++ changed
  | .remove f l => [.unset f l] ++ clearCaches ++ [.bump]
  | .removeFile f => [.drop f, .bump]
  | .removeAll => [.clear, .bump]
  | .functions d => [.writeFn d] ++ changed
  | .pause t => [.mark t, .update true, .snapshotOf t, .restart]

/-- `py_db.breakpoints.get(filename)`; no dict and an empty one are treated alike (664, 677) -/
def fileBps (s : State) (f : Nat) : Bps := (Py.Dict.get s.breaks f).getD []

/-- the breakpoints of the file at lines of the function (681-686) -/
def own (c : Code) (bs : Bps) : Bps := bs.filter (fun e => c.lines.contains e.1)

/-- the `FuncCodeInfo` (591-707) -/
def build (E : Env) (c : Code) (m : Nat) (bs : Bps) (fn : Option Nat) : Info :=
  if E.skip c then ⟨m, true, true, [], none⟩
  else if E.filtered c then ⟨m, false, true, [], none⟩
  else ⟨m, false, false, own c bs, fn⟩

/-- `has_breaks` (1893-1903) -/
def hasBreaks (s : State) : Bool := !s.fnBreaks.isEmpty || s.breaks.any (fun e => !e.2.isEmpty)

/-- `update_monitor_events` (1853-1935) -/
def updateEvents (E : Env) (requested : Bool) (s : State) : State :=
  { s with active := hasBreaks s || (requested || s.stepping || E.tids.any s.pausing) }

def setPc (s : State) (t : Nat) (p : Pc) : State := { s with pc := fun u => if u = t then p else s.pc u }

def setStack (s : State) (t : Nat) (cs : List Code) : State := { s with stack := fun u => if u = t then cs else s.stack u }

def setCache (s : State) (k : Key) (i : Info) : State := { s with cache := fun k' => if k' = k then some i else s.cache k' }

/-- `_enable_line_tracing` (711-720) -/
def lineEvents (s : State) (c : Code) : State := { s with lineOn := fun d => if d = c then true else s.lineOn d }

/-- a line handler returns `DISABLE` -/
def offLine (s : State) (c : Code) (l : Nat) : State :=
  { s with lineOff := fun d k => if d = c ∧ k = l then true else s.lineOff d k }

/-- a start handler returns `DISABLE` -/
def offStart (s : State) (c : Code) : State := { s with startOff := fun d => if d = c then true else s.startOff d }

/-- `_get_func_code_info` called by the thread that processes commands: nothing it reads changes meanwhile, so it is one step -/
def infoNow (E : Env) (s : State) (c : Code) : Info :=
  match s.cache c.key with
  | some i => if i.mtime = s.mtime then i else build E c s.mtime (fileBps s c.file) (Py.Dict.get s.fnBreaks c.name)
  | none => build E c s.mtime (fileBps s c.file) (Py.Dict.get s.fnBreaks c.name)

/-- `enable_code_tracing` and `_enable_code_tracing` (735-836) for a frame of the thread `t` -/
def traceFrame (E : Env) (s : State) (t : Nat) (c : Code) : State :=
  let i := infoNow E s c
  let s := setCache s c.key i
  if i.skip then s
  else if E.known t = false then s
  else if s.pausing t then lineEvents s c
  else if i.filtered = false ∧ i.bps ≠ [] then lineEvents s c
  else s

/-- the frames of a thread as `trace` steps (`set_trace_for_frame_and_parents`, pydevd.py 2377-2421) -/
def traces (s : State) (t : Nat) : List Op := (s.stack t).map (.trace t)

/-- one step of a command -/
def exec (E : Env) (s : State) (op : Op) (rest : List Op) : State :=
  match op with
  | .write f bs => { s with breaks := Py.Dict.set s.breaks f bs, queue := rest }
  | .unset f l => { s with breaks := Py.Dict.set s.breaks f ((fileBps s f).filter (fun e => e.1 != l)), queue := rest }
  | .drop f => { s with breaks := Py.Dict.erase s.breaks f, queue := rest }
  | .clear => { s with breaks := [], queue := rest }
  | .writeFn d => { s with fnBreaks := d, queue := rest }
  | .bump => { s with mtime := s.mtime + 1, queue := rest }
  | .update requested => { updateEvents E requested s with queue := rest }
  | .restart => { s with startOff := fun _ => false, lineOff := fun _ _ => false, queue := rest }
  | .snapshot => { s with queue := E.tids.flatMap (traces s) ++ rest }
  | .snapshotOf t => { s with queue := traces s t ++ rest }
  | .trace t c => { traceFrame E s t c with queue := rest }
  | .mark t => { s with pausing := fun u => if u = t then true else s.pausing u, queue := rest }

/-- `_enable_code_tracing` (786-836) returns `True`; it has then enabled line events -/
def Traced (s : State) (t : Nat) (i : Info) : Prop := (i.filtered = false ∧ i.bps ≠ []) ∨ s.pausing t = true

instance (s : State) (t : Nat) (i : Info) : Decidable (Traced s t i) := by unfold Traced; infer_instance

/-- the rest of `_start_method_event` (1714-1778) -/
def startDone (s : State) (t : Nat) (c : Code) (i : Info) : State :=
  if i.skip then offStart s c
  else
    let s1 := if Traced s t i then lineEvents s c else s
    match i.fn with
    | some _ => { s1 with stops := .function t c :: s.stops }
    | none => if Traced s t i ∨ s.stepping then s1 else offStart s1 c

/-- the rest of `_line_event` (1499-1510) and `_internal_line_event` (1513-1700) -/
def lineDone (s : State) (t : Nat) (c : Code) (l : Nat) (i : Info) : State :=
  if i.skip ∨ i.filtered then offLine s c l
  else match Py.Dict.get i.bps l with
    | some _ => { s with stops := .line t c l :: s.stops, pausing := fun u => if u = t then false else s.pausing u }
    | none =>
      if s.pausing t then { s with stops := .pause t c l :: s.stops, pausing := fun u => if u = t then false else s.pausing u }
      else if i.bps ≠ [] ∨ s.stepping then s
      else offLine s c l

/-- one step of the handler of the thread `t`, which runs `c` -/
def handle (E : Env) (s : State) (t : Nat) (c : Code) : Option State :=
  match s.pc t with
  | .idle => none
  | .lookup ev =>
    match s.cache c.key with
    | some i => some (setPc s t (if i.mtime = s.mtime then .ready ev i else .miss ev))
    | none => some (setPc s t (.miss ev))
  | .miss ev => some (setPc s t (.mtimed ev s.mtime))
  | .mtimed ev m =>
    if E.skip c ∨ E.filtered c then
      let i := build E c m [] none
      some (setPc (setCache s c.key i) t (.ready ev i))
    else some (setPc s t (.breaks ev m (fileBps s c.file)))
  | .breaks ev m bs => some (setPc s t (.fns ev m bs (Py.Dict.get s.fnBreaks c.name)))
  | .fns ev m bs fn =>
    let i := build E c m bs fn
    some (setPc (setCache s c.key i) t (.ready ev i))
  | .ready .start i => some (setPc (startDone s t c i) t .idle)
  | .ready (.line l) i => some (setPc (lineDone s t c l i) t .idle)

inductive Action
  /-- a command arrives -/
  | begin (cmd : Cmd)
  /-- the next step of the command -/
  | work
  /-- the thread calls a function -/
  | call (t : Nat) (c : Code)
  /-- the innermost frame of the thread returns -/
  | ret (t : Nat)
  /-- the innermost frame of the thread, a generator or coroutine, is suspended -/
  | yield (t : Nat)
  /-- the thread resumes a suspended frame: the event is `PY_RESUME`, which has no handler (1910) -/
  | resume (t : Nat) (c : Code)
  /-- the thread executes a line of its innermost frame -/
  | run (t l : Nat)
  /-- the next step of the thread's handler -/
  | handle (t : Nat)
  /-- `any_thread_stepping()` changes -/
  | stepping (b : Bool)
  /-- line events are enabled for a function, because some thread steps in it -/
  | enable (c : Code)

/-- one step; `none`: it is not possible in this state -/
def step (E : Env) (s : State) : Action → Option State
  | .begin cmd => if s.queue = [] then some { s with queue := ops cmd } else none
  | .work =>
    match s.queue with
    | [] => none
    | op :: rest => some (exec E s op rest)
  | .call t c =>
    if s.pc t = .idle ∧ c ∈ E.prog ∧ t ∈ E.tids then
      let s' := setStack s t (c :: s.stack t)
      some (if s.active ∧ s.startOff c = false then setPc s' t (.lookup .start) else s')
    else none
  | .ret t =>
    match s.stack t with
    | [] => none
    | _ :: cs => if s.pc t = .idle then some (setStack s t cs) else none
  | .yield t =>
    match s.stack t with
    | [] => none
    | c :: cs => if s.pc t = .idle then some { setStack s t cs with waiting := c :: s.waiting } else none
  | .resume t c =>
    if s.pc t = .idle ∧ c ∈ s.waiting ∧ t ∈ E.tids then
      some { setStack s t (c :: s.stack t) with waiting := s.waiting.erase c }
    else none
  | .run t l =>
    match s.stack t with
    | [] => none
    | c :: _ =>
      if s.pc t = .idle ∧ l ∈ c.lines then
        some (if s.active ∧ s.lineOn c ∧ s.lineOff c l = false then setPc s t (.lookup (.line l)) else s)
      else none
  | .handle t =>
    match s.stack t with
    | [] => none
    | c :: _ => handle E s t c
  | .stepping b => some { s with stepping := b }
  | .enable c => some (lineEvents s c)

def run (E : Env) (s : State) : List Action → Option State
  | [] => some s
  | a :: as =>
    match step E s a with
    | some s' => run E s' as
    | none => none

end Monitor
