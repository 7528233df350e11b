/-!
The debugger's own threads are hidden from the program: `threading.enumerate`, `threading.active_count` and, at the end of the process,
`threading._pickSomeNonDaemonThread`.

Code modelled: `_pydevd_bundle/pydevd_daemon_thread.py` `_patch_threading_to_hide_pydevd_threads` (88-167) and
`mark_as_pydevd_daemon_thread` (173-193), with what `PyDBDaemonThread.__init__` (23-34) and `CheckAliveThread` (`pydevd.py` 300-306) do
with them.

Several threads may make helpers at a time; their steps interleave. `threading` registers a started thread in `_limbo`, then in `_active`
(CPython's `Thread.start` and `_bootstrap_inner`), and takes it away at its end.

Simplifications: the two dictionaries of `threading` are lists in their order. The check of the names in the code of `enumerate` is
`supported` for the code Python has, and fails for the code the patch puts there (which also loads `getattr`). Jython and IronPython
are left out.
-/

namespace HideThreads

abbrev Th := Nat

/-- Where a thread that makes a helper is: the lines of `mark_as_pydevd_daemon_thread` and of the patch. -/
inductive Pc where
  | idle
  /-- before `if not _patched…` (176) -/
  | check (t : Th)
  /-- before `_patched… = True` (184) -/
  | setFlag (t : Th)
  /-- before the names of `enumerate` are looked at (95) -/
  | names (t : Th)
  /-- before `threading.enumerate.__code__ = …` (137) -/
  | enum (t : Th)
  /-- before `threading.active_count.__code__ = …` (145) -/
  | count (t : Th)
  /-- before `threading._pickSomeNonDaemonThread.__code__ = …` (158-167) -/
  | pick (t : Th)
  /-- before the attributes are set (191-193) -/
  | attrs (t : Th)
  deriving DecidableEq, Repr

structure Config where
  /-- the names in `threading.enumerate` are those expected (99-130) -/
  supported : Bool
  /-- `PYDEVD_APPLY_PATCHING_TO_HIDE_PYDEVD_THREADS` (174) -/
  apply : Bool
  /-- the threads that are the debugger's -/
  helper : Th → Bool

structure St where
  /-- `_patched_threading_to_hide_pydevd_threads` (170) -/
  flag : Bool
  /-- the code of `enumerate`, `active_count`, `_pickSomeNonDaemonThread` was replaced -/
  enumP : Bool
  countP : Bool
  pickP : Bool
  pc : Nat → Pc
  /-- threads with `is_pydev_daemon_thread` -/
  marked : List Th
  /-- `threading._active` and `threading._limbo` -/
  active : List Th
  limbo : List Th

/-- Before the first helper (line 170; Python's own functions). -/
def St.init (active : List Th) : St := ⟨false, false, false, false, fun _ => .idle, [], active, []⟩

inductive Act where
  /-- a thread of number `c` starts to make the helper `t` (`PyDBDaemonThread.__init__`) -/
  | begin (c : Nat) (t : Th)
  /-- it does its next step -/
  | adv (c : Nat)
  /-- `Thread.start`: into `_limbo`; a helper only once it is made -/
  | start (t : Th)
  /-- `_bootstrap_inner`: from `_limbo` to `_active` -/
  | activate (t : Th)
  /-- the end of a thread -/
  | finish (t : Th)

/-- A maker goes on. -/
def St.setPc (s : St) (c : Nat) (p : Pc) : St := { s with pc := fun x => if x = c then p else s.pc x }

/-- One step of `mark_as_pydevd_daemon_thread` (173-193) and the patch (88-167) -/
def advance (k : Config) (s : St) (c : Nat) : St :=
  match s.pc c with
  | .idle => s
  | .check t => s.setPc c (if k.apply && !s.flag then .setFlag t else .attrs t)
  | .setFlag t => { s with flag := true }.setPc c (.names t)
  | .names t => s.setPc c (if k.supported && !s.enumP then .enum t else .attrs t)
  | .enum t => { s with enumP := true }.setPc c (.count t)
  | .count t => { s with countP := true }.setPc c (.pick t)
  | .pick t => { s with pickP := true }.setPc c (.attrs t)
  | .attrs t => { s with marked := t :: s.marked }.setPc c .idle

/-- One step (lines of `advance`; for the others CPython's `threading`, see above). -/
def step (k : Config) (s : St) : Act → St
  | .begin c t => if s.pc c = .idle ∧ k.helper t ∧ t ∉ s.active ∧ t ∉ s.limbo then s.setPc c (.check t) else s
  | .adv c => advance k s c
  | .start t => if t ∉ s.active ∧ t ∉ s.limbo ∧ (k.helper t → t ∈ s.marked) then { s with limbo := s.limbo ++ [t] } else s
  | .activate t => if t ∈ s.limbo then { s with limbo := s.limbo.filter (· != t), active := s.active ++ [t] } else s
  | .finish t => { s with active := s.active.filter (· != t) }

/-- A history, from the threads there were. -/
def run (k : Config) (active : List Th) (acts : List Act) : St := acts.foldl (step k) (.init active)

/-- `threading.enumerate()`: Python's, or the replacement (110-114) -/
def enumerate (s : St) : List Th :=
  let ret := s.active ++ s.limbo
  if s.enumP then ret.filter fun t => !s.marked.contains t else ret

/-- `threading.active_count()`: Python's, or the replacement (140-143) -/
def activeCount (s : St) : Nat :=
  if s.countP then (enumerate s).length else s.active.length + s.limbo.length

/-- `threading._pickSomeNonDaemonThread()`: Python's, or the replacement (158-165); `waits` is `not t.daemon and t.is_alive()` -/
def pickSome (waits : Th → Bool) (s : St) : Option Th :=
  if s.pickP then (s.active ++ s.limbo).find? waits else (enumerate s).find? waits

/-- `pydevd_saved_threading_enumerate` (131-133): what the debugger itself asks -/
def savedEnumerate (s : St) : List Th := s.active ++ s.limbo

end HideThreads
