/-!
The registry of threads that are stepping: `_pydevd_bundle/pydevd_additional_thread_info_regular.py`.

Any number of threads run concurrently. An update reads the entries one by one under `_update_infos_lock`, while other threads
assign to the fields of their entries without the lock. An entry that is assigned to while it is read can be read as anything.
The order in which a set is iterated is arbitrary.
-/

namespace Stepping

/-- `pydev_state` -/
inductive Run
  | run
  | suspend
deriving DecidableEq

/-- the thread an entry refers to (`weak_thread`) -/
inductive Thr
  /-- in `threading._limbo`: created, `_ident` is `None` or not yet in `threading._active` -/
  | limbo
  | alive
  /-- no longer running -/
  | dead
  /-- no longer referenced: `weak_thread()` is `None` -/
  | collected
deriving DecidableEq

/-- the fields of `PyDBAdditionalThreadInfo` used here (66-127) -/
structure Info where
  state : Run
  /-- `pydev_step_cmd != -1` -/
  stepCmd : Bool
  /-- `is_in_wait_loop` -/
  inWait : Bool
  /-- `pydev_notify_kill` -/
  killed : Bool
  thread : Thr
deriving DecidableEq

/-- what `_get_related_thread` (135-156) returns -/
inductive Related
  | none
  | false
  | thread
deriving DecidableEq

/-- `_get_related_thread` (135-156) -/
def related (i : Info) : Related :=
  if i.killed then .none
  else match i.thread with
    | .collected => .false
    | .dead => .none
    | .limbo => .none
    | .alive => .thread

/-- `_is_stepping` (163-176) -/
def isStepping (i : Info) : Bool :=
  if i.state = .run ∧ i.stepCmd = true then true
  else if i.state = .suspend ∧ i.inWait = true then true
  else false

/-- the new entry (66-127) -/
def newInfo (thread : Thr) : Info := ⟨.run, false, false, false, thread⟩

/-- where `_update_stepping_info` (271-286) is -/
inductive Upd
  | idle
  /-- the first loop: entries still to be read, and `new_all_infos` -/
  | filter (todo newAll : List Nat)
  /-- the second loop: entries still to be read, and `new_stepping` -/
  | steps (todo newStep : List Nat)

structure State where
  info : Nat → Info
  /-- `_all_infos`, `_infos_stepping` -/
  all : List Nat
  stepping : List Nat
  upd : Upd
  /-- threads that have assigned to a field and have not yet called `update_stepping_info` -/
  dirty : Nat → Bool
  /-- entries assigned to since the update began -/
  touched : List Nat
  /-- entries registered and not removed (not in the code) -/
  registered : List Nat
  /-- a thread ended, or was reported as ended, since the update began (not in the code) -/
  ended : Bool

def start : State := ⟨fun _ => newInfo .limbo, [], [], .idle, fun _ => false, [], [], false⟩

inductive Action
  /-- `set_additional_thread_info` for a thread without an entry (219-247, 306-310): the entry `i` -/
  | register (i : Nat) (thread : Thr)
  /-- `remove_additional_info` (318-321) -/
  | remove (i : Nat)
  /-- thread `t` assigns to `pydev_state`, `pydev_step_cmd` or `is_in_wait_loop` of the entry `i` -/
  | assign (t i : Nat) (state : Run) (stepCmd inWait : Bool)
  /-- thread `t` calls `update_stepping_info` and gets the lock (272-273) -/
  | begin (t : Nat)
  /-- the next entry `i` in the first loop (275-277) -/
  | check (i : Nat)
  /-- the end of the first loop (278) -/
  | checked
  /-- the next entry `i` in the second loop (281-283); `b` is what is read -/
  | read (i : Nat) (b : Bool)
  /-- the end of the second loop (284), the lock is released -/
  | finish
  /-- the thread of the entry `i` goes from `_limbo` to `_active` -/
  | started (i : Nat)
  /-- the thread of the entry `i` ends -/
  | ends (i : Nat)
  /-- the thread object of the entry `i`, which has ended, is collected -/
  | collect (i : Nat)
  /-- `pydev_notify_kill = True` (pydevd.py 1746) -/
  | kill (i : Nat)

def setInfo (s : State) (i : Nat) (x : Info) : State := { s with info := fun j => if j = i then x else s.info j }

/-- one step; `none`: it is not possible in this state -/
def step (s : State) : Action → Option State
  | .register i thread =>
    match s.upd with
    | .idle =>
      if i ∈ s.registered ∨ thread = .dead ∨ thread = .collected then none
      else
        let s := setInfo s i (newInfo thread)
        some { s with
          all := i :: s.all
          stepping := if isStepping (s.info i) then i :: s.stepping else s.stepping
          registered := i :: s.registered }
    | _ => none
  | .remove i =>
    match s.upd with
    | .idle => some { s with
        all := s.all.filter (· != i), stepping := s.stepping.filter (· != i), registered := s.registered.filter (· != i) }
    | _ => none
  | .assign t i state stepCmd inWait =>
    let s := setInfo s i { s.info i with state := state, stepCmd := stepCmd, inWait := inWait }
    some { s with dirty := fun u => if u = t then true else s.dirty u, touched := i :: s.touched }
  | .begin t =>
    match s.upd with
    | .idle => some { s with
        upd := .filter s.all [], dirty := fun u => if u = t then false else s.dirty u, touched := [], ended := false }
    | _ => none
  | .check i =>
    match s.upd with
    | .filter todo newAll =>
      if i ∈ todo then
        some { s with upd := .filter (todo.filter (· != i)) (if related (s.info i) ≠ .none then i :: newAll else newAll) }
      else none
    | _ => none
  | .checked =>
    match s.upd with
    | .filter [] newAll => some { s with all := newAll, upd := .steps newAll [] }
    | _ => none
  | .read i b =>
    match s.upd with
    | .steps todo newStep =>
      if i ∈ todo ∧ (i ∈ s.touched ∨ b = isStepping (s.info i)) then
        some { s with upd := .steps (todo.filter (· != i)) (if b then i :: newStep else newStep) }
      else none
    | _ => none
  | .finish =>
    match s.upd with
    | .steps [] newStep => some { s with stepping := newStep, upd := .idle }
    | _ => none
  | .started i =>
    if (s.info i).thread = .limbo then some (setInfo s i { s.info i with thread := .alive }) else none
  | .ends i =>
    if (s.info i).thread = .alive then some { setInfo s i { s.info i with thread := .dead } with ended := true } else none
  | .collect i =>
    if (s.info i).thread = .dead then some { setInfo s i { s.info i with thread := .collected } with ended := true } else none
  | .kill i => some { setInfo s i { s.info i with killed := true } with ended := true }

def run (s : State) : List Action → Option State
  | [] => some s
  | a :: as => (step s a).bind fun s => run s as

/-- `any_thread_stepping` (329-334) -/
def anyStepping (s : State) : Bool := !s.stepping.isEmpty

/-! ### Who is woken -/

/-- the entry whose thread is woken at the end of `_update_stepping_info` (288-294), called for `info`: the name `info` is
assigned again by the loops, `order1` and `order2` are the orders of iteration of the sets -/
def woken (info : Nat) (order1 order2 : List Nat) : Nat := (order2.getLast?.orElse fun _ => order1.getLast?).getD info

end Stepping
