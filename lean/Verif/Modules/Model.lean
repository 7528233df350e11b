/-!
Announcing modules: `ModulesManager.track_module` (`_pydevd_bundle/pydevd_net_command_factory_json.py` 59-112), called for every frame of a
`stackTrace` answer (`make_get_thread_stack_message`, 239-344).

Any number of threads build answers at the same time, one step at a time. A module is its file and its id; the name, version and package
are not modelled, and neither is the rest of the answer.
-/

namespace Modules

/-- a module event: the file and the id of the module -/
abbrev Event := Nat × Nat

/-- where a thread is; `req` are the files of the answer it builds, `evs` is `module_events` of `make_get_thread_stack_message` -/
inductive Pc
  | idle
  /-- the next frame is that of the first file of `todo` -/
  | files (req todo : List Nat) (evs : List Event)
  /-- not in `self._modules` (72); waits for the lock -/
  | waiting (req : List Nat) (f : Nat) (todo : List Nat) (evs : List Event)
  /-- has the lock (76) -/
  | locked (req : List Nat) (f : Nat) (todo : List Nat) (evs : List Event)
  /-- has an id for the module (91) -/
  | numbered (req : List Nat) (f id : Nat) (todo : List Nat) (evs : List Event)
  /-- adds the events to the queue of the writer (328-329) -/
  | sending (req : List Nat) (evs : List Event)

structure State where
  /-- `self._modules`: file and id, in the order of registration -/
  modules : List Event
  /-- `self._next_id` -/
  next : Nat
  /-- the thread that has `self._lock` -/
  lock : Option Nat
  pc : Nat → Pc
  /-- the events given to the writer -/
  sent : List Event
  /-- the files of the answers that were given -/
  answered : List Nat
  /-- the events of answers that were never given -/
  lost : List Event
  /-- the number of requests that failed -/
  failed : Nat

def start : State := ⟨[], 0, none, fun _ => .idle, [], [], [], 0⟩

/-- `filename_in_utf8 in self._modules` -/
def known (s : State) (f : Nat) : Bool := s.modules.any (fun e => e.1 == f)

def setPc (s : State) (t : Nat) (p : Pc) : State := { s with pc := fun u => if u = t then p else s.pc u }

/-- one step of the thread `t` -/
def step (s : State) (t : Nat) : Option State :=
  match s.pc t with
  | .idle => none
  | .files req [] evs => some (setPc s t (.sending req evs))
  | .files req (f :: todo) evs => some (setPc s t (if known s f then .files req todo evs else .waiting req f todo evs))
  | .waiting req f todo evs => if s.lock = none then some (setPc { s with lock := some t } t (.locked req f todo evs)) else none
  | .locked req f todo evs =>
    -- 78-79: `return` instead of `return []`, so that `module_events.extend(None)` (270) raises: the answer and its events are lost
    if known s f then some (setPc { s with lock := none, lost := s.lost ++ evs, failed := s.failed + 1 } t .idle)
    else some (setPc { s with next := s.next + 1 } t (.numbered req f s.next todo evs))
  | .numbered req f id todo evs =>
    some (setPc { s with modules := s.modules ++ [(f, id)], lock := none } t (.files req todo (evs ++ [(f, id)])))
  | .sending req [] => some (setPc { s with answered := s.answered ++ req } t .idle)
  | .sending req (e :: evs) => some (setPc { s with sent := s.sent ++ [e] } t (.sending req evs))

inductive Action
  /-- the thread begins to build an answer with frames of these files -/
  | request (t : Nat) (files : List Nat)
  | step (t : Nat)

def act (s : State) : Action → Option State
  | .request t files => match s.pc t with
    | .idle => some (setPc s t (.files files files []))
    | _ => none
  | .step t => step s t

def run (s : State) : List Action → Option State
  | [] => some s
  | a :: as => match act s a with
    | some s' => run s' as
    | none => none

/-- `get_modules_info` (107-112): what the request `modules` answers -/
def info (s : State) : List Event := s.modules

end Modules
