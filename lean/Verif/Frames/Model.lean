/-!
Model of the references handed out for a suspended thread.

Source: `/repo/_pydevd_bundle/pydevd_suspended_frames.py`: `_FramesTracker` (311-449),
`SuspendedFramesManager` (452-552).

A variable reference is `id(value)`. An object that a tracker has registered is kept alive by it, so its
`id` cannot be that of another object meanwhile; after the tracker is cleared the number may be reused.
The model therefore takes pairs (reference, object) from the environment; that they respect this rule of
CPython is part of the hypothesis `Valid` (in `Spec.lean`) on histories.

Each method is one action. In the code a tracker has its own lock and the manager none; the maps are
dicts whose single operations are atomic.

Simplifications: a variable is its value (its name and evaluate name are not modelled); fake frames
(`add_fake_frame`), used by the interactive console, are not modelled.
-/

namespace Frames

abbrev Ref := Nat
abbrev Obj := Nat
abbrev Tid := Nat
/-- Identity of a tracker: one for each time a thread is suspended. -/
abbrev K := Nat

/-- `_FramesTracker` -/
structure Tracker where
  /-- `_variable_reference_to_variable` -/
  vars : Ref → Option Obj := fun _ => none
  /-- keys of `_frame_id_to_frame` -/
  frames : List Ref := []
  /-- keys of `_thread_id_to_frame_ids` -/
  threads : List Tid := []
  /-- `_main_thread_id` -/
  main : Option Tid := none
  untracked : Bool := false

structure State where
  tracker : K → Tracker := fun _ => {}
  /-- `_thread_id_to_tracker`, in insertion order -/
  byThread : List (Tid × K) := []
  /-- `_variable_reference_to_frames_tracker` -/
  byFrame : Ref → Option K := fun _ => none
  /-- ghost: references handed out by each tracker -/
  handed : K → List (Ref × Obj) := fun _ => []
  /-- ghost: an `untrack_all` raised `KeyError` -/
  failed : Bool := false

def setTracker (s : State) (k : K) (t : Tracker) : K → Tracker := fun j => if j = k then t else s.tracker j

/-- `d[key] = v` for a dict in insertion order. -/
def dictSet (d : List (Tid × K)) (t : Tid) (k : K) : List (Tid × K) :=
  if (d.map (·.1)).contains t then d.map (fun e => if e.1 = t then (t, k) else e) else d ++ [(t, k)]

/-- One frame in the loop of `track` (399-406): the frame variable is registered under `id(frame)`. -/
def trackFrame (k : K) (s : State) (f : Ref × Obj) : State :=
  let t := s.tracker k
  { s with
    tracker := setTracker s k { t with
      vars := fun r => if r = f.1 then some f.2 else t.vars r
      frames := if t.frames.contains f.1 then t.frames else t.frames ++ [f.1] }
    byFrame := fun r => if r = f.1 then some k else s.byFrame r
    handed := fun j => if j = k then s.handed k ++ [f] else s.handed j }

/-- `track(thread_id, frames, frame_custom_thread_id)` (376-408). -/
def track (s : State) (k : K) (tid : Tid) (custom : Option Tid) (frames : List (Ref × Obj)) : State :=
  let key := custom.getD tid                                       -- 388: `custom or thread_id`
  let t := s.tracker k
  let s := { s with
    byThread := dictSet s.byThread key k
    tracker := setTracker s k { t with
      main := some tid
      threads := if t.threads.contains key then t.threads else t.threads ++ [key] } }
  frames.foldl (trackFrame k) s

/-- The loop `del ...[frame_id]` (420-421); `false` when a key is missing (`KeyError`). -/
def delFrames : (Ref → Option K) → List Ref → (Ref → Option K) × Bool
  | m, [] => (m, true)
  | m, r :: rs =>
    match m r with
    | none => (m, false)
    | some _ => delFrames (fun x => if x = r then none else m x) rs

/-- `untrack_all` (410-430). -/
def untrackAll (s : State) (k : K) : State :=
  let t := s.tracker k
  if t.untracked then s
  else
    let byThread := s.byThread.filter (fun e => !t.threads.contains e.1)
    match delFrames s.byFrame t.frames with
    | (byFrame, true) =>
      { s with byThread, byFrame, tracker := setTracker s k { untracked := true, threads := t.threads } }
    | (byFrame, false) =>
      { s with byThread, byFrame, failed := true,
               tracker := setTracker s k { t with untracked := true } }

/-- `_register_variable` of a new variable of the tracker (349-351): children of an expanded variable,
results of evaluations. Registration after `untrack_all` fills a dict nobody reads any more. -/
def register (s : State) (k : K) (r : Ref) (o : Obj) : State :=
  let t := s.tracker k
  { s with
    tracker := setTracker s k { t with vars := fun x => if x = r then some o else t.vars x }
    handed := fun j => if j = k then s.handed k ++ [(r, o)] else s.handed j }

/-- `_get_tracker_for_variable_reference` (460-473). -/
def trackerFor (s : State) (r : Ref) : Option K :=
  match s.byFrame r with
  | some k => some k
  | none => (s.byThread.find? (fun e => ((s.tracker e.2).vars r).isSome)).map (·.2)

/-- `get_variable` (496-503); `none` is `KeyError`. -/
def getVariable (s : State) (r : Ref) : Option Obj :=
  match trackerFor s r with
  | none => none
  | some k => (s.tracker k).vars r

/-- `get_thread_id_for_variable_reference` (475-491). -/
def threadFor (s : State) (r : Ref) : Option Tid :=
  match trackerFor s r with
  | none => none
  | some k => (s.tracker k).main

inductive Action where
  | track (k : K) (tid : Tid) (custom : Option Tid) (frames : List (Ref × Obj))
  | register (k : K) (r : Ref) (o : Obj)
  | untrack (k : K)

def step (s : State) : Action → State
  | .track k tid custom frames => track s k tid custom frames
  | .register k r o => register s k r o
  | .untrack k => untrackAll s k

def run (s : State) (as : List Action) : State := as.foldl step s

def start : State := {}

end Frames
