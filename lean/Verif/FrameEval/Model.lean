/-!
Model of the decision the frame evaluator makes when a frame of a function begins or
goes on: run it as it is, trace it, or run a copy of its code with breakpoints in it.

Models /repo/_pydevd_frame_eval/pydevd_frame_evaluator.template.pyx, for one function
in a file that is debugged, together with what changes the breakpoints
(/repo/_pydevd_bundle/pydevd_api.py, /repo/pydevd.py).
-/
namespace FrameEval

/-- A function: the lines that start in its code (`line_to_offset`, lines 333-350), and for
which lines breakpoints can be put into it (`insert_pydevd_breaks` succeeds). -/
structure Fn where
  lines : List Int
  canInsert : List Int → Bool

/-- The code objects of the function: its own, and copies with breaks at some lines. -/
inductive Code where
  | orig
  | copy (id : Nat) (breaks : List Int)
  deriving DecidableEq, Repr

/-- The lines a code object has breaks at. -/
def Code.breaks : Code → List Int
  | .orig => []
  | .copy _ bs => bs

/-- `FuncCodeInfo` (lines 121-146); the name and the file are those of the function, and
`always_skip_code` is false. -/
structure Info where
  mtime : Nat
  found : Bool
  newCode : Option Code
  deriving DecidableEq, Repr

/-- What becomes of the frame. -/
inductive Decision where
  /-- `f_trace` is set. -/
  | traced
  /-- It runs this code, not traced. -/
  | runs (code : Code)
  /-- The evaluator raises an exception. -/
  | error
  deriving DecidableEq, Repr

/-- How far `get_func_code_info` (lines 213-307) has got. -/
inductive Stage where
  /-- Line 244 is next. -/
  | looked
  /-- `breakpoints_mtime` was set; line 274 is next. -/
  | stamped (mtime : Nat)
  /-- `breakpoints` was read; line 275 is next. -/
  | readLines (mtime : Nat) (bps : Option (List Int))
  deriving DecidableEq, Repr

/-- A thread in the evaluator, for a frame with the given code.  `begun` and `calm` are not in
the code: how many changes had been made when it entered, and that none was under
way. -/
structure Flight where
  code : Code
  begun : Nat
  calm : Bool
  stage : Stage
  deriving DecidableEq, Repr

/-- A decision that was made, with what is needed to judge it: the thread's flight, and
the breakpoints of the file and of functions of that name at that moment. -/
structure Made where
  flight : Flight
  decision : Decision
  bps : Option (List Int)
  fbp : Bool
  changes : Nat
  deriving DecidableEq, Repr

/-- The state of the debugger. -/
structure State where
  /-- `PyDB.mtime`. -/
  mtime : Nat := 0
  /-- `PyDB.breakpoints.get(file)`: the lines, if there is an entry. -/
  bps : Option (List Int) := none
  /-- Whether there is a breakpoint for the function's name. -/
  fbp : Bool := false
  /-- A command has changed breakpoints and is about to raise `mtime`. -/
  pending : Bool := false
  /-- How many changes were made (not in the code). -/
  changes : Nat := 0
  /-- The info kept in a code object (`_PyCode_GetExtra`). -/
  extra : Code → Option Info := fun _ => none
  /-- `_cache`: for a copy, the lines it has breaks at. -/
  cache : Code → Option (List Int) := fun _ => none
  nextId : Nat := 0
  flights : Nat → Option Flight := fun _ => none
  made : List Made := []

/-- What can happen. -/
inductive Action where
  /-- A command changes the entry of the file or the function breakpoints: `add_breakpoint`,
  `remove_breakpoint`, `remove_all_breakpoints` (pydevd_api.py 610-630, 647-691, 693-757;
  `consolidate_breakpoints`, pydevd.py 1862-1867, makes a new dictionary). -/
  | change (bps : Option (List Int)) (fbp : Bool)
  /-- `mtime` is raised (`_clear_caches`, `on_breakpoints_changed`: pydevd.py 1180, 1321). -/
  | bump
  /-- A thread enters the evaluator for a frame with the code. -/
  | enter (tid : Nat) (code : Code)
  | stamp (tid : Nat)
  | readLines (tid : Nat)
  | finish (tid : Nat)
  deriving DecidableEq, Repr

/-- The lines of the function that have breakpoints, as `generate_code_with_breakpoints` (line
436-438) and `compute_force_stay_in_untraced_mode` (390) find them. -/
def hitLines (f : Fn) (bps : List Int) : List Int := bps.filter f.lines.contains

/-- `compute_force_stay_in_untraced_mode` (lines 379-399) for a copy with these breaks:
whether a breakpoint is found, and whether to stay untraced. -/
def computeForceStay (f : Fn) (breaks bps : List Int) : Bool × Bool :=
  let found := !(hitLines f bps).isEmpty
  (found, if found then bps.all breaks.contains else true)

/-- `generate_code_with_breakpoints` (lines 407-469): whether a breakpoint is found, and the
code to use. -/
def generate (f : Fn) (id : Nat) (bps : List Int) : Bool × Option Code :=
  let hits := hitLines f bps
  if hits.isEmpty then (false, some .orig)
  else if f.canInsert hits then (true, some (.copy id hits)) else (true, none)

/-- Lines 271-303 of `get_func_code_info`: what is found, the new code, and
`force_stay_in_untraced_mode`; `none` if it raises: `set.intersection(None)`. -/
def compute (f : Fn) (s : State) (code : Code) (bps : Option (List Int)) : Option (Bool × Option Code × Bool) :=
  match s.cache code with
  | some breaks =>
    match bps with
    | none => none
    | some b => some ((computeForceStay f breaks b).1, none, (computeForceStay f breaks b).2)
  | none =>
    if s.fbp then some (true, none, false)
    else match bps with
      | some (x :: b) => some ((generate f s.nextId (x :: b)).1, (generate f s.nextId (x :: b)).2, false)
      | _ => some (false, none, false)

/-- What the evaluator does with the info (lines 571-606), without plugins. -/
def decide (code : Code) (found : Bool) (newCode : Option Code) (force : Bool) : Decision :=
  if found then
    if force then .runs code
    else match newCode with
      | none => .traced
      | some c => .runs c
  else .runs code

/-- The thread is done. -/
def State.land (s : State) (tid : Nat) (fl : Flight) (d : Decision) : State :=
  { s with
    flights := fun t => if t = tid then none else s.flights t
    made := ⟨fl, d, s.bps, s.fbp, s.changes⟩ :: s.made }

/-- A copy that was made is put into `_cache` (lines 466-467). -/
def addCopy (cache : Code → Option (List Int)) : Option Code → Code → Option (List Int)
  | some (.copy id bs), c => if c = .copy id bs then some bs else cache c
  | _, c => cache c

/-- One step.  A frame has the function's own code or a copy that was made. -/
def step (f : Fn) (s : State) : Action → Option State
  | .change bps fbp => some { s with bps, fbp, pending := true, changes := s.changes + 1 }
  | .bump => some { s with mtime := s.mtime + 1, pending := false }
  | .enter tid code =>
    if (s.flights tid).isNone ∧ (code = .orig ∨ (s.cache code).isSome) then
      let fl : Flight := ⟨code, s.changes, !s.pending, .looked⟩
      match s.extra code with
      | some info =>
        if info.mtime = s.mtime then some (s.land tid fl (decide code info.found info.newCode false))
        else some { s with flights := fun t => if t = tid then some fl else s.flights t }
      | none => some { s with flights := fun t => if t = tid then some fl else s.flights t }
    else none
  | .stamp tid =>
    match s.flights tid with
    | some ⟨code, begun, calm, .looked⟩ =>
      some { s with flights := fun t => if t = tid then some ⟨code, begun, calm, .stamped s.mtime⟩ else s.flights t }
    | _ => none
  | .readLines tid =>
    match s.flights tid with
    | some ⟨code, begun, calm, .stamped m⟩ =>
      some { s with flights := fun t => if t = tid then some ⟨code, begun, calm, .readLines m s.bps⟩ else s.flights t }
    | _ => none
  | .finish tid =>
    match s.flights tid with
    | some ⟨code, begun, calm, .readLines m bps⟩ =>
      let fl : Flight := ⟨code, begun, calm, .readLines m bps⟩
      match compute f s code bps with
      | none => some (s.land tid fl .error)
      | some (found, newCode, force) =>
        let s' := s.land tid fl (decide code found newCode force)
        some { s' with
          extra := fun c => if c = code then some ⟨m, found, newCode⟩ else s.extra c
          cache := addCopy s.cache newCode
          nextId := s.nextId + 1 }
    | _ => none

/-- A history. -/
def run (f : Fn) (s : State) : List Action → Option State
  | [] => some s
  | a :: as => (step f s a).bind fun s' => run f s' as

/-! ### Specification of C64 -/

/-- The function has a breakpoint on one of its lines, or one for its name. -/
def HasBreak (f : Fn) (bps : Option (List Int)) (L : Int) : Prop := ∃ b, bps = some b ∧ L ∈ b ∧ L ∈ f.lines

/-- The decision serves the breakpoints: the frame is traced, or runs code with breaks at
all lines of the function that have a breakpoint (and there is no breakpoint for its
name, which is met by tracing only). -/
def Serves (f : Fn) (code : Code) (bps : Option (List Int)) (fbp : Bool) : Decision → Prop
  | .traced => True
  | .runs c => (∀ L, HasBreak f bps L → L ∈ c.breaks) ∧ (code = .orig → fbp = false)
  | .error => False

end FrameEval
