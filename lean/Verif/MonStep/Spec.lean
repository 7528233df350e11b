import Verif.MonStep.Model
/-!
What the properties say, without the debugger's own state where that is possible.
-/

namespace MonStep

/-- what the theorem about the two machines needs of an event: breakpoints of functions that are called are known to the debugger, the thread is
not asked to pause during a step over or a step return, and if it stops at an exception there is some breakpoint, or one notification for
all threads -/
def Fine (cfg : Cfg) (st : St) (e : Event) : Prop :=
  match e.ev with
  | .call c _ => c.bps ≠ [] ∨ c.funcBp = true → cfg.hasBreaks = true
  | .pause => st.cmd.isOver = false ∧ st.cmd.isRet = false
  | .raise stops => stops = true → cfg.hasBreaks = true ∨ cfg.single = true
  | _ => True

/-- all events are fine -/
def AllFine (cfg : Cfg) (st : St) : List Event → Prop
  | [] => True
  | e :: es => Fine cfg st e ∧ AllFine cfg (allStep cfg st e).1 es

/-! ### The program alone -/

/-- the frames of the program and the id of the next one -/
def progStep (p : Stack × Nat) (e : Event) : Stack × Nat :=
  match e.ev with
  | .call c _ => (⟨p.2, c, c.first⟩ :: p.1, p.2 + 1)
  | .line l _ => match p.1 with
    | [] => p
    | f :: rest => ({ f with line := l } :: rest, p.2)
  | .ret | .unwind => (p.1.tail, p.2)
  | .raise _ | .pause => p

/-- the frames of the program after these events, the innermost first -/
def frames (es : List Event) : Stack := (es.foldl progStep ([], 0)).1

/-- the debugger's own functions are in files that are known to be its own (`pydevd_dont_trace_files.py`) -/
def Own (es : List Event) : Prop :=
  ∀ e ∈ es, match e.ev with
    | .call c _ => c.debugStart = true ∨ c.traceProperty = true → c.skip = true
    | _ => True

/-- a step may stop in this code: it is not part of the debugger, not marked `@DontTrace` and not filtered out; `my` is for the commands that
step in the user's code only -/
def Shown (cfg : Cfg) (my : Bool) (c : Code) : Prop :=
  c.skip = false ∧ c.hook = false ∧ (cfg.filtersOn = true ∨ my = true → c.filterForce = false)

/-! ### What the user sees -/

def stopOf : Out → Option (Why × Frame)
  | .stop w f => some (w, f)
  | .reached _ => none

/-- the stop at the event `e` after the events `es`, with the debugger as it is: why, and the frame that is shown -/
def stopsAt (cfg : Cfg) (es : List Event) (e : Event) : Option (Why × Frame) :=
  let r := optRun cfg start (startMon cfg) es
  (optStep cfg r.1 r.2.1 e).2.2.findSome? stopOf

/-- after the events `es0` the thread stopped at `e` and showed `f`; it did not stop again in the events `es` that followed -/
structure Since (cfg : Cfg) (es0 : List Event) (e : Event) (f : Frame) (es : List Event) : Prop where
  stopped : ∃ w, stopsAt cfg es0 e = some (w, f)
  quiet : ∀ a x b, es = a ++ x :: b → stopsAt cfg (es0 ++ e :: a) x = none

/-- the frame whose return ends a step return from the frame `f` with the callers `back`, and the frame it returns to: the callers that are
filtered out are left as well -/
inductive Leaves (cfg : Cfg) (my : Bool) : Frame → Stack → Frame → Frame → Prop
  | here {f b : Frame} {rest : Stack} : ¬ ((my = true ∨ cfg.filtersOn = true) ∧ (if my then b.code.filterForce else b.code.filterAny) = true) →
      Leaves cfg my f (b :: rest) f b
  | outer {f b : Frame} {rest : Stack} {g b' : Frame} : (my = true ∨ cfg.filtersOn = true) → (if my then b.code.filterForce else b.code.filterAny) = true →
      Leaves cfg my b rest g b' → Leaves cfg my f (b :: rest) g b'

end MonStep
