import Verif.TopLevel.Model
/-! Which frames are entry points, and which exceptions reach one, without the debugger. -/

namespace TopLevel.Spec

/-- The frames of Python or of the debugger from which the code of a thread is run: `Thread._bootstrap_inner` (for a
thread of `threading`), the `__call__` of the debugger's wrapper for threads started otherwise, and `_exec` of the
debugger for the main thread. -/
def Entry (f : Fn) : Prop :=
  (stem f.file = c!"threading" ∧ (f.name = c!"_bootstrap_inner" ∨ f.name = c!"__bootstrap_inner") ∧ f.self = true) ∨
  (stem f.file = c!"pydev_monkey" ∧ f.name = c!"__call__") ∨
  (stem f.file = c!"pydevd" ∧ f.name = c!"_exec")

/-- A function which can be told from the entry points and from the functions the debugger runs on the way there. -/
def Ordinary (f : Fn) : Prop :=
  (stem f.file = c!"threading" →
    f.name ≠ c!"_bootstrap_inner" ∧ f.name ≠ c!"__bootstrap_inner" ∧ f.name ≠ c!"_bootstrap" ∧ f.name ≠ c!"__bootstrap") ∧
  (stem f.file = c!"pydev_monkey" → f.name ≠ c!"__call__") ∧
  (stem f.file = c!"pydevd" → f.name ≠ c!"run" ∧ f.name ≠ c!"main" ∧ f.name ≠ c!"_exec") ∧
  stem f.file ≠ c!"pydevd_tracing"

/-- The file's name says nothing to the debugger. -/
def User (f : Fn) : Prop :=
  stem f.file ≠ c!"threading" ∧ stem f.file ≠ c!"pydev_monkey" ∧ stem f.file ≠ c!"pydevd" ∧
  stem f.file ≠ c!"pydevd_tracing"

/-- With `d` frames above it, the frame we look at is not left. -/
def Inside : Nat → List Act → Prop
  | _, [] => True
  | d, .call _ :: r => Inside (d + 1) r
  | 0, .ret _ :: _ => False
  | d + 1, .ret _ :: r => Inside d r
  | 0, .leave .. :: _ => False
  | d + 1, .leave .. :: r => Inside d r
  | d, .line :: r => Inside d r
  | d, .raise .. :: r => Inside d r
  | d, .stop :: r => Inside d r

/-- The exceptions, with lines, which arrive or are raised in the frame with `d` frames above it. -/
def arrivals : Nat → List Act → List (Nat × Nat)
  | _, [] => []
  | d, .call _ :: r => arrivals (d + 1) r
  | d, .ret _ :: r => arrivals (d - 1) r
  | 0, .leave .. :: r => arrivals 0 r
  | 1, .leave _ e b :: r => (b, e) :: arrivals 0 r
  | d + 2, .leave .. :: r => arrivals (d + 1) r
  | d, .line :: r => arrivals d r
  | 0, .raise l e :: r => (l, e) :: arrivals 0 r
  | d + 1, .raise .. :: r => arrivals (d + 1) r
  | d, .stop :: r => arrivals d r

/-- How many frames are above the frame we look at after `acts`. -/
def depth : Nat → List Act → Nat
  | d, [] => d
  | d, .call _ :: r => depth (d + 1) r
  | d, .ret _ :: r => depth (d - 1) r
  | d, .leave .. :: r => depth (d - 1) r
  | d, _ :: r => depth d r

/-- The thread is not stopped while there are frames above the frame we look at. -/
def Undisturbed : Nat → List Act → Prop
  | _, [] => True
  | d, .call _ :: r => Undisturbed (d + 1) r
  | d, .ret _ :: r => Undisturbed (d - 1) r
  | d, .leave .. :: r => Undisturbed (d - 1) r
  | d, .stop :: r => d = 0 ∧ Undisturbed d r
  | d, .line :: r => Undisturbed d r
  | d, .raise .. :: r => Undisturbed d r

/-- All calls are of functions with property `P`. -/
def Calls (P : Fn → Prop) (acts : List Act) : Prop := ∀ f, Act.call f ∈ acts → P f

end TopLevel.Spec
