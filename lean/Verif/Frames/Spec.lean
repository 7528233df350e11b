import Verif.Frames.Model
/-! What histories are considered, and what it means for a reference to be good. -/

namespace Frames.Spec

/-- Tracker `k` belongs to a thread that is suspended now: it was given a stack and not cleared. -/
def Live (s : State) (k : K) : Prop := (s.tracker k).threads ≠ [] ∧ (s.tracker k).untracked = false

/-- CPython's rule for `id`: the number `r` can be the `id` of `o` only if no live tracker keeps another
object with that `id` alive. -/
def AddrOk (s : State) (r : Ref) (o : Obj) : Prop :=
  ∀ k, Live s k → ∀ o', (s.tracker k).vars r = some o' → o' = o

/-- What the environment guarantees for each action: `id`s are proper; a thread that is suspended is not
suspended again before it resumes, and a frame belongs to one suspended thread only; variables are
created from frames of a tracker, hence after `track`. -/
def Ok (s : State) : Action → Prop
  | .track k tid custom frames =>
    (s.tracker k).untracked = false ∧
    (custom.getD tid) ∉ s.byThread.map (·.1) ∧
    (∀ f ∈ frames, AddrOk s f.1 f.2 ∧ (s.byFrame f.1 = none ∨ s.byFrame f.1 = some k)) ∧
    (∀ f ∈ frames, ∀ g ∈ frames, f.1 = g.1 → f = g)
  | .register k r o => AddrOk s r o ∧ (s.tracker k).threads ≠ []
  | .untrack _ => True

/-- A history all of whose actions are possible. -/
def Valid : State → List Action → Prop
  | _, [] => True
  | s, a :: as => Ok s a ∧ Valid (step s a) as

/-! The vocabulary of the theorems: it looks at the history only. -/

/-- The suspension `k` has begun and has not ended. -/
def Suspended (as : List Action) (k : K) : Prop :=
  (∃ tid c fs, Action.track k tid c fs ∈ as) ∧ Action.untrack k ∉ as

/-- During the suspension `k` the client was given the reference `r` for the object (or frame) `o`. -/
def HandedOut (as : List Action) (k : K) (r : Ref) (o : Obj) : Prop :=
  (∃ tid c fs, Action.track k tid c fs ∈ as ∧ (r, o) ∈ fs) ∨ Action.register k r o ∈ as

/-- `tid` is the thread whose suspension `k` is. -/
def ThreadOf (as : List Action) (k : K) (tid : Tid) : Prop :=
  ∃ c fs, Action.track k tid c fs ∈ as

end Frames.Spec
