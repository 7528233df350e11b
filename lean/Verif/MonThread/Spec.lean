import Verif.MonThread.Model
/-!
What is claimed of the threads that are looked at.
-/

namespace MonThread

/-- Frames that say nothing about the thread: of the program, or of other functions of `threading`, `pydevd` and `pydev_monkey`. -/
def Plain (f : Frame) : Prop := f.kind = .user ∨ f.kind = .threading ∨ f.kind = .monkey ∨ f.kind = .pydevd

/-- Frames from which the thread is known. -/
def Known (f : Frame) : Prop := f.kind = .inner ∨ f.kind = .call ∨ f.kind = .exec

/-- What is so in a thread whose object is `o`: the frames from which a thread is known have it in their local, or nothing yet; it is the one
registered, or nothing yet is; a dummy made for the thread is its object. -/
structure Own (o : Th) (e : Event) : Prop where
  loc : ∀ f ∈ e.stack, Known f → e.loc f.id = none ∨ e.loc f.id = some o
  active : e.active = none ∨ e.active = some o
  dummy : e.active = none → e.dummy = o
  /-- the proviso: no `is_alive` of another thread -/
  isAlive : ∀ f ∈ e.stack, f.kind = .isAlive → e.loc f.id = some o

/-- The frames a thread is known from keep their local, once it is there; frames are told apart by their numbers. -/
def Steady (o : Th) (acts : List Act) : Prop :=
  ∀ e, (.event e ∈ acts ∨ .start e ∈ acts) → Own o e ∧
    ∀ e', (.event e' ∈ acts ∨ .start e' ∈ acts) → ∀ f ∈ e.stack, (Known f ∨ f.kind = .isAlive) →
      e'.loc f.id = none ∨ e'.loc f.id = some o

/-- The thread is on its way: the code of the program was entered from a frame from which the thread is known
(or registered), or from nowhere. -/
def Under (e : Event) : Prop :=
  (∃ above f below, e.stack = above ++ f :: below ∧ (∀ x ∈ above, Plain x) ∧ Known f ∧
    (e.loc f.id ≠ none ∨ e.active ≠ none)) ∨
  (∃ above f, e.stack = above ++ [f] ∧ (∀ x ∈ above, Plain x) ∧ f.kind = .user)

/-- The last word on a thread: `start_monitoring` or `stop_monitoring` of that thread, of those that had an effect. -/
def Quiet : Act → Prop
  | .event _ => True
  | _ => False

end MonThread
