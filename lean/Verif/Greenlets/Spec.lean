import Verif.Greenlets.Model
/-!
What greenlets do, and what is to be shown, without the debugger.

`owner g` is the thread a greenlet belongs to.
-/

namespace Greenlets.Spec

structure World where
  /-- the greenlet that runs in a thread, once that is known -/
  running : Nat → Option Nat := fun _ => none
  /-- switched away from, and not switched to since -/
  paused : Nat → Bool := fun _ => false
  stopped : Nat → Bool := fun _ => false

def upd {α : Type} (f : Nat → α) (k : Nat) (v : α) : Nat → α := fun x => if x = k then v else f x

/-- What may happen: only the greenlet that runs in a thread can be switched away from, a greenlet stays in its thread,
and a stopped thread does nothing until it is resumed. -/
def Possible (owner : Nat → Nat) (w : World) : Act → Prop
  | .switch t o g fr =>
      owner o = t ∧ owner g = t ∧ (w.running t = none ∨ w.running t = some o) ∧ (fr = true → o ≠ g) ∧
        w.stopped t = false
  | .stop t => w.stopped t = false
  | .resume t => w.stopped t = true

def next (w : World) : Act → World
  | .switch t o g fr => { w with running := upd w.running t (some g), paused := upd (upd w.paused o fr) g false }
  | .stop t => { w with stopped := upd w.stopped t true }
  | .resume t => { w with stopped := upd w.stopped t false }

def world (acts : List Act) : World := acts.foldl next {}

/-- A possible history. -/
inductive History (owner : Nat → Nat) : List Act → Prop where
  | nil : History owner []
  | snoc {acts a} : History owner acts → Possible owner (world acts) a → History owner (acts ++ [a])

/-- A possible history in which a thread is resumed only while no other one is stopped. -/
inductive OneByOne (owner : Nat → Nat) : List Act → Prop where
  | nil : OneByOne owner []
  | snoc {acts a} : OneByOne owner acts → Possible owner (world acts) a →
      (∀ t u, a = .resume t → u ≠ t → (world acts).stopped u = false) → OneByOne owner (acts ++ [a])

/-- What a message says of the shown greenlets. -/
def tell (v : Nat → Bool) : Msg → Nat → Bool
  | .started id => upd v id true
  | .exited id => upd v id false
  | .stopped _ => v

/-- The shown greenlets, as the client knows them from the messages. -/
def view (msgs : List Msg) : Nat → Bool := msgs.foldl tell (fun _ => false)

end Greenlets.Spec
