import Verif.Startup.Model
/-!
# What a user relies on when debugging starts

Everything is said of `hist`, what happened so far.
-/
namespace Startup.Spec
open Startup

/-- Requests by which a client says that it has configured everything. -/
def goes (r : Req) : Prop := r = .configurationDone ∨ r = .run

/-- The client of `d` said so. -/
def Go (h : List Ev) (d : Nat) : Prop := ∃ c r, goes r ∧ Ev.handled d c r true ∈ h

/-- `d` is set up the way the call which created it asked for: connected, if it was to block until connected,
and told to go on by its client, if it was to wait for that. -/
def SetUp (h : List Ev) (d : Nat) : Prop :=
  ∃ t a, Ev.made t d a ∈ h ∧ (a.block = true → Ev.attempt d true ∈ h) ∧ (a.wait = true → Go h d)

/-- Connecting failed. -/
def Failed (h : List Ev) (d : Nat) : Prop := Ev.attempt d false ∈ h

/-- The event takes back a `configurationDone` of `d`'s client: a new session begins, or the client went. -/
def Clears (d : Nat) (e : Ev) : Prop :=
  (∃ c b, e = .handled d c .initialize b) ∨ (∃ c b, e = .handled d c .disconnect b) ∨ e = .dropped d

/-- A client of `d` sent `configurationDone`, and nothing took that back since. -/
def Attached (h : List Ev) (d : Nat) : Prop :=
  ∃ pre c b post, h = pre ++ .handled d c .configurationDone b :: post ∧ ∀ e ∈ post, ¬ Clears d e

/-- The connection sent `launch` or `attach`, and no `disconnect` since. -/
def Launched (h : List Ev) (c : Nat) : Prop :=
  ∃ pre d r b post, h = pre ++ .handled d c r b :: post ∧ (r = .launch ∨ r = .attach) ∧
    ∀ e ∈ post, ∀ d' b', e ≠ .handled d' c .disconnect b'

/-- The event was set: by the user, or by an earlier wait with the same event that was not in vain. -/
def CancelSet (h : List Ev) (e : Nat) : Prop :=
  Ev.cancelled e ∈ h ∨ ∃ t d, Ev.attached t d (some e) ∈ h

/-- States a process can get into. -/
def Reachable (s : St) : Prop := ∃ acts, s = exec program acts ∨ ∃ port, s = exec (script port) acts

end Startup.Spec
