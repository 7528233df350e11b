import Verif.Notify.Model
/-! What a client sees: functions of the log of events only. -/

namespace Notify.Spec

/-- Request times of the stop events, in order. -/
def stopTimes (log : List Ev) : List Int :=
  log.filterMap fun | .stop t _ _ => some t | _ => none

/-- The client believes the threads are stopped: the last stop/continue event is a stop. -/
def clientStopped (log : List Ev) : Bool :=
  log.foldl (fun b e => match e with | .stop .. => true | .cont _ => false | _ => b) false

/-- Callbacks registered, in order. -/
def registrations (log : List Ev) : List Nat :=
  log.filterMap fun | .registered c => some c | _ => none

/-- Callbacks called, in order. -/
def calls (log : List Ev) : List Nat :=
  log.filterMap fun | .called c => some c | _ => none

end Notify.Spec
