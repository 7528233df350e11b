/-!
# Telling the client about tests

Models `PydevTestResult` (`_pydev_runfiles/pydev_runfiles_unittest.py`), which turns what `unittest`
says of tests into notifications, and the thread which sends notifications in batches (`ServerComm`,
`_pydev_runfiles/pydev_runfiles_xml_rpc.py` 86-146 and `pydev_runfiles_parallel_client.py` 33-81,
which are alike).

The output of a test and the time it took are left out.
-/
namespace RunTests

/-- The first argument of `notifyTest`. -/
inductive Cond where
  | ok
  | fail
  | error
  | skip
deriving DecidableEq, Repr

/-- A notification: a test starts, or a test (or a subtest, or the set-up of a class) came to a
result, with the texts of its errors. -/
inductive Note where
  | start (test : String)
  | result (test : String) (cond : Cond) (contents : List String)
deriving DecidableEq, Repr

/-- What `unittest` tells the result object. `holder` says that the error is of an `_ErrorHolder`
(the set-up of a class or a module failed); `skipped` is what `test._outcome.skipped` says. -/
inductive Call where
  | startTest (test : String)
  | addError (test : String) (text : String) (holder : Bool)
  | addFailure (test : String) (text : String)
  | addSubTest (test : String) (sub : String) (err : Option String)
  | stopTest (test : String) (skipped : Bool)

/-- The result object: `_current_errors_stack` and `_current_failures_stack`, if it has them, and
the notifications made. -/
structure Result where
  stacks : Option (List String × List String)
  notes : List Note

/-- The condition `_reportErrors` tells (`pydev_runfiles_unittest.py` 92-120). -/
def reportCond (errors failures : List String) : Cond :=
  if errors ≠ [] ∧ failures = [] then .error
  else if failures ≠ [] ∧ errors = [] then .fail
  else .error

/-- The methods of `PydevTestResult`: `addSubTest` 25-34, `startTest` 36-49, `stopTest` 67-90,
`addError` 122-129, `addFailure` 131-137 of `pydev_runfiles_unittest.py`. A `stopTest` without a
`startTest` raises in the code; it is nothing here. -/
def Result.call (r : Result) : Call → Result
  | .startTest t => ⟨some ([], []), r.notes ++ [.start t]⟩
  | .addError t e holder =>
    match r.stacks with
    | none => { r with notes := r.notes ++ [.result t (reportCond [e] []) [e]] }
    | some (es, fs) =>
      if holder then { r with notes := r.notes ++ [.result t (reportCond [e] []) [e]] }
      else { r with stacks := some (es ++ [e], fs) }
  | .addFailure t e =>
    match r.stacks with
    | none => { r with notes := r.notes ++ [.result t (reportCond [] [e]) [e]] }
    | some (es, fs) => { r with stacks := some (es, fs ++ [e]) }
  | .addSubTest t sub err =>
    match err with
    | some e => { r with notes := r.notes ++ [.result (t ++ " " ++ sub) (reportCond [e] []) [e]] }
    | none => r
  | .stopTest t skipped =>
    match r.stacks with
    | none => r
    | some (es, fs) =>
      if skipped then { r with notes := r.notes ++ [.result t .skip []] }
      else if es = [] ∧ fs = [] then { r with notes := r.notes ++ [.result t .ok []] }
      else { r with notes := r.notes ++ [.result t (reportCond es fs) (es ++ fs)] }

/-- A sequence of calls. -/
def Result.calls (r : Result) (cs : List Call) : Result := cs.foldl Result.call r

/-- A new result object. -/
def Result.new : Result := ⟨none, []⟩

/-! ## The thread which sends them -/

/-- An entry of `notifications_queue`: a notification, or `KillServer`. -/
inductive Item where
  | note (n : Note)
  | kill
deriving DecidableEq

/-- Where the thread is: at the blocking `get`, at the `get` which does not block, about to send, or
at its end; with the commands it holds and `kill_found`. -/
inductive CommAt where
  | waiting
  | draining (cmds : List Note) (kill : Bool)
  | sending (cmds : List Note) (kill : Bool)
  | finished
deriving DecidableEq

/-- The queue and the thread; for the statements, all that was put into the queue, and the batches
sent, with whether the call went well. -/
structure Comm where
  queue : List Item
  at_ : CommAt
  put : List Item
  sent : List (Bool × List Note)

/-- Something is put into the queue, or the thread does a step; the call it makes goes well or
fails. -/
inductive CommAct where
  | put (i : Item)
  | step (ok : Bool)

/-- A step: `ServerFacade` puts something (`pydev_runfiles_xml_rpc.py` 59-80), `run` goes on
(113-146): it takes one entry, then all there are until the queue is empty, then sends them as one
batch; if the call fails that is printed; it ends if `KillServer` was among them. -/
def Comm.step (s : Comm) : CommAct → Comm
  | .put i => { s with queue := s.queue ++ [i], put := s.put ++ [i] }
  | .step ok =>
    match s.at_ with
    | .waiting =>
      match s.queue with
      | [] => s
      | .note n :: q => { s with queue := q, at_ := .draining [n] false }
      | .kill :: q => { s with queue := q, at_ := .draining [] true }
    | .draining cmds k =>
      match s.queue with
      | [] => { s with at_ := .sending cmds k }
      | .note n :: q => { s with queue := q, at_ := .draining (cmds ++ [n]) k }
      | .kill :: q => { s with queue := q, at_ := .draining cmds true }
    | .sending cmds k =>
      { s with
        sent := if cmds = [] then s.sent else s.sent ++ [(ok, cmds)]
        at_ := if k then .finished else .waiting }
    | .finished => s

/-- A sequence of steps. -/
def Comm.steps (s : Comm) (as : List CommAct) : Comm := as.foldl Comm.step s

/-- The thread at its start. -/
def Comm.init : Comm := ⟨[], .waiting, [], []⟩

end RunTests
