import Verif.Lifecycle.Model
import Verif.Common.PyInt
import Verif.Common.Str
/-!
Model of the requests of the debug adapter protocol to pause, continue and step.

Source: `/repo/_pydevd_bundle/pydevd_process_net_command_json.py` `on_pause_request` (544-554), `on_continue_request` (556-584),
`on_next_request` (586-601), `on_stepin_request` (646-658, without a target), `on_stepout_request` (683-698);
`/repo/_pydevd_bundle/pydevd_api.py` `request_suspend_thread` (177-201), `request_resume_thread` (223-224), `request_step`
(252-264); `/repo/pydevd.py` `PyDB.set_suspend` (1948-1961); `/repo/_pydevd_bundle/pydevd_comm.py` `internal_step_in_thread`
(714-725).

Simplifications: those of the area Lifecycle, of which the threads and their states are used. The commands posted for threads
are one list; a command is done at any later time by an action of its own (that it is done by that thread is the area
CmdQueue). Tracing, `sys.monitoring` and the notifications of stopped threads are other areas. The answer to a continue
request in the mode with one notification for all threads is sent when the threads have resumed; here it is sent at once.
-/

namespace ThreadReqs

open Lifecycle

abbrev Str := List Char

/-- the step commands (`pydevd_comm_constants.py`) -/
inductive StepKind
  | over | into | out
deriving DecidableEq

def stepCmdId (libFilter : Bool) : StepKind → Int
  | .over => if libFilter then 159 else 108
  | .into => if libFilter then 144 else 107
  | .out => if libFilter then 160 else 109

structure Db where
  threads : List Thread
  /-- `multi_threads_single_notification` -/
  single : Bool := false
  /-- `stepping_resumes_all_threads` -/
  stepResumesAll : Bool := true
  /-- `get_use_libraries_filter()` -/
  libFilter : Bool := false
  /-- the commands posted and not yet done: thread id and step command -/
  posted : List (Str × Int) := []
deriving DecidableEq

/-- `set_suspend` (1948-1961) for a pause -/
def setSuspend (db : Db) (obj : Nat) (others : Bool) : Db :=
  let ts := updateObjs db.threads [obj] none (fun t => markSuspended t cmdThreadSuspend)
  { db with threads := if others || db.single then suspendAll ts (some obj) else ts }

/-- `request_suspend_thread` (177-201) -/
def requestSuspendThread (db : Db) (id : Str) : Db :=
  let all := Py.strip id = c!"*"
  let objs : List (Option Nat) :=
    if all then (db.threads.filter (fun t => !t.daemon)).map (fun t => some t.obj)
    else if Py.startsWith id c!"__frame__:" then []
    else [findById db.threads id]
  match objs.filterMap (fun x => x) with
  | [] => db
  | obj :: _ => setSuspend db obj all

/-- `request_step` (252-264) -/
def requestStep (db : Db) (id : Str) (cmd : Int) : Db :=
  match findById db.threads id with
  | none => db
  | some _ => { db with posted := db.posted ++ [(id, cmd)] }

/-- `internal_step_in_thread` (714-725) -/
def stepInThread (db : Db) (id : Str) (cmd : Int) : Db :=
  let found := findById db.threads id
  let ts := updateObjs db.threads found.toList none fun t =>
    { t with info := { t.info with origStepCmd := cmd, stepCmd := cmd, stepStop := none, state := .run } }
  { db with threads := if db.stepResumesAll then resumeThreads ts c!"*" found else ts }

/-- a request -/
inductive Req
  | pause (id : Str)
  | continue_ (id : Str)
  | step (kind : StepKind) (id : Str)
  /-- the command posted first is done -/
  | doPosted

/-- the answer of a request -/
inductive Resp
  | ok
  | continued (all : Bool)
deriving DecidableEq

def request (db : Db) : Req → Db × Option Resp
  | .pause id => (requestSuspendThread db id, some .ok)
  | .continue_ id =>
    let id := if db.single then c!"*" else id
    ({ db with threads := resumeThreads db.threads id }, some (.continued (id == c!"*")))
  | .step k id => (requestStep db id (stepCmdId db.libFilter k), some .ok)
  | .doPosted =>
    match db.posted with
    | [] => (db, none)
    | (id, cmd) :: rest => (stepInThread { db with posted := rest } id cmd, none)

def run (db : Db) (rs : List Req) : Db := rs.foldl (fun d r => (request d r).1) db

end ThreadReqs
