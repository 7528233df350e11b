import Verif.RunTests.Model
/-!
# Running tests in several processes

Models `_pydev_runfiles/pydev_runfiles_parallel.py` (the batches of tests, and the queue the clients
take them from) and the loop of `_pydev_runfiles/pydev_runfiles_parallel_client.py`.

Simplified: each client imports the same modules from the same files as the runner did. The request
of a client for tests is one step. A client process may die at any point.
-/
namespace RunTests

/-- `split`: the value of `--split_jobs`. -/
inductive Split where
  | module_
  | tests
deriving DecidableEq, Repr

/-- `module_to_tests.setdefault(key, []).append(test)` (`pydev_runfiles_parallel.py` 68-69) -/
def addToModule (d : List ((Str × Str) × List Case)) (c : Case) : List ((Str × Str) × List Case) :=
  Py.Dict.set d (c.file, c.mod) ((Py.Dict.get d (c.file, c.mod)).getD [] ++ [c])

/-- `queue_elements` (`pydev_runfiles_parallel.py` 61-83). -/
def elements (split : Split) (ts : List Tree) : List (List Case) :=
  match split with
  | .module_ => ((flattenList ts).foldl addToModule []).map (·.2)
  | .tests => (flattenList ts).map fun c => [c]

/-- `test_case.__pydev_pyfile__ + "|" + test_name` (`pydev_runfiles_parallel.py` 94-101). -/
def testName (c : Case) : Str := c.file ++ '|' :: dotted c.cls c.method

/-- The jobs started and the queue; `none` when the tests are not run in parallel
(`pydev_runfiles_parallel.py` 46-112). -/
def plan (debugging : Bool) (jobs : Nat) (split : Split) (ts : List Tree) : Option (Nat × List (List Str)) :=
  if debugging then none
  else
    let els := elements split ts
    let jobs := if els.length < jobs then els.length else jobs
    if jobs < 2 then none else some (jobs, els.map fun b => b.map testName)

/-- `files_to_tests` of a client: names which are not two parts are passed over
(`pydev_runfiles_parallel_client.py` 145-149). -/
def filesToTests (batch : List Str) : List (Str × List Str) :=
  batch.foldl (fun d t =>
    match Py.split1 '|' t with
    | [f, n] => Py.Dict.set d f ((Py.Dict.get d f).getD [] ++ [n])
    | _ => d) []

/-- The tests a client runs for a batch (`pydev_runfiles_parallel_client.py` 151-167): those
`PydevTestRunner` collects from the files of the batch. With no files nothing is run. -/
def clientRun (mods : List Module) (batch : List Str) : List Case :=
  let files := filesToTests batch
  if files = [] then []
  else flattenList (collect (fun _ _ => false) ⟨files, [], [], []⟩
    ((files.map (·.1)).filterMap fun f => mods.find? fun m => m.file == f))

/-- Where a client is: about to ask for tests, running those of its batch, ended, or dead. -/
inductive Status where
  | asking
  | running (left : List Case)
  | ended
  | dead
deriving DecidableEq

/-- The queue, the clients, the tests run (with the client), and, for the statements only, the
batches handed out and the tests which clients that died had still to run. -/
structure PState where
  queue : List (List Str)
  clients : List Status
  ran : List (Nat × Case)
  given : List (Nat × List Str)
  lost : List Case

/-- What happens next: a client asks for tests, runs its next test (or finds that there is none
left), or dies. -/
inductive PAct where
  | ask (i : Nat)
  | run (i : Nat)
  | die (i : Nat)

/-- The state before the clients start (`pydev_runfiles_parallel.py` 110-131). -/
def PState.init (jobs : Nat) (queue : List (List Str)) : PState :=
  ⟨queue, List.replicate jobs .asking, [], [], []⟩

/-- A step. `ask`: `GetTestsToRun` takes the first batch of the queue; an empty answer ends the
client (`pydev_runfiles_parallel.py` 168-180, `pydev_runfiles_parallel_client.py` 130-141). -/
def PState.step (mods : List Module) (s : PState) : PAct → PState
  | .ask i =>
    match s.clients[i]? with
    | some .asking =>
      match s.queue with
      | [] => { s with clients := s.clients.set i .ended }
      | b :: q =>
        if b = [] then { s with queue := q, clients := s.clients.set i .ended }
        else { s with queue := q, clients := s.clients.set i (.running (clientRun mods b)), given := s.given ++ [(i, b)] }
    | _ => s
  | .run i =>
    match s.clients[i]? with
    | some (.running []) => { s with clients := s.clients.set i .asking }
    | some (.running (t :: l)) => { s with clients := s.clients.set i (.running l), ran := s.ran ++ [(i, t)] }
    | _ => s
  | .die i =>
    match s.clients[i]? with
    | some (.running l) => { s with clients := s.clients.set i .dead, lost := s.lost ++ l }
    | some .asking => { s with clients := s.clients.set i .dead }
    | _ => s

/-- A sequence of steps. -/
def PState.steps (mods : List Module) (s : PState) (as : List PAct) : PState := as.foldl (PState.step mods) s

end RunTests
