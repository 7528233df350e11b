import Verif.PatchArgs.Model
/-!
# Functions which start processes

Models the functions the debugger puts in place of those of Python that start or replace processes:
`/repo/_pydev_bundle/pydev_monkey.py` `skip_subprocess_arg_patch` (33-43), `monkey_patch_module` (685-694),
`create_warn_multiproc` (707-716), `create_execl` ... `create_subprocess_warn_fork_exec` (719-897), `create_fork` (933-971),
`send_process_created_message`, `send_process_about_to_be_replaced` (974-985), `patch_new_process_functions` (988-1050),
`patch_new_process_functions_with_warning` (1053-1095), on systems other than Windows and Jython.

The functions of Python they call in the end are those of its `os` module (`execl` calls `execv`, `execvp` looks for the file
along the search path and calls `execv`, `spawnl` calls `spawnv`, which forks and calls `execv` in the child, and so on), all
of which look up the functions they call in the module, where those of the debugger are; this is modelled, too.

Simplified:
* what the system answers to `execve` depends on the file alone (not on the directory, permissions or the environment);
* what `patch_args` (366-589) does is a parameter; the theorems about arguments use `PatchArgs`;
* for a function that takes the environment as its last argument (`execle`, ...) `patch_args` finds an argument which is no
  string and returns the arguments (379-382, 320-321);
* the process which forks is not one started by `subprocess` (see `Fork` for this).
-/
namespace Process

abbrev Str := List Char

/-- An error of the system: the file is not there, or another one. -/
inductive Err where
  | notFound
  | other (n : Nat)
  deriving DecidableEq, Repr

/-- The system. -/
structure World where
  /-- what executing a file ends with; `none`: it is executed -/
  exec : Str → Option Err
  /-- `os.path.dirname(file)` is not empty -/
  hasDir : Str → Bool
  /-- `os.path.join` -/
  join : Str → Str → Str
  /-- `os.get_exec_path` for the environment given, or the one of the process -/
  path : Option Str → List Str

/-- The messages to the client: `make_process_created_message`, `make_process_about_to_be_replaced_message`. -/
inductive Msg where
  | created
  | replaced
  deriving DecidableEq, Repr

/-- How a call that replaces the process ends: by replacing it, or with an error. -/
inductive End where
  | runs (file : Str) (args : List Str) (env : Option Str)
  | raised (e : Err)
  deriving DecidableEq, Repr

/-- The messages sent, and how the call ends. -/
structure Res where
  msgs : List Msg
  fin : End
  deriving DecidableEq, Repr

/-- What the functions put in place depend on. -/
structure Env where
  world : World
  /-- `_get_apply_arg_patching()` (42-43) -/
  patching : Bool
  /-- `patch_args(args, is_exec=True)` -/
  patch : List Str → List Str
  /-- there is a debugger -/
  debugger : Bool

/-- `patch_args(args, is_exec=True)`, if arguments are to be patched (724-725). -/
def Env.args (e : Env) (a : List Str) : List Str := if e.patching then e.patch a else a

/-- `send_process_created_message(); send_process_about_to_be_replaced()` (726-727, 974-985). -/
def Env.msgs (e : Env) : List Msg := if e.patching && e.debugger then [.created, .replaced] else []

/-- `new_execv`, `new_execve` (738-745, 755-762) and the system call. -/
def execv (e : Env) (file : Str) (args : List Str) (env : Option Str) : Res :=
  { msgs := e.msgs
    fin := match e.world.exec file with
      | none => .runs file (e.args args) env
      | some x => .raised x }

/-- The loop of `os._execvpe` over the search path: the first file that can be executed; else the first error that is not
that the file is not there, else the last one. -/
def search (e : Env) (file : Str) (args : List Str) (env : Option Str) : List Str → Option Err → Err → Res
  | [], saved, last => { msgs := [], fin := .raised (saved.getD last) }
  | d :: r, saved, last =>
    let one := execv e (e.world.join d file) args env
    match one.fin with
    | .runs _ _ _ => one
    | .raised x =>
      let rest := search e file args env r (if x = .notFound then saved else some (saved.getD x)) x
      { rest with msgs := one.msgs ++ rest.msgs }

/-- `new_execv`, `new_execve` for `os.execvp`, `os.execvpe` (738-745, 755-762, 1004-1005), and `os._execvpe`. -/
def execvp (e : Env) (file : Str) (args : List Str) (env : Option Str) : Res :=
  let args := e.args args
  let r := if e.world.hasDir file then execv e file args env
    else search e file args env (e.world.path env) none .notFound
  { r with msgs := e.msgs ++ r.msgs }

/-- `os.execv`, `os.execve`, `os.execvp`, `os.execvpe`: with the search path, or not. -/
def execV (e : Env) (p : Bool) (file : Str) (args : List Str) (env : Option Str) : Res :=
  if p then execvp e file args env else execv e file args env

/-- `new_execl` for `os.execl`, `os.execle`, `os.execlp`, `os.execlpe` (719-732, 998-1001), and those; with an environment
the arguments are not patched here (379-382). -/
def execL (e : Env) (p : Bool) (file : Str) (args : List Str) (env : Option Str) : Res :=
  let args := if env.isSome then args else e.args args
  let r := execV e p file args env
  { r with msgs := e.msgs ++ r.msgs }

/-- The functions `os.exec*`, by the letters of their names: `l` or `v`, and `p`; `e` if there is an environment. -/
def exec (e : Env) (l p : Bool) (file : Str) (args : List Str) (env : Option Str) : Res :=
  if l then execL e p file args env else execV e p file args env

/-! ### Functions that start another process -/

/-- The process and the child it starts. -/
structure Both where
  world : World
  patching : Bool
  /-- `patch_args(args)` in the process -/
  patch : List Str → List Str
  /-- `patch_args(args, is_exec=True)` in the child -/
  childPatch : List Str → List Str
  /-- there is a debugger in the process -/
  debugger : Bool
  /-- there is one in the child after the fork (see `Fork`) -/
  childDebugger : Bool

/-- What is sent by the process and by the child, and what the child does. -/
structure Started where
  msgs : List Msg
  childMsgs : List Msg
  child : End
  deriving DecidableEq, Repr

def Both.args (b : Both) (a : List Str) : List Str := if b.patching then b.patch a else a

def Both.msgs (b : Both) : List Msg := if b.patching && b.debugger then [.created] else []

def Both.inChild (b : Both) : Env :=
  { world := b.world, patching := b.patching, patch := b.childPatch, debugger := b.childDebugger }

/-- `new_spawnv`, `new_spawnve` (782-809), and `os._spawnvef`: `new_fork` (966-968) sends the message, too; the child calls
`execv`, `execve`, `execvp` or `execvpe`. -/
def spawnV (b : Both) (p : Bool) (file : Str) (args : List Str) (env : Option Str) : Started :=
  let r := execV b.inChild p file (b.args args) env
  { msgs := b.msgs ++ (if b.debugger then [.created] else []), childMsgs := r.msgs, child := r.fin }

/-- `new_spawnl` (767-779), and `os.spawnl`, ... -/
def spawnL (b : Both) (p : Bool) (file : Str) (args : List Str) (env : Option Str) : Started :=
  let args := if env.isSome then args else b.args args
  let r := spawnV b p file args env
  { r with msgs := b.msgs ++ r.msgs }

/-- The functions `os.spawn*`. -/
def spawn (b : Both) (l p : Bool) (file : Str) (args : List Str) (env : Option Str) : Started :=
  if l then spawnL b p file args env else spawnV b p file args env

/-- `new_posix_spawn` (812-825) for `os.posix_spawn`, `new_fork_exec` (828-843, 862-877) for `subprocess.Popen`: the
arguments and the message; all else is passed on. -/
def direct (b : Both) (file : Str) (args : List Str) (env : Option Str) : Started :=
  { msgs := b.msgs, childMsgs := [],
    child := match b.world.exec file with
      | none => .runs file (b.args args) env
      | some x => .raised x }

/-! ### Putting the functions in place -/

/-- What an attribute of a module is: a function of Python, or one made by the debugger, which calls the attribute
`original_...`; with a warning, or not. -/
inductive Fn where
  | python (n : Nat)
  | wrapper (warn : Bool)
  deriving DecidableEq, Repr

/-- A module: what `name` is, and `original_name`. -/
structure Module where
  fn : Nat → Option Fn
  original : Nat → Option Fn

/-- `monkey_patch_module` (685-690). -/
def patchModule (m : Module) (n : Nat) (warn : Bool) : Module :=
  match m.fn n, m.original n with
  | some f, none =>
    { fn := fun k => if k = n then some (.wrapper warn) else m.fn k
      original := fun k => if k = n then some f else m.original k }
  | _, _ => m

/-- `patch_new_process_functions`, `patch_new_process_functions_with_warning` (988-1095): each of the names. -/
def patchAll (names : List Nat) (m : Module) (warn : Bool) : Module := names.foldl (fun m n => patchModule m n warn) m

/-- What is called in the end by an attribute; `none`: nothing. -/
def callee (m : Module) (n : Nat) : Option Fn :=
  match m.fn n with
  | some (.wrapper _) => m.original n
  | x => x

/-! ### The function that warns -/

/-- How a call ends: with a value, or an exception. -/
inductive Out where
  | value (n : Nat)
  | none
  | exc (e : Err)
  deriving DecidableEq, Repr

/-- `new_warn_multiproc` (708-714). -/
def warnCall (original : Out) : Out := original

/-- `new_warn_fork_exec` (851-857, 885-891): all exceptions are caught. -/
def warnForkExec (original : Out) : Out :=
  match original with
  | .exc _ => .none
  | x => x

/-! ### `skip_subprocess_arg_patch` -/

/-- What a program does with it. -/
inductive Skip where
  | enter (t : Nat)
  | leave (t : Nat)
  deriving DecidableEq, Repr

/-- `_arg_patch.apply_arg_patching` of a thread; `none` when it was not set (29-43). -/
def skipStep (s : Nat → Option Bool) : Skip → Nat → Option Bool
  | .enter t => fun u => if u = t then some false else s u
  | .leave t => fun u => if u = t then some true else s u

/-- `_get_apply_arg_patching` (42-43). -/
def applies (s : Nat → Option Bool) (t : Nat) : Bool := (s t).getD true

end Process
