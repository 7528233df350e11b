import Verif.Breakpoints.Model
/-! Independent vocabulary for C17–C19. -/

namespace Breakpoints.Spec

/-- The server files in which breakpoints of the client file `a` can end up. -/
def Reach (env : Env) (a : Name) (f : File) : Prop :=
  f = env.canon a ∨ ∃ l l', env.mapped a l = some (f, l')

/-- A server file belongs to one client file: names that reach the same server file are the same file for
the client. (False, for instance, when the client opens one file under two names through a symlink.) -/
def Owned (env : Env) : Prop :=
  ∀ a b f, Reach env a f → Reach env b f → env.norm a = env.norm b

/-- The requests at the level of the API. -/
inductive Op where
  | add (p : Params) (adjust : Bool)
  | remove (name : Name) (id : Nat)
  | removeAll (name : Name)
  | clear

def step (env : Env) (s : State) : Op → State
  | .add p adj => (addBreakpoint env s p adj).1
  | .remove name id => removeBreakpoint env s name id
  | .removeAll name => removeAll env s name
  | .clear => clearAll s

def run (env : Env) (ops : List Op) : State := ops.foldl (step env) {}

/-- The specification: per client file, the breakpoints set and not removed, in order, by id. -/
abbrev Store := Norm → List (Nat × File × Bp)

def specStep (env : Env) (σ : Store) : Op → Store
  | .add p adj =>
    let (f, l, _, ok) := target env p adj
    if ok then fun n => if n = env.norm p.name then Py.Dict.set (σ n) p.id (f, ⟨p.id, l, p.payload⟩) else σ n
    else σ
  | .remove name id => fun n => if n = env.norm name then Py.Dict.erase (σ n) id else σ n
  | .removeAll name => fun n => if n = env.norm name then [] else σ n
  | .clear => fun _ => []

def specRun (env : Env) (ops : List Op) : Store := ops.foldl (specStep env) (fun _ => [])

/-- The last breakpoint of the list at a place. -/
def lastAt (d : List (Nat × File × Bp)) (f : File) (l : Nat) : Option Bp :=
  (d.filter (fun e => e.2.1 = f ∧ e.2.2.line = l)).getLast?.map (·.2.2)

/-- What is asked of a request: an id that is in use is added or removed in the file it was set in. -/
def OpOk (env : Env) (σ : Store) : Op → Prop
  | .add p adj => ∀ f bp, Py.Dict.get (σ (env.norm p.name)) p.id = some (f, bp) → f = (target env p adj).1
  | .remove name id => ∀ f bp, Py.Dict.get (σ (env.norm name)) id = some (f, bp) → f = env.canon name
  | .removeAll _ => True
  | .clear => True

def Valid (env : Env) : Store → List Op → Prop
  | _, [] => True
  | σ, o :: os => OpOk env σ o ∧ Valid env (specStep env σ o) os

/-! ### DAP sessions -/

inductive Req where
  | setBreakpoints (name : Name) (ws : List Wanted)
  | setFunctionBreakpoints (n : Nat)
  /-- `remove_all_breakpoints("*")`, e.g. on disconnect -/
  | clear

def dapStep (env : Env) (s : Session) : Req → Session
  | .setBreakpoints name ws => (setBreakpoints env s name ws).1
  | .setFunctionBreakpoints n => (setFunctionBreakpoints s n).1
  | .clear => { s with store := clearAll s.store }

def dapRun (env : Env) (reqs : List Req) : Session := reqs.foldl (dapStep env) {}

/-- The ids answered to a request. -/
def answeredIds (env : Env) (s : Session) : Req → List Nat
  | .setBreakpoints name ws => (setBreakpoints env s name ws).2.map (·.id)
  | .setFunctionBreakpoints n => (setFunctionBreakpoints s n).2
  | .clear => []

/-- All ids answered in a session, in order. -/
def allIds (env : Env) : Session → List Req → List Nat
  | _, [] => []
  | s, r :: rs => answeredIds env s r ++ allIds env (dapStep env s r) rs

/-- The last request for a client file: the name used and the breakpoints asked for. -/
def current (env : Env) (n : Norm) (reqs : List Req) : List (Name × Wanted) :=
  reqs.foldl (fun cur r => match r with
    | .setBreakpoints name ws => if env.norm name = n then ws.map (fun w => (name, w)) else cur
    | .setFunctionBreakpoints _ => cur
    | .clear => []) []

/-- Where the user's breakpoint is meant to be: file and line, if the file exists. -/
def place (env : Env) (x : Name × Wanted) : Option (File × Nat) :=
  match env.mapped x.1 x.2.line with
  | some (f, l) => if env.fileOk f then some (f, l) else none
  | none => if env.nameOk x.1 then some (env.canon x.1, adjustLine (env.code x.1) x.2.line) else none

end Breakpoints.Spec
