import Verif.Logging.Model
/-!
What a user expects of the log: what each process says, and where. No stream is opened here, and there are no files: a
message is said to a target by a process, to the standard error, or to a stream given for some time.
-/

namespace Logging.Spec

open Logging

inductive Dest
  | target (t : Target) (p : Nat)
  | stderr
  | user (n : Nat)
deriving DecidableEq

/-- what was asked of a process: level and target, the contexts it is in, and what it said only once -/
structure PSt where
  level : Int
  target : Option Target
  ctxs : List (Int × Nat)
  once : List Str

structure St where
  procs : Nat → Option PSt
  /-- all the messages, in their order -/
  said : List (Dest × Str)

/-- where a process speaks: to the innermost context; else to its own file, or to the standard error if there is none or it
cannot be opened -/
def dest (canOpen : Target → Nat → Bool) (p : Nat) (s : PSt) : Dest :=
  match s.ctxs with
  | (_, n) :: _ => .user n
  | [] =>
    match s.target with
    | none => .stderr
    | some t => if canOpen t p then .target t p else .stderr

def level (s : PSt) : Int :=
  match s.ctxs with
  | (l, _) :: _ => l
  | [] => s.level

def upd (s : St) (p : Nat) (x : PSt) : St := { s with procs := fun q => if q = p then some x else s.procs q }

def say (canOpen : Target → Nat → Bool) (s : St) (p : Nat) (x : PSt) (lvl : Int) (msg : Str) : St :=
  if lvl ≤ level x then { s with said := s.said ++ [(dest canOpen p x, msg)] } else s

def step (canOpen : Target → Nat → Bool) (s : St) : Op → St
  | .log p lvl msg =>
    match s.procs p with
    | none => s
    | some x => say canOpen s p x lvl msg
  | .once p msg =>
    match s.procs p with
    | none => s
    | some x =>
      if msg ∈ x.once then s
      else say canOpen (upd s p { x with once := msg :: x.once }) p { x with once := msg :: x.once } 0 msg
  | .logTo p t lvl =>
    match s.procs p with
    | none => s
    | some x => upd s p { x with level := lvl, target := t }
  | .enter p lvl n =>
    match s.procs p with
    | none => s
    | some x => upd s p { x with ctxs := (lvl, n) :: x.ctxs }
  | .exit p =>
    match s.procs p with
    | none => s
    | some x => upd s p { x with ctxs := x.ctxs.tail }
  | .fork p q =>
    match s.procs p with
    | none => s
    | some x => upd s q x

def start (p : Nat) (lvl : Int) (t : Option Target) : St :=
  { procs := fun q => if q = p then some ⟨lvl, t, [], []⟩ else none, said := [] }

/-- the provisos: no process goes back to a file it has written and left; in a context there is no `log_to` and no fork;
a new process has a pid of its own -/
def Ok (s : St) : Op → Prop
  | .logTo p t _ => ∀ x, s.procs p = some x → x.ctxs = [] ∧
      (t ≠ x.target → ∀ f, t = some f → ∀ m, (Dest.target f p, m) ∉ s.said)
  | .fork p q => (∀ x, s.procs p = some x → x.ctxs = []) ∧ s.procs q = none
  | _ => True

/-- every operation of a history meets the provisos -/
def AllOk (canOpen : Target → Nat → Bool) : St → List Op → Prop
  | _, [] => True
  | s, o :: os => Ok s o ∧ AllOk canOpen (step canOpen s o) os

def run (canOpen : Target → Nat → Bool) (s : St) (ops : List Op) : St := ops.foldl (step canOpen) s

/-- what was said to someone, in order -/
def told (s : St) (d : Dest) : List Str := (s.said.filter fun e => e.1 = d).map (·.2)

end Logging.Spec
