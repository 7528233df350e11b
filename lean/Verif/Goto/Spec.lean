import Verif.Goto.Model

/-! What is meant by a goto being allowed and what the client should get, told without the thread's
fields. -/

namespace Goto.Spec

/-- The function asked for is the one stopped in: `*` is any, the empty name is a module's top level. -/
def Names (func name : List Char) : Prop :=
  func = c!"*" ∨ (name ≠ c!"?" ∧ name ≠ c!"<module>" ∧ func = name) ∨
    ((name = c!"?" ∨ name = c!"<module>") ∧ func = [])

instance (f n) : Decidable (Names f n) := by unfold Names; infer_instance

/-- A jump can be made only where a line is about to run, or an exception was raised. -/
def AtLine (p : Place) : Prop := p.event = .line ∨ p.event = .exception

instance (p) : Decidable (AtLine p) := by unfold AtLine; infer_instance

/-- The jump asked for can be made: the thread is at a line, the function is the one named, and the
interpreter does not refuse. -/
def Allowed (refuses : Place → Int → Option (List Char)) (p : Place) (func : List Char) (l : Int) : Prop :=
  AtLine p ∧ Names func p.func ∧ refuses p l = none

instance (r p f l) : Decidable (Allowed r p f l) := by unfold Allowed; infer_instance

/-- The commands posted in a history, and those of them which are jumps. -/
def posted : List Act → List Cmd
  | [] => []
  | .post c :: as => c :: posted as
  | _ :: as => posted as

def jumps : List Cmd → List Target
  | [] => []
  | .jump t :: cs => t :: jumps cs
  | _ :: cs => jumps cs

/-- The jumps asked for with a line number: request's number, line, function. -/
def asked : List Cmd → List (Nat × Int × List Char)
  | [] => []
  | .jump ⟨seq, some l, f⟩ :: cs => (seq, l, f) :: asked cs
  | _ :: cs => asked cs

/-- The answers among what the client got, by their request's number. -/
def answers : List Out → List Nat
  | [] => []
  | .answer seq _ _ :: os => seq :: answers os
  | _ :: os => answers os

/-- The text of a refusal: the interpreter's, or that another function was asked for. -/
def why (refuses : Place → Int → Option (List Char)) (p : Place) (func : List Char) (l : Int) : List Char :=
  if AtLine p then
    if Names func p.func then (refuses p l).getD []
    else c!"jump is available only within the bottom frame"
  else []

/-- What the client gets for jumps (number, line, function) asked one after the other of a thread stopped at a place, and
where the thread is then stopped. -/
def exchange (refuses : Place → Int → Option (List Char)) :
    Place → List (Nat × Int × List Char) → List Out × Place
  | p, [] => ([], p)
  | p, (seq, l, f) :: ts =>
    if Allowed refuses p f l then
      let p' := { p with line := l }
      let rest := exchange refuses p' ts
      ([.answer seq true [], .continued, .continued, .stopped .goto p'] ++ rest.1, rest.2)
    else
      let rest := exchange refuses p ts
      (.answer seq false (why refuses p f l) :: rest.1, rest.2)

end Goto.Spec
