import Verif.ExcInfo.Model
import Verif.Stack.Spec
/-!
What the details of an exception should be.
-/

namespace ExcInfo.Spec

open Stack

/-- Where the client is told a frame is. -/
def place (env : Env) (fl : FL) (f : Ref) : Str × Int :=
  env.base.toClient (env.base.info f).path ((Py.Dict.get fl.lines f).getD (env.base.lineno f))

/-- The entry says where the frame is, the name of its function (with a remark for the one the program is paused
in) and has the given source text. -/
def IsFrame (env : Env) (fl : FL) (f : Ref) (text : Str) : Entry → Prop
  | .frame file line name t =>
    (file, line) = place env fl f ∧ t = text ∧
    name = (env.base.info f).name ++ (if fl.current = some f then c!" (Current frame)" else [])
  | _ => False

/-- The entries are those of the frames, in order, each with the line of its file. -/
def AreFrames (env : Env) (fl : FL) : List Ref → List Entry → Prop
  | [], [] => True
  | f :: fs, e :: es => IsFrame env fl f (env.getline (env.base.info f).path (place env fl f).2) e ∧ AreFrames env fl fs es
  | _, _ => False

/-- The frames of a list the user may see. -/
def visible (env : Env) (fl : FL) : List Ref := fl.frames.filter (fun f => decide (Stack.Spec.Visible env.base f))

/-- `t` is the name of the type of the exception, with its module unless that is the main program or the builtins. -/
def IsType (env : Env) (exc : Option Nat) (t : Str) : Prop :=
  ∀ e q m, exc = some e → (env.type e).qualname = some q → (env.type e).module = some (some m) →
    t = if m = c!"__main__" ∨ m = c!"builtins" then q else m ++ c!"." ++ q

/-- `part` is what the trace should have for one exception: these frames, type and text, and how it relates to the
exception after it. -/
def IsPart (env : Env) (fl : FL) (frames : List Ref) (part : List Entry) : Prop :=
  ∃ fs t d, part = fs ++ [.exc fl.exc t d, .msg fl.msg] ∧ AreFrames env fl frames fs ∧ IsType env fl.exc t ∧
    ∀ e, fl.exc = some e → env.desc e = some d

/-- No statement the frames are at is longer than a line. -/
def SingleLine (env : Env) (fl : FL) : Prop :=
  ∀ f ∈ fl.frames, ∀ last, env.lineCol f = some (some last) → last ≤ (place env fl f).2

end ExcInfo.Spec
