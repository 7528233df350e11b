import Verif.Stack.Model
/-!
What a list of frames should contain.
-/

namespace Stack.Spec

open Stack

/-- the exception `c` follows `e`: its cause or, without a cause, its context -/
inductive Follows (w : World) (e c : Nat) : Msg → Prop
  | cause : (w.exc e).cause = some c → Follows w e c .cause
  | context : (w.exc e).cause = none → (w.exc e).context = some c → Follows w e c .context

/-- the list shows each entry of the traceback, in the order of the traceback, as a frame of its own with the line of the entry -/
def ShowsTb (tb : List Tb) (fl : FL) : Prop :=
  fl.frames.Nodup ∧ fl.frames.length = tb.length ∧
  ∀ (i : Nat) (t : Tb), tb[i]? = some t → ∃ e k, fl.frames[i]? = some (Ref.wrapper e k t) ∧ Py.Dict.get fl.lines (Ref.wrapper e k t) = some t.line

/-- the lists after the one for `e`, where the exceptions `seen` have been shown: each shows an exception not shown before that
follows the one shown before it; the last is followed by none, or by one that has been shown -/
def Chain (w : World) : List Nat → Nat → List FL → Prop
  | seen, e, [] => ∀ c m, Follows w e c m → c ∈ seen
  | seen, e, fl :: rest =>
    ∃ c, c ∉ seen ∧ fl.exc = some c ∧ Follows w e c fl.msg ∧ ShowsTb (w.exc c).tb fl ∧ Chain w (c :: seen) c rest

/-- all exceptions reachable from one with a number less than `n` have a number less than `n` -/
def Closed (w : World) (n : Nat) : Prop := ∀ e < n, ∀ c m, Follows w e c m → c < n

/-- in `es` the last entry for the frame `f` has the line `l` -/
def LastLine (es : List (Nat × Int)) (f : Nat) (l : Int) : Prop := ∃ pre post, es = pre ++ (f, l) :: post ∧ ∀ l', (f, l') ∉ post

/-- the list shows the entries as frames of the program, each with the line of the last entry for its frame -/
def ShowsFrames (es : List (Nat × Int)) (fl : FL) : Prop :=
  fl.frames = es.map (fun e => Ref.real e.1) ∧ ∀ f l, LastLine es f l → Py.Dict.get fl.lines (Ref.real f) = some l

/-- a frame is shown to the user -/
def Visible (env : Env) (f : Ref) : Prop :=
  (env.info f).internal = false ∧ ((env.info f).plugin = true ∨ (env.info f).filtered = false)

instance (env : Env) (f : Ref) : Decidable (Visible env f) := inferInstanceAs (Decidable (_ ∧ _))

end Stack.Spec
