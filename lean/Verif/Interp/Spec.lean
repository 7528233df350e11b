import Verif.Interp.Model
/-!
What the interactive console should do, in terms of what the client sent and what it was told.
-/

namespace Interp.Spec

/-- One request to run code, with the answer ("more is needed"). -/
structure Typed where
  text : Text
  /-- came as one line (`execLine`) -/
  single : Bool
  more : Bool
deriving DecidableEq, Repr

/-- What the client did, in order. -/
inductive Ev where
  | typed (t : Typed)
  | interrupt
deriving DecidableEq, Repr

/-- The text of consecutive requests: joined by line ends. -/
def text : List Typed → Text
  | [] => []
  | [t] => t.text
  | t :: ts => t.text ++ '\n' :: text ts

/-- A block: requests up to and with the first one answered with "no more". -/
def IsBlock (b : List Typed) : Prop := ∃ init last, b = init ++ [last] ∧ last.more = false ∧
  ∀ t ∈ init, t.more = true

/-- The history is these blocks, one after the other, with beginnings of blocks dropped where the client
interrupted; `rest` is the beginning of a block which the client is typing. `need` tells whether a text
needs more; every answer is the one for the text typed since the block began. -/
inductive Blocks (need : Text → Option Bool) : List Ev → List (List Typed) → List Typed → Prop where
  | nil : Blocks need [] [] []
  | more {h bs rest} (t : Typed) : Blocks need h bs rest → t.more = true →
      need (text (rest ++ [t])) = some true → Blocks need (h ++ [.typed t]) bs (rest ++ [t])
  | done {h bs rest} (t : Typed) : Blocks need h bs rest → t.more = false →
      need (text (rest ++ [t])) = some false → Blocks need (h ++ [.typed t]) (bs ++ [rest ++ [t]]) []
  | interrupt {h bs rest} : Blocks need h bs rest → Blocks need (h ++ [.interrupt]) bs []

/-- What is run for a block: its text, as a single statement if all of it came line by line. -/
def fragOf (b : List Typed) : Frag := ⟨text b, b.all (·.single)⟩

/-- The last answer in a log. -/
def lastAnswer (log : List Interp.Ev) : Bool :=
  match log.getLast? with
  | some (.answer m) => m
  | _ => false

/-- What the client sees of a request which was handled. -/
def seen (log : List Interp.Ev) : Req → Ev
  | .line t => .typed ⟨t, true, lastAnswer log⟩
  | .lines t => .typed ⟨t, false, lastAnswer log⟩
  | .interrupt => .interrupt

/-- A run, with what the client did so far and the request which is being handled. -/
structure View where
  s : St := {}
  cur : Option Req := none
  hist : List Ev := []

def View.act (i : Interpreter) (v : View) (a : Act) : View :=
  let s' := Interp.act i v.s a
  let cur := match a with
    | .req r => if v.s.srv = Srv.idle then some r else v.cur
    | _ => v.cur
  match cur with
  | none => { v with s := s' }
  | some r => if s'.srv = Srv.idle then ⟨s', none, v.hist ++ [seen s'.log r]⟩ else ⟨s', some r, v.hist⟩

def view (i : Interpreter) (acts : List Act) : View := acts.foldl (View.act i) {}

/-- The requests which were handled, with their answers. -/
def history (i : Interpreter) (acts : List Act) : List Ev := (view i acts).hist

/-- What was run, in order. -/
def ran (log : List Interp.Ev) : List Frag := log.filterMap fun | .runs f => some f | _ => none

/-- What the main thread told. -/
def mainEvents (log : List Interp.Ev) : List Interp.Ev :=
  log.filter fun | .runs _ | .finished _ => true | _ => false

/-- Interrupts reach the main thread only while it runs something. -/
def Timely (i : Interpreter) (acts : List Act) : Prop :=
  .kbdOutside ∉ acts ∧
  ∀ pre post, acts = pre ++ .kbd :: post → ∃ f, (run i pre).main = .running (some f)

end Interp.Spec
