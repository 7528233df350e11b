import Verif.Common.Split
import Verif.Common.Utf8
import Verif.Xml.Spec
import Verif.ComplServer.Model
/-!
What the client of the completion server asks and how it reads the answers. Nothing here uses the functions of the
model (only its types `Comp` and `World`, which say what the functions that find completions return).
-/

namespace ComplServer.Spec
open ComplServer (Str Comp World)

/-- requests -/
inductive Req
  | kill
  | initialPath
  | imports (t : Str)
  | jedi (t : Str)
  | search (t : Str)
  | path (ps : List Str)
  | dir (d : Str)

/-- `q` is a form of `t` for the wire: `+` and `%xx` are read as in URLs -/
def Quoted (t q : Str) : Prop :=
  '@' ∉ q ∧ Xml.Spec.unquote (q.map fun c => if c = '+' then ' ' else c) = some (Py.utf8 t)

/-- how requests look on the wire -/
inductive Wire : Req → Str → Prop
  | kill : Wire .kill c!"@@KILL_SERVER_END@@"
  | initialPath : Wire .initialPath c!"@@PYTHONPATH_END@@"
  | imports {t q} : Quoted t q → Wire (.imports t) (c!"@@IMPORTS:" ++ q ++ c!"END@@")
  | jedi {t q} : Quoted t q → Wire (.jedi t) (c!"@@MSG_JEDI:" ++ q ++ c!"END@@")
  | search {t q} : Quoted t q → Wire (.search t) (c!"@@SEARCH" ++ q ++ c!"END@@")
  | path {ps q} : Quoted (Py.join1 '|' ps) q → Wire (.path ps) (c!"@@CHANGE_PYTHONPATH:" ++ q ++ c!"END@@")
  | dir {d q} : Quoted d q → Wire (.dir d) (c!"@@CHANGE_DIR:" ++ q ++ c!"END@@")

/-- answers: done, or a file and suggestions, each a list of texts -/
inductive Ans
  | ok
  | found (file : Str) (sugg : List (List Str))

/-- what was asked for so far: the paths, the directory in front of them, and the directory asked for last -/
structure Asked where
  base : List Str
  front : Option Str := none
  last : Option Str := none

/-- the module search path -/
def Asked.path (a : Asked) : List Str := a.front.toList ++ a.base

def Asked.next (a : Asked) : Req → Asked
  | .path ps => { a with base := ps, front := none }
  | .dir d => { a with front := some d, last := some d }
  | _ => a

/-- a suggestion as texts: at most four -/
def texts (c : Comp) : List Str := c.token :: c.descr :: c.rest.take 2

def answerOf : Except Str (Str × List Comp) → Ans
  | .ok (f, cs) => .found f (cs.map texts)
  | .error e => .found c!"None" [[c!"ERROR:", e, []]]

/-- the answer to a request -/
def answer (w : World) (a : Asked) : Req → Ans
  | .kill => .found c!"None" [[c!"Exit:", c!"SystemExit", []]]
  | .initialPath => .found c!"None" (w.initial.map fun p => [p, [' ']])
  | .imports t => answerOf (w.tips a.path t)
  | .jedi t => answerOf (w.jedi a.path t)
  | .search t => answerOf (w.search a.path t)
  | .path _ => .ok
  | .dir _ => .ok

/-- the answers to requests made one after the other; nothing is answered after `kill` -/
def answers (w : World) : Asked → List Req → List Ans
  | _, [] => []
  | a, .kill :: _ => [answer w a .kill]
  | a, r :: rs => answer w a r :: answers w (a.next r) rs

/-- a text in an answer: a single space stands for no text -/
def field (s : Str) : Option (List Nat) :=
  if s = [' '] then some [] else Xml.Spec.unquote (s.map fun c => if c = '+' then ' ' else c)

/-- all or nothing -/
def sequence {α : Type} : List (Option α) → Option (List α)
  | [] => some []
  | none :: _ => none
  | some a :: r => (sequence r).map (a :: ·)

/-- how the client reads a list of suggestions: `@@COMPLETIONS(file,(a,b),(a,b))END@@` -/
def read (m : Str) : Option (Str × List (List (List Nat))) :=
  let head := c!"@@COMPLETIONS("
  let tail := c!")END@@"
  if head <+: m ∧ tail <:+ m ∧ head.length + tail.length ≤ m.length then
    let body := (m.drop head.length).take (m.length - head.length - tail.length)
    match Py.split1 '(' body with
    | [] => none
    | [f] => some (f, [])
    | f :: rest =>
      (sequence (rest.map fun p => sequence ((Py.split1 ',' (p.takeWhile (· ≠ ')'))).map field))).map fun x => (f.dropLast, x)
  else none

/-- the message `m` says `a` -/
def Says (m : Str) : Ans → Prop
  | .ok => m = c!"@@MSG_OK_END@@"
  | .found f cs => read m = some (f, cs.map fun t => t.map Py.utf8)

/-- each answer of the list is said by the message at its place -/
def SaysAll : List Str → List Ans → Prop
  | [], [] => True
  | m :: ms, a :: as => Says m a ∧ SaysAll ms as
  | _, _ => False

/-- the client sends each request in any number of non-empty pieces and waits for the answer before it sends the next -/
inductive Sent : List Req → List Bytes → Prop
  | nil : Sent [] []
  | cons {r rs text pieces bs} : Wire r text → pieces.flatten = Py.asciiBytes text → (∀ p ∈ pieces, p ≠ []) → Sent rs bs →
      Sent (r :: rs) (pieces ++ bs)

end ComplServer.Spec
