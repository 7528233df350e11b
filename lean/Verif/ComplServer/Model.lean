import Verif.Common.Str
import Verif.Common.Utf8
import Verif.Common.Bytes
import Verif.Common.Split
import Verif.Xml.Model
/-!
Model of the server for code completion: what it reads, what it answers and what it does to `sys.path`.

Source: `/repo/pycompletionserver.py` `complete_from_dir` (89-100), `change_python_path` (103-114),
`Processor.remove_invalid_chars` (122-134), `Processor.format_completion_message` (136-161) and
`CompletionServer.run` (218-368).

Simplifications: the functions that find completions and definitions (`generate_tip`, `search_definition`, `jedi`) are
inputs, which may depend on `sys.path` and may raise; sending does not fail; text has no surrogates; `strip` removes
ASCII white space; in `unquote_plus` malformed UTF-8 is not replaced; the log is part of the text of an error.
-/

namespace ComplServer

abbrev Str := List Char

/-- `MSG_*` (70-82) -/
def msgKill : Str := c!"@@KILL_SERVER_END@@"
def msgCompletions : Str := c!"@@COMPLETIONS"
def msgEnd : Str := c!"END@@"
def msgInvalid : Str := c!"@@INVALID_REQUEST"
def msgChangeDir : Str := c!"@@CHANGE_DIR:"
def msgOk : Str := c!"@@MSG_OK_END@@"
def msgImports : Str := c!"@@IMPORTS:"
def msgPythonpath : Str := c!"@@PYTHONPATH_END@@"
def msgChangePythonpath : Str := c!"@@CHANGE_PYTHONPATH:"
def msgJedi : Str := c!"@@MSG_JEDI:"
def msgSearch : Str := c!"@@SEARCH"

/-- `quote_plus(s)` (standard library) -/
def quotePlus (s : Str) : Str := (Xml.quote [' '] s).map fun c => if c = ' ' then '+' else c

/-- `remove_invalid_chars` (122-134) -/
def removeInvalidChars (s : Str) : Str := if s ≠ [] then quotePlus s else [' ']

/-- one suggestion: a tuple of at least two texts -/
structure Comp where
  token : Str
  descr : Str
  rest : List Str := []
deriving DecidableEq

/-- one round of the loop in `format_completion_message` (143-159) -/
def formatComp (t : Comp) : Str :=
  [','] ++ ['('] ++ removeInvalidChars t.token ++ [','] ++ removeInvalidChars t.descr ++
    (match t.rest[0]? with | some a => ',' :: removeInvalidChars a | none => []) ++
    (match t.rest[1]? with | some a => ',' :: removeInvalidChars a | none => []) ++ [')']

/-- `format_completion_message` (136-161) -/
def formatMessage (defFile : Str) (comps : List Comp) : Str :=
  msgCompletions ++ ['('] ++ (defFile ++ comps.flatMap formatComp) ++ [')'] ++ msgEnd

/-- a hexadecimal digit -/
def hex (c : Char) : Option Nat :=
  let n := c.toNat
  if 48 ≤ n ∧ n ≤ 57 then some (n - 48) else if 97 ≤ n ∧ n ≤ 102 then some (n - 87) else if 65 ≤ n ∧ n ≤ 70 then some (n - 55) else none

/-- `unquote_to_bytes` (standard library): a `%` without two hexadecimal digits stays -/
def unquoteBytes : Str → List Nat
  | [] => []
  | '%' :: a :: b :: r =>
    match hex a, hex b with
    | some x, some y => (16 * x + y) :: unquoteBytes r
    | _, _ => 37 :: unquoteBytes (a :: b :: r)
  | c :: r => c.toNat :: unquoteBytes r

/-- `unquote_plus(s)` of ASCII text (standard library) -/
def unquotePlus (s : Str) : Str :=
  (Py.decodeUtf8 (unquoteBytes (s.map fun c => if c = '+' then ' ' else c))).map Char.ofNat

/-- `s.rfind(p)`; `none` stands for -1 -/
def rfind (p : Str) : Str → Option Nat
  | [] => if p = [] then some 0 else none
  | c :: cs =>
    match rfind p cs with
    | some n => some (n + 1)
    | none => if p.isPrefixOf (c :: cs) then some 0 else none

/-- `received.decode("utf-8")`; `none` is `UnicodeDecodeError` -/
def decode (b : Bytes) : Option Str :=
  if Py.utf8Valid b then some ((Py.decodeUtf8 (b.map UInt8.toNat)).map Char.ofNat) else none

/-- how the loop ended: killed by a message, connection closed, or an error outside the handling of requests -/
inductive Ending | killed | closed | crashed
deriving DecidableEq

/-- `sys.path`, `currDirModule`, the text received so far, and what was sent -/
structure St where
  path : List Str
  currDir : Option Str := none
  data : Str := []
  sent : List Str := []
  ended : Option Ending := none
deriving DecidableEq

/-- the functions that find things: given `sys.path` and the text of the request they return a file and suggestions, or
raise (the text of the error) -/
structure World where
  tips : List Str → Str → Except Str (Str × List Comp)
  jedi : List Str → Str → Except Str (Str × List Comp)
  search : List Str → Str → Except Str (Str × List Comp)
  /-- `_sys_path`: `sys.path` as the server started -/
  initial : List Str

/-- `complete_from_dir` (89-100) -/
def completeFromDir (d : Str) (s : St) : St :=
  let path := match s.currDir with
    | some c => if s.path.head? = some c then s.path.tail else s.path
    | none => s.path
  { s with currDir := some d, path := d :: path }

/-- `change_python_path` (103-114) -/
def changePythonPath (p : Str) (s : St) : St :=
  { s with path := ((Py.split1 '|' p).map Py.strip).filter fun x => decide (x.length > 0) }

/-- `self.send` (215-216) -/
def send (m : Str) (s : St) : St := { s with sent := s.sent ++ [m] }

/-- a request answered with suggestions, or with the error (337-348) -/
def sendFound (r : Except Str (Str × List Comp)) (s : St) : St :=
  match r with
  | .ok (f, cs) => send (formatMessage f cs) s
  | .error e => send (formatMessage c!"None" [⟨c!"ERROR:", e, [[]]⟩]) s

/-- the text after the first characters -/
def payload (pre data : Str) : Str := unquotePlus (data.drop pre.length)

/-- `data[: data.rfind(MSG_END)]` (257) -/
def upToEnd (data : Str) : Str := match rfind msgEnd data with | some n => data.take n | none => data.dropLast

/-- the handling of a request (240-348) -/
def handle (w : World) (data : Str) (s : St) : St :=
  if Py.isIn msgKill data then
    { send (formatMessage c!"None" [⟨c!"Exit:", c!"SystemExit", [[]]⟩]) s with ended := some .killed }
  else if Py.isIn msgPythonpath data then
    send (formatMessage c!"None" (w.initial.map fun p => ⟨p, [' '], []⟩)) s
  else
    let data := upToEnd data
    if Py.startsWith data msgImports then sendFound (w.tips s.path (payload msgImports data)) s
    else if Py.startsWith data msgChangePythonpath then send msgOk (changePythonPath (payload msgChangePythonpath data) s)
    else if Py.startsWith data msgJedi then sendFound (w.jedi s.path (payload msgJedi data)) s
    else if Py.startsWith data msgSearch then sendFound (w.search s.path (payload msgSearch data)) s
    else if Py.startsWith data msgChangeDir then send msgOk (completeFromDir (payload msgChangeDir data) s)
    else send msgInvalid s

/-- one `recv` (231-238) and what follows it; an empty text is the end of the connection -/
def recv (w : World) (s : St) (b : Bytes) : St :=
  if s.ended.isSome then s
  else if b = [] then { s with ended := some .closed }
  else match decode b with
    | none => { s with ended := some .crashed }
    | some t =>
      let data := s.data ++ t
      if Py.isIn msgEnd data then handle w data { s with data := [] } else { s with data := data }

def run (w : World) (s : St) (bs : List Bytes) : St := bs.foldl (recv w) s

end ComplServer
