import Verif.Common.Split
import Verif.Common.Str
/-!
Completions in the debug console: which names are offered for a text and a cursor, and which part of the
text each of them replaces.

_pydev_bundle/_pydev_completer.py, `internal_get_completions` (_pydevd_bundle/pydevd_comm.py 1395-1434) and
`make_get_completions_message` (_pydevd_bundle/pydevd_net_command_factory_json.py 189-213).

Simplifications: the text is given as its lines (`str.splitlines()`); `str.isidentifier` of one character and
`str.lower` are arbitrary functions; what a dotted name evaluates to is given as the list of its attributes
(`dir`), `none` when the evaluation fails in every namespace. Types, documentation and parameters of the
completions are not modelled.
-/

namespace Complete

abbrev Str := List Char

/-- What the model is given of Python and of the program. -/
structure World where
  /-- `c.isidentifier()` for a single character -/
  isIdent : Char → Bool
  /-- `s.lower()` -/
  lower : Str → Str
  builtins : List Str
  globals : List Str
  locals : List Str
  /-- `dir(eval(expr))`; `none`: the evaluation raises. -/
  attrs : Str → Option (List Str)

/-- `identifier_part` (lines 206-210): ASCII letters, digits and underscore. -/
def identifierPart (c : Char) : Bool := c.isAlpha || c.isDigit || c = '_'

/-- Line 255: `c in identifier_part or isidentifier(c) or c == "."` -/
def part (w : World) (c : Char) : Bool := identifierPart c || w.isIdent c || c = '.'

/-- `extract_token_and_qualifier` (lines 220-267): the dotted name before the cursor, cut at its last dot. -/
def extract (w : World) (lines : List Str) (line column : Int) : Str × Str :=
  let line := if line < 0 then 0 else line
  let column := if column < 0 then 0 else column
  match lines[line.toNat]? with
  | none => ([], [])
  | some text =>
    let column := if column.toNat ≥ text.length then text.length else column.toNat
    let text := text.take column
    let temp := (text.reverse.takeWhile (part w)).reverse
    if '.' ∈ temp then
      let parts := Py.split1 '.' temp
      (Py.join1 '.' parts.dropLast, parts.getLast?.getD [])
    else ([], temp)

/-- `_StartsWithFilter` (lines 25-33) -/
def startsWithFilter (w : World) (start name : Str) : Bool := Py.startsWith (w.lower name) (w.lower start)

/-- The dictionary of `global_matches` (lines 108-111): names of builtins, then of `updated_globals`
(`generate_completions` lines 163-165: globals, then locals). A dictionary has each name once. -/
def allNames (w : World) : List Str := (w.builtins ++ (w.globals ++ w.locals)).eraseDups

/-- `dir_comps` of `generate_imports_tip_for_module` (lines 167-172) for an object. -/
def dirComps (attrs : List Str) : List Str := attrs ++ [c!"__dict__", c!"__class__"]

/-- `Completer.complete` (lines 73-91) with `global_matches` (93-115) and `attr_matches` (117-150). The text is
empty or `token + "."`, for which the regular expression yields `token` and the empty attribute. -/
def complete (w : World) (token : Str) : List Str :=
  if token = [] then (allNames w).filter (startsWithFilter w [])
  else
    match w.attrs token with
    | none => []
    | some as => (dirComps as).filter (startsWithFilter w [])

/-- One completion sent to the client: what it is, and the part of the line it replaces. -/
structure Item where
  label : Str
  start : Int
  length : Nat
deriving DecidableEq, Repr

/-- `make_get_completions_message` (lines 200-209) -/
def items (w : World) (completions : List Str) (qualifier : Str) (start : Int) : List Item :=
  let q := w.lower qualifier
  (completions.filter (fun l => Py.startsWith (w.lower l) q)).map (fun l => { label := l, start := start, length := q.length })

/-- `on_completions_request` (pydevd_process_net_command_json.py 332-336): the line is 1-based and optional. -/
def lineIndex : Option Int → Int
  | none => -1
  | some l => l - 1

/-- `on_completions_request` (pydevd_process_net_command_json.py 329-338: the column is 1-based) with
`internal_get_completions` (pydevd_comm.py 1403-1418). For a column of 0 or less, which no client
sends, the code takes the text itself as the token; this is left out (`none`). -/
def onCompletions (w : World) (lines : List Str) (line : Option Int) (column : Int) : Option (List Item) :=
  if column - 1 ≥ 0 then
    let tq := extract w lines (lineIndex line) (column - 1)
    some (items w (complete w tq.1) tq.2 ((column - 1) - tq.2.length))
  else none

end Complete
