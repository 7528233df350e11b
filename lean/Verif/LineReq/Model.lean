import Verif.Common.PyInt
import Verif.Common.Split
import Verif.Common.Str
/-!
Requests of the line protocol ("CMD\tSEQ\tTEXT"): how the TEXT of a request is taken apart by the
handlers of `_PyDevCommandProcessor` (_pydevd_bundle/pydevd_process_net_command.py).

Simplifications: text is a list of characters; `str.strip()` and `int(..)` know ASCII white space and
ASCII digits only (Common/PyInt); a Python exception in a handler is `none`: `process_net_command`
(lines 64-81) turns it into an error reply and nothing else happens.
-/

namespace LineReq

abbrev Str := List Char

/-- `s.split("\t", n)`: at most `n` cuts, from the left. -/
def splitN : Nat → Str → List Str
  | 0, s => [s]
  | n + 1, s =>
    if '\t' ∈ s then s.takeWhile (· ≠ '\t') :: splitN n ((s.dropWhile (· ≠ '\t')).drop 1) else [s]

def nlTag : Str := c!"@_@NEW_LINE_CHAR@_@"
def tabTag : Str := c!"@_@TAB_CHAR@_@"
def lineTag : Str := c!"@LINE@"

/-- Lines 288-290, 299-301, 617, 622: `x.replace("@_@NEW_LINE_CHAR@_@", "\n").replace("@_@TAB_CHAR@_@", "\t").strip()` -/
def restore (s : Str) : Str := Py.strip (Py.replaceAll tabTag ['\t'] (Py.replaceAll nlTag ['\n'] s))

/-- Lines 303-310, 619-625 (and 309 for the hit condition): empty text and `None` mean "not given". -/
def orNone (s : Str) : Option Str := if s.length = 0 ∨ s = c!"None" then none else some s

/-- The arguments `cmd_set_break` gives to `api.add_breakpoint` (lines 355-368). -/
structure Break where
  id : Int
  btype : Str
  filename : Str
  line : Int
  funcName : Str
  condition : Option Str
  expression : Option Str
  hitCondition : Option Str
  isLogpoint : Bool
  suspendPolicy : Str
deriving DecidableEq, Repr

/-- Lines 283-290 and 303-310, with ids. -/
def finish (i btype filename l func cond expr : Str) (hit : Option Str) (log : Bool) (pol : Str) : Option Break :=
  match Py.parseInt i, Py.parseInt l with
  | some i, some l =>
    some { id := i, btype, filename, line := l, funcName := func, condition := orNone (restore cond),
           expression := orNone (restore expr), hitCondition := hit.bind orNone, isLogpoint := log, suspendPolicy := pol }
  | _, _ => none

/-- `cmd_set_break` lines 261-290: the client sets breakpoints with an id. Ten fields, else nine, else seven. -/
def setBreakWithId (text : Str) : Option Break :=
  match splitN 9 text with
  | [i, bt, fn, l, f, c, e, h, log, pol] => finish i bt fn l f c e (some h) (log = c!"True") pol
  | _ =>
    match splitN 8 text with
    | [i, bt, fn, l, f, c, e, h, log] => finish i bt fn l f c e (some h) (log = c!"True") c!"NONE"
    | _ =>
      match splitN 6 text with
      | [i, bt, fn, l, f, c, e] => finish i bt fn l f c e none false c!"NONE"
      | _ => none

/-- `cmd_set_break` lines 291-301: without ids; the line is the id. -/
def setBreakNoId (text : Str) : Option Break :=
  match splitN 6 text with
  | [bt, fn, l, f, pol, c, e] => finish l bt fn l f c e none false pol
  | _ => none

/-- `cmd_set_break` (lines 254-371): which breakpoint the request asks for. -/
def setBreak (withId : Bool) (text : Str) : Option Break :=
  if withId then setBreakWithId text else setBreakNoId text

/-- `cmd_remove_break` (lines 373-386): type, file and id. -/
def removeBreak (text : Str) : Option (Str × Str × Int) :=
  match splitN 2 text with
  | [bt, fn, i] => (Py.parseInt i).map (fun i => (bt, fn, i))
  | _ => none

/-- The arguments `cmd_add_exception_break` gives to the api (lines 632-645). -/
inductive ExcBreak where
  | python (exception : Str) (condition expression : Option Str)
      (onHandled onUnhandled firstOnly ignoreLibraries : Bool)
  | plugin (kind exception : Str)
deriving DecidableEq, Repr

/-- Lines 627-630, 648-652: `"type-name"`; more than one dash cannot be unpacked. -/
def excName (s : Str) : Option (Str × Str) :=
  if '-' ∈ s then
    match Py.split1 '-' s with
    | [a, b] => some (a, b)
    | _ => none
  else some (c!"python", s)

/-- Lines 617-645, after the fields were taken apart. -/
def addExc (exc cond expr h u lib : Str) : Option ExcBreak :=
  match excName exc with
  | none => none
  | some (kind, name) =>
    if kind = c!"python" then
      match Py.parseInt h, Py.parseInt u, Py.parseInt lib with
      | some h, some u, some lib =>
        some (.python name (orNone (restore cond)) (orNone (restore expr)) (h > 0) (u = 1) (h = 2) (lib > 0))
      | _, _, _ => none
    else some (.plugin kind name)

/-- `cmd_add_exception_break` (lines 579-645): six fields, else four, else only the name. -/
def addExceptionBreak (text : Str) : Option ExcBreak :=
  if '\t' ∈ text then
    match splitN 5 text with
    | [exc, c, e, h, u, lib] => addExc exc c e h u lib
    | _ =>
      match splitN 3 text with
      | [exc, h, u, lib] => addExc exc [] [] h u lib
      | _ => none
  else addExc text [] [] c!"0" c!"0" c!"0"

/-- What `cmd_evaluate_expression` / `cmd_exec_expression` hand to the thread (lines 388-399): thread, frame,
expression (with the lines restored, `evaluate_expression`, pydevd_vars.py 538, 611), trim and where to store the result. -/
structure Eval where
  thread : Str
  frame : Str
  expression : Str
  trim : Bool
  attr : Str
deriving DecidableEq, Repr

/-- `expression.replace("@LINE@", "\n")`: `evaluate_expression` in pydevd_vars.py. -/
def restoreLines (s : Str) : Str := Py.replaceAll lineTag ['\n'] s

def finishEval (th fr ex tr attr : Str) : Option Eval :=
  (Py.parseInt tr).map (fun (t : Int) => { thread := th, frame := fr, expression := restoreLines ex, trim := t = 1, attr })

/-- `_cmd_exec_or_evaluate_expression` (lines 388-399) -/
def evaluate (text : Str) : Option Eval :=
  match splitN 5 text with
  | [th, fr, _, ex, tr, attr] => finishEval th fr ex tr attr
  | _ =>
    match splitN 4 text with
    | [th, fr, _, ex, tr] => finishEval th fr ex tr []
    | _ => none

/-- What `cmd_change_variable` hands on: thread, frame, scope, dotted attribute, value. -/
structure Change where
  thread : Str
  frame : Str
  scope : Str
  attr : Str
  value : Str
deriving DecidableEq, Repr

/-- `cmd_change_variable` (lines 200-207): the value is what follows the last tab, the other tabs become dots. -/
def changeVariable (text : Str) : Option Change :=
  match splitN 3 text with
  | [th, fr, sc, av] =>
    if '\t' ∈ av then
      let value := (av.reverse.takeWhile (· ≠ '\t')).reverse
      let attr := ((av.reverse.dropWhile (· ≠ '\t')).drop 1).reverse
      some { thread := th, frame := fr, scope := sc, attr := Py.replaceChar '\t' '.' attr, value }
    else none
  | _ => none

/-- What a smart step request asks for (`cmd_smart_step_into`, lines 170-190). -/
inductive Smart where
  | byOffset (thread : Str) (offset child : Int)
  | byName (thread line func : Str)
deriving DecidableEq, Repr

def offsetEq : Str := c!"offset="

/-- `cmd_smart_step_into` (lines 170-189) -/
def smartStep (text : Str) : Option Smart :=
  match splitN 2 text with
  | [th, l, f] =>
    if Py.startsWith l offsetEq then
      let temp := l.drop offsetEq.length
      if ';' ∈ temp then
        match Py.split1 ';' temp with
        | [a, b] =>
          match Py.parseInt a, Py.parseInt b with
          | some a, some b => some (.byOffset th a b)
          | _, _ => none
        | _ => none
      else (Py.parseInt temp).map (fun o => .byOffset th o (-1))
    else some (.byName th l f)
  | _ => none

/-- `getVariable` (pydevd_vars.py lines 95-101): the path of a variable. The result of
`attr.replace("@_@TAB_CHAR@_@", "\t")` is thrown away by the code, so the parts are left as they came. -/
def locatorParts (locator : Str) : List Str := Py.split1 '\t' locator

end LineReq
