/-!
# Evaluating code in a frame and changing its variables

Models `evaluate_expression`, `eval_in_context` and `change_attr_expression` of
`_pydevd_bundle/pydevd_vars.py`, `update_globals_and_locals` and `save_locals` of
`_pydevd_bundle/pydevd_save_locals.py`, and the requests `evaluate`, `setExpression` and
`setVariable` of `_pydevd_bundle/pydevd_comm.py` which use them.

The code which is evaluated is arbitrary: any function from what it can reach to what it leaves.
Objects are numbers (their identity), namespaces are maps from names to objects.
-/
namespace Evaluate

/-- An object, by identity. -/
abbrev Val := Nat
/-- A namespace: a `dict`, or the variables of a frame. -/
abbrev Env := String → Option Val

/-- The object `None`. -/
def noneVal : Val := 0
/-- The function the debugger puts in as `globals` (`pydevd_vars.py` 528-531). -/
def globalsFn : Val := 1

/-- How CPython keeps the variables of a function's frame: up to 3.12 `frame.f_locals` is a
dictionary refreshed from the variables whenever it is read, and `PyFrame_LocalsToFast(frame, 0)`
copies it back, skipping missing names; 3.13.0 has a proxy which can't delete at all; later ones a
proxy which deletes names other than variables of the code. -/
inductive Py where
  | upTo312
  | v3130
  | from3131
deriving DecidableEq, Repr

/-- A frame: of a module, where `f_locals` is `f_globals`; or of a function or class body.
`slot` are the names which are variables of the code (locals, cells and free variables; none in a
class body); `L` their values; `X` the other names in `f_locals`. -/
structure Frame where
  isModule : Bool
  slot : String → Bool
  G : Env
  L : Env
  X : Env

/-- `frame.f_locals`, read. -/
def Frame.locals (f : Frame) : Env :=
  if f.isModule then f.G else fun k => if f.slot k then f.L k else f.X k

/-- `d[key] = val` on a namespace. -/
def Env.set (e : Env) (k : String) (v : Option Val) : Env := fun j => if j = k then v else e j

/-- `dict.update`. -/
def Env.update (a b : Env) : Env := fun k => (b k).or (a k)

/-- The namespace for the code: globals, then locals over them, then `globals`
(`pydevd_vars.py` 525-531). -/
def namespaceOf (f : Frame) : Env :=
  let n := Env.update f.G f.locals
  fun k => if k = "globals" ∧ n k = none then some globalsFn else n k

/-- What evaluated code can reach and change: its namespace; and, by calling functions of the
program, the real globals and (through closures) the real variables of the frame. -/
structure Mem where
  ns : Env
  G : Env
  L : Env

/-- How code ends. -/
inductive Outcome where
  | value (v : Val)
  | raised
deriving DecidableEq, Repr

/-- Code: whatever it does. `asEval` and `asExec` say whether it compiles as an expression and as
statements; `effect` is what it does when run. `fallback` is what the attempt to resolve mangled
names finds when the expression raised (`pydevd_vars.py` 270-291; see `Mangle.lean`), `none` for
nothing: attribute reads without side effects. -/
structure Code where
  asEval : Bool
  asExec : Bool
  effect : Mem → Mem × Outcome
  fallback : Mem → Option Val

/-- The name was assigned: `val is not initial_globals.get(key, _SENTINEL)`
(`pydevd_save_locals.py` 100-101). -/
def changed (init upd : Env) (k : String) : Bool := (upd k).isSome && decide (upd k ≠ init k)

/-- The name was removed (`pydevd_save_locals.py` 98). -/
def removed (init upd : Env) (k : String) : Bool := (init k).isSome && (upd k).isNone

/-- What `f_locals[key] = val` or `del f_locals[key]` and the handling of its failure make of a name
(`pydevd_save_locals.py` 100-128), for the globals of a module's frame. Taken for one name; the loop
does it for all, and no name is in both groups. -/
def writeModule (init upd : Env) (e : Env) : Env := fun k =>
  if changed init upd k then upd k
  else if removed init upd k then none
  else e k

/-- The same for a variable of a function's code, after `save_locals`
(`pydevd_save_locals.py` 100-130, 20-35, 72-73): a deletion does nothing up to 3.12, as
`PyFrame_LocalsToFast` skips missing names; from 3.13 it fails, and `None` is stored. -/
def writeSlot (py : Py) (init upd : Env) (e : Env) : Env := fun k =>
  if changed init upd k then upd k
  else if removed init upd k then
    match py with
    | .upTo312 => e k
    | _ => (e k).map fun _ => noneVal
  else e k

/-- The same for another name in `f_locals` of a function (`pydevd_save_locals.py` 100-130). -/
def writeExtra (py : Py) (init upd : Env) (e : Env) : Env := fun k =>
  if changed init upd k then upd k
  else if removed init upd k then
    match py with
    | .v3130 => (e k).map fun _ => noneVal
    | _ => none
  else e k

/-- `update_globals_and_locals` (`pydevd_save_locals.py` 85-130). `save_locals` is taken to work
(`ctypes` is there). -/
def writeBack (py : Py) (init upd : Env) (f : Frame) : Frame :=
  if f.isModule then { f with G := writeModule init upd f.G }
  else
    { f with
      L := fun k => if f.slot k then writeSlot py init upd f.L k else f.L k
      X := fun k => if f.slot k then f.X k else writeExtra py init upd f.X k }

/-- What an evaluation answers: the value, the exception as a value, nothing, or the exception. -/
inductive Answer where
  | value (v : Val)
  | exception
  | nothing
  | raises
deriving DecidableEq, Repr

/-- The frame after an evaluation, the answer, how many times the code was run, and whether its
value was printed. -/
structure After where
  frame : Frame
  answer : Answer
  runs : Nat
  printed : Option Val

/-- The frame with what the code did to it itself. -/
def Frame.withMem (f : Frame) (m : Mem) : Frame := { f with G := m.G, L := m.L }

/-- `evaluate_expression` of a frame, not of `None` (`pydevd_vars.py` 445-598), with
`eval_in_context` (`pydevd_vars.py` 249-292). Timeouts (C48) and code with a top-level `await` (see
`lookup`) are left out; what is raised is an `Exception` or `KeyboardInterrupt`. -/
def evaluate (py : Py) (f : Frame) (c : Code) (isExec : Bool) : After :=
  let init := namespaceOf f
  let start : Mem := ⟨init, f.G, f.L⟩
  if isExec then
    if c.asEval then
      -- 564-579: run as an expression, printed, not written back
      let (m, o) := c.effect start
      match o with
      | .value v => ⟨f.withMem m, .nothing, 1, if v = noneVal then none else some v⟩
      | .raised => ⟨f.withMem m, .raises, 1, none⟩
    else if c.asExec then
      -- 548-563: written back in any case
      let (m, o) := c.effect start
      let f' := writeBack py init m.ns (f.withMem m)
      match o with
      | .value _ => ⟨f', .nothing, 1, none⟩
      | .raised => ⟨f', .raises, 1, none⟩
    else ⟨f, .raises, 0, none⟩
  else
    if c.asEval then
      let (m, o) := c.effect start
      match o with
      | .value v => ⟨writeBack py init m.ns (f.withMem m), .value v, 1, none⟩
      | .raised =>
        match c.fallback m with
        | some v => ⟨writeBack py init m.ns (f.withMem m), .value v, 1, none⟩
        | none => ⟨f.withMem m, .exception, 1, none⟩
    else
      match c.fallback start with
      | some v => ⟨f, .value v, 0, none⟩
      | none => ⟨f, .exception, 0, none⟩

/-! ## Where names are looked up -/

/-- Where a name occurs in the code: at its top level, or in a scope inside it (a lambda or a
function; before Python 3.12 a comprehension). -/
inductive Depth where
  | top
  | nested
deriving DecidableEq, Repr

/-- The object a name, not bound inside the code, stands for: `eval(compiled, ns, None)`
(`pydevd_vars.py` 269, 576; `Exec`, `pydevd_exec2.py` 1-5) looks in `ns`, then in the builtins, at
every depth. Code with a top-level `await` is run by `eval(compiled, None, ns)`, as
`_EvalAwaitInNewEventLoop` (`pydevd_vars.py` 419-431) has the two the wrong way round: the globals
are then those of the debugger's own module `own`. -/
def lookup (isAsync : Bool) (ns own builtins : Env) (d : Depth) (k : String) : Option Val :=
  if isAsync then
    match d with
    | .top => (ns k).or ((own k).or (builtins k))
    | .nested => (own k).or (builtins k)
  else (ns k).or (builtins k)

/-! ## The evaluate request -/

/-- The context of a request. -/
inductive Context where
  | hover
  | watch
  | repl
  | other
deriving DecidableEq, Repr

/-- The response: success with a value, success with an empty text, success with the exception
shown as a value, or failure. -/
inductive Response where
  | value (v : Val)
  | empty
  | exceptionAsValue
  | failure
deriving DecidableEq, Repr

/-- `internal_evaluate_expression_json` for a frame which was found (`pydevd_comm.py` 1174-1289).
Returns the frame, the response and how many times the code was run. Compiling the same text again
(1233) has the same outcome. Whether the output is redirected, the format and the text of the
messages are left out. -/
def request (py : Py) (f : Frame) (c : Code) (ctx : Context) : Frame × Response × Nat :=
  let a := evaluate py f c false
  match a.answer with
  | .value v => (a.frame, if ctx = .repl ∧ v = noneVal then .empty else .value v, a.runs)
  | .exception =>
    match ctx with
    | .hover => (a.frame, .failure, a.runs)
    | .watch => (a.frame, .failure, a.runs)
    | .other => (a.frame, .exceptionAsValue, a.runs)
    | .repl =>
      if c.asEval then (a.frame, .failure, a.runs)
      else
        let b := evaluate py a.frame c true
        match b.answer with
        | .raises => (b.frame, .failure, a.runs + b.runs)
        | _ => (b.frame, .empty, a.runs + b.runs)
  | _ => (a.frame, .empty, a.runs)

/-- The same for a frame which was not found: `evaluate_expression` answers `None`
(`pydevd_vars.py` 489-490). -/
def requestNoFrame (ctx : Context) : Response :=
  if ctx = .repl then .empty else .value noneVal

/-! ## Changing a variable -/

/-- The expression of the new value: evaluated with the real globals and locals
(`eval(expression, frame.f_globals, frame.f_locals)`), it may do anything to the frame and answers
an object or raises. -/
abbrev Expr := Frame → Frame × Option Val

/-- A name with `Globals` in front, as the XML protocol writes globals (`pydevd_vars.py` 618). -/
def globalsPrefix (attr : String) : Bool := "Globals".toList.isPrefixOf attr.toList

/-- `attr[8:]` (`pydevd_vars.py` 619). -/
def dropEight (attr : String) : String := String.ofList (attr.toList.drop 8)

/-- Storing a name in `f_locals` of the frame, and saving it (`pydevd_vars.py` 632-633, or the
assignment executed with the frame's namespaces, 640). -/
def Frame.store (f : Frame) (k : String) (v : Val) : Frame :=
  if f.isModule then { f with G := f.G.set k (some v) }
  else if f.slot k then { f with L := f.L.set k (some v) }
  else { f with X := f.X.set k (some v) }

/-- What `change_attr_expression` leaves: the frame, its answer (`none` if it raised, which is logged
and dropped), and how many times the expression was run. -/
structure Changed where
  frame : Frame
  answer : Option Val
  runs : Nat

/-- `change_attr_expression(frame, attr, expression, dbg, scope=...)`
(`pydevd_vars.py` 601-644), for a name without a dot and without a plugin (Django, Jinja).
`saveLocals` is `is_save_locals_available()`: true up to Python 3.12 and on PyPy. -/
def change (saveLocals : Bool) (f : Frame) (attr : String) (e : Expr) (globalScope : Bool) :
    Changed :=
  if globalsPrefix attr || globalScope then
    let k := if globalsPrefix attr then dropEight attr else attr
    if (f.G k).isSome then
      match e f with
      | (f', some v) => ⟨{ f' with G := f'.G.set k (some v) }, some v, 1⟩
      | (f', none) => ⟨f', none, 1⟩
    else ⟨f, none, 0⟩
  else if saveLocals then
    match e f with
    | (f', some v) => ⟨f'.store attr v, some v, 1⟩
    | (f', none) => ⟨f', none, 1⟩
  else
    -- 636-641: evaluated, then evaluated again in the assignment
    match e f with
    | (f', none) => ⟨f', none, 1⟩
    | (f', some v) =>
      match e f' with
      | (f'', none) => ⟨f'', none, 2⟩
      | (f'', some w) => ⟨f''.store attr w, some v, 2⟩

/-- The response to `setVariable` on a scope of a frame (`pydevd_suspended_frames.py` 258-261,
`pydevd_comm.py` 906-959): success with the value the variable has now, or failure if there is no
such variable. -/
def setVariable (saveLocals : Bool) (f : Frame) (name : String) (e : Expr) (globalScope : Bool) :
    Frame × Option Val × Nat :=
  let c := change saveLocals f name e globalScope
  (c.frame, (if globalScope then c.frame.G name else c.frame.locals name), c.runs)

/-- `setExpression` for a plain name (`pydevd_comm.py` 1352-1392): `name = (value)` is run as
statements in a copy of the namespaces, then the name is evaluated. -/
def setExpression (py : Py) (f : Frame) (k : String) (value : Mem → Mem × Outcome) :
    Frame × Option Val :=
  let assign : Mem → Mem × Outcome := fun m =>
    match value m with
    | (m', .value v) => ({ m' with ns := m'.ns.set k (some v) }, .value noneVal)
    | (m', .raised) => (m', .raised)
  let a := evaluate py f ⟨false, true, assign, fun _ => none⟩ true
  match a.answer with
  | .raises => (a.frame, none)
  | _ => (a.frame, namespaceOf a.frame k)

end Evaluate
