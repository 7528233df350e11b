import Verif.EvalName.Spec
import Verif.Common.Str
/-!
Changing an element or attribute of something shown (the request `setVariable` of the debug adapter protocol
on a variable, not on the scope of a frame, which is in area `Evaluate`).

Code modelled:
* `_pydevd_bundle/pydevd_suspended_frames.py`: `_AbstractVariable.get_child_variable_named` (106-110),
  `_ObjectVariable.change_variable` (202-238),
* `_pydevd_bundle/pydevd_resolver.py`: `SetResolver.change_var_from_name` (587-604),
* `_pydevd_bundle/pydevd_comm.py`: `internal_change_variable_json` (906-953),
* `_pydevd_bundle/pydevd_process_net_command_json.py`: `on_setvariable_request` (1131-1158).

The variables shown, their expressions and the part of Python's grammar these are in are those of area
`EvalName`.  Simplifications: the text `expression=value` is taken to be the assignment of the value to the
target the expression is, if it is one (a value such as `1; y = 2` or `y = 1` makes more of it); a variable
always has its frame.
-/

namespace SetVar

open EvalName

/-- What running the text the client gave as value in a frame does: to the objects of the program, to the frame, and the
object it evaluates to (`none`: an exception). -/
abbrev Value := World → Frame → World × Frame × Option Nat

/-- Python and the program. -/
structure Env where
  /-- Python's parser. -/
  parse : Str → Option Expr
  /-- `obj.a = m`: what it leaves, and if it went without an exception. -/
  setattr : World → Nat → Str → Nat → World × Bool
  /-- `obj[k] = m` in the same way. -/
  setitem : World → Nat → Key → Nat → World × Bool
  /-- The objects that are equal, and the ones that can be hashed. -/
  eqv : Nat → Nat → Bool
  hashable : Nat → Bool
  /-- The sets that can't be changed (`frozenset`). -/
  frozen : Nat → Bool
  /-- How a row is called, with numbers in base 16 (`fmt` with `hex`) or not: the name of its title, of its attribute,
  of its index with zeros in front, of its key with the suffix for keys of the same representation. -/
  label : Bool → Str → Via → Str

/-- The variables below a variable with the names they are shown with
(`get_children_variables`, pydevd_suspended_frames.py 165-200). -/
def named (env : Env) (g : Groups) (lim : Limits) (hex : Bool) (w : World) (v : Var) : List Var :=
  (grouped g v.val (contents w lim v.val)).map fun r => { childVar w v r with name := env.label hex r.name r.via }

/-- `get_child_variable_named` (pydevd_suspended_frames.py 106-110): the first of that name. -/
def child (env : Env) (g : Groups) (lim : Limits) (hex : Bool) (w : World) (v : Var) (name : Str) : Option Var :=
  (named env g lim hex w v).find? fun x => x.name = name

/-- `e = m` for an object `m`: the parts of the target are evaluated, then the attribute or element is set.
Other targets are syntax errors (calls, sums, literals) or not the expression of a variable below another (names). -/
def assign (env : Env) (w : World) (f : Frame) (m : Nat) : Expr → World × Bool
  | .attr e a =>
    match value w f e with
    | some (.obj n) => env.setattr w n a m
    | _ => (w, false)
  | .sub e i =>
    match value w f e, value w f i with
    | some (.obj n), some (.key k) => env.setitem w n k m
    | some (.obj n), some (.obj j) =>
      match w.keyOf j with
      | some k => env.setitem w n k m
      | none => (w, false)
    | _, _ => (w, false)
  | _ => (w, false)

/-- What can be assigned to, as far as the grammar goes. -/
def isTarget : Expr → Bool
  | .attr _ _ | .sub _ _ => true
  | _ => false

/-- `Exec("%s=%s" % (evaluate_name, value), frame.f_globals, frame.f_locals)` (pydevd_suspended_frames.py 234):
nothing is run when it is a syntax error; the value is evaluated before the target. -/
def exec (env : Env) (val : Value) (w : World) (f : Frame) (t : Str) : World × Frame × Bool :=
  match env.parse t with
  | none => (w, f, false)
  | some e =>
    if isTarget e then
      match val w f with
      | (w', f', none) => (w', f', false)
      | (w', f', some m) => ((assign env w' f' m e).1, f', (assign env w' f' m e).2)
    else (w, f, false)

/-- An element is taken out of a set and another put in, unless there is an equal one
(`container.remove(item)`, `container.add(new_value)`, pydevd_resolver.py 600-601). -/
def swap (env : Env) (items : List Nat) (x m : Nat) : List Nat :=
  let rest := items.filter fun y => !env.eqv x y
  if rest.any (env.eqv m) then rest else rest ++ [m]

/-- What the thread that runs the request does. -/
inductive Outcome where
  /-- The response, successful with a variable or not. -/
  | answer (v : Option Var)
  /-- An exception goes out of the request: there is no response. -/
  | raises

/-- `SetResolver.change_var_from_name` (pydevd_resolver.py 587-604) and what is made of it
(pydevd_suspended_frames.py 217-224). -/
def changeSet (env : Env) (w : World) (n : Nat) (items : List Nat) (name : Str) (m : Nat) : World × Outcome :=
  if env.hashable m then
    match items.find? fun x => Py.natStr x = name with
    | some x =>
      if env.frozen n then (w, .raises)
      else
        ({ w with obj := fun i => if i = n then { w.obj n with kind := .set (swap env items x m) } else w.obj i },
          .answer (some ⟨Py.natStr m, .obj m, none⟩))
    | none => (w, .answer none)
  else (w, .answer none)

/-- `_ObjectVariable.change_variable` (pydevd_suspended_frames.py 202-238). `here` is what running the text of the value
in the module of the debugger gives (line 215: `eval(value)`). -/
def change (env : Env) (g : Groups) (lim : Limits) (val : Value) (here : Option Nat) (w : World) (f : Frame) (v : Var)
    (hex : Bool) (name : Str) : World × Frame × Outcome :=
  match child env g lim false w v name with
  | none => (w, f, .answer none)
  | some c =>
    match c.eval with
    | some (t :: ts) =>
      match exec env val w f (t :: ts) with
      | (w', f', true) => (w', f', .answer (child env g lim hex w' v name))
      | (w', f', false) => (w', f', .answer none)
    | _ =>
      match v.val with
      | .obj n =>
        match (w.obj n).kind with
        | .set items =>
          match here with
          | some m => ((changeSet env w n items name m).1, f, (changeSet env w n items name m).2)
          | none => (w, f, .answer none)
        | _ => (w, f, .answer none)
      | _ => (w, f, .answer none)

/-- The request (`on_setvariable_request`, pydevd_process_net_command_json.py 1131-1158, and
`internal_change_variable_json`, pydevd_comm.py 906-953) on a reference that stands for the variable `v`
(`none`: there is no such reference). -/
def setVariable (env : Env) (g : Groups) (lim : Limits) (val : Value) (here : Option Nat) (w : World) (f : Frame)
    (v : Option Var) (hex : Bool) (name : Str) : World × Frame × Outcome :=
  if Py.startsWith name c!"(return) " then (w, f, .answer none)
  else
    match v with
    | none => (w, f, .answer none)
    | some v => change env g lim val here w f v hex name

end SetVar
