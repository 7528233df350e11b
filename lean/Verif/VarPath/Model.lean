import Verif.Common.Dict
import Verif.LineReq.Model
import Verif.Resolver.Containers
import Verif.Resolver.Model
/-!
Variables of the line protocol are found again by their path: scope, name and the names of what was opened.

Source: `/repo/_pydevd_bundle/pydevd_process_net_command.py` `cmd_get_variable`, `cmd_get_array` (209-232);
`/repo/_pydevd_bundle/pydevd_vars.py` `getVariable` (51-125), `resolve_compound_variable_fields` (128-146);
`/repo/_pydevd_bundle/pydevd_resolver.py` `DefaultResolver`, `DictResolver`, `MoreItemsRange`, `MoreItems`, `TupleResolver`, `SetResolver`
(63-582); `/repo/_pydevd_bundle/pydevd_comm.py` `InternalGetVariable`, `InternalGetArray` (816-883).

Simplifications: objects are plain objects, lists and tuples, dictionaries, sets, and basic values; other resolvers (numpy, Django, frames,
plugins) are not modelled. The program does not change while it is paused. Reading an attribute twice gives the same. An exception is `none`.
-/

namespace VarPath

abbrev Str := List Char

/-- a key of a dictionary: the object, and its text if it is a `str` -/
structure Key where
  obj : Containers.Obj
  str : Option Str := none

inductive Kind
  /-- `int`, `str`, `None`: no resolver -/
  | atom
  | plain
  | seq (items : List Nat)
  | dict (items : List (Key × Nat))
  | set (items : List Containers.Obj)

/-- an object: what it contains, `dir(obj)`, and `getattr(obj, name)` (`none`: an exception) -/
structure Node where
  kind : Kind := .atom
  dir : List Str := []
  attr : Str → Option Nat := fun _ => none

structure Frame where
  globals : List (Str × Nat) := []
  locals : List (Str × Nat) := []
  /-- the value of an expression in the frame -/
  evaluate : Str → Option Nat := fun _ => none

structure World where
  heap : Nat → Node
  cfg : Resolver.Cfg := ⟨100, 1000⟩
  /-- `PYDEVD_CONTAINER_RANDOM_ACCESS_MAX_ITEMS` -/
  max : Int := 300
  /-- the thread that executes the request -/
  current : Str := []
  /-- `gc.get_objects()` -/
  alive : List Nat := []
  /-- `dbg.find_frame(thread_id, frame_id)` -/
  frame : Str → Str → Option Frame
  /-- `getattr({}, name)` -/
  dictAttr : Str → Option Nat := fun _ => none

/-- what a path leads to -/
inductive Val
  | obj (r : Nat)
  /-- `MoreItems`, `MoreItemsRange` of a sequence -/
  | more (r : Nat) (handled : Int)
  | range (r : Nat) (a b : Int)
  /-- a dictionary of names: globals, or globals and locals -/
  | names (d : List (Str × Nat))
  /-- `None` that stands for the rows that are not values -/
  | none
deriving DecidableEq

def special (name : Str) : Prop := name = Containers.lenName ∨ name = Containers.tooLargeName

instance (name : Str) : Decidable (special name) := inferInstanceAs (Decidable (_ ∨ _))

/-- the items of a sequence -/
def itemsOf (w : World) (r : Nat) : List Nat :=
  match (w.heap r).kind with
  | .seq items => items
  | _ => []

/-- `TupleResolver.resolve` (456-470) -/
def resolveSeq (w : World) (r : Nat) (items : List Nat) (name : Str) : Option Val :=
  if special name then some .none
  else match Resolver.resolve w.cfg items name with
    | some (.elem a) => some (.obj a)
    | some (.more h) => some (.more r h)
    | _ => ((w.heap r).attr name).map .obj

/-- `DictResolver.resolve` (246-265) -/
def resolveDict (w : World) (r : Nat) (items : List (Key × Nat)) (name : Str) : Option Val :=
  if special name then some .none
  else if '(' ∈ name then
    match Containers.dictResolve (items.map fun e => (e.1.obj, e.2)) name with
    | .value v => some (.obj v)
    | .none => some .none
    | .error => none
  else
    match items.find? (fun e => e.1.str == some name) with
    | some e => some (.obj e.2)
    | none => ((w.heap r).attr name).map .obj

/-- `SetResolver.resolve` (561-574) -/
def resolveSet (w : World) (r : Nat) (items : List Containers.Obj) (name : Str) : Option Val :=
  if special name then some .none
  else
    match Py.parseInt name with
    | none => ((w.heap r).attr name).map .obj
    | some _ =>
      match Containers.setResolve items name with
      | .value o => some (.obj o.id)
      | .none => some .none
      | .error => none

/-- `get_type(var)`, `resolver.resolve(var, name)`; `ForwardInternalResolverToObject` (448-449) for the rows of long sequences; a dictionary of
names is resolved by `DictResolver`, but identities of names are not modelled -/
def resolve (w : World) (v : Val) (name : Str) : Option Val :=
  match v with
  | .obj r =>
    match (w.heap r).kind with
    | .atom => none
    | .plain => ((w.heap r).attr name).map .obj
    | .seq items => resolveSeq w r items name
    | .dict items => resolveDict w r items name
    | .set items => resolveSet w r items name
  | .more r _ =>
    match Resolver.resolveMore (α := Nat) name with
    | some (.range a b) => some (.range r a b)
    | _ => none
  | .range r _ _ =>
    match Resolver.resolveRange (itemsOf w r) name with
    | some (.elem a) => some (.obj a)
    | _ => none
  | .names d =>
    if special name then some .none
    else if '(' ∈ name then none
    else match Py.Dict.get d name with
      | some r => some (.obj r)
      | none => (w.dictAttr name).map .obj
  | .none => none

/-- the loops `for k in locator_parts` (81-83, 121-123) -/
def walk (w : World) : Val → List Str → Option Val
  | v, [] => some v
  | v, n :: ns => (resolve w v n).bind (walk w · ns)

/-- `var.update(frame.f_globals); var.update(frame.f_locals)` (117-119) -/
def merged (f : Frame) : List (Str × Nat) :=
  f.locals.foldl (fun d e => Py.Dict.set d e.1 e.2) (f.globals.foldl (fun d e => Py.Dict.set d e.1 e.2) [])

/-- `locator.split("\t")`; the replacement of the mark for tabs is thrown away (95-101) -/
def parts (locator : Option Str) : List Str :=
  match locator with
  | some l => LineReq.locatorParts l
  | none => []

/-- `getVariable` (51-125) -/
def getVariable (w : World) (thread frameId scope : Str) (locator : Option Str) : Option Val :=
  if scope = c!"BY_ID" then
    if thread ≠ w.current then none
    else
      match Py.parseInt frameId with
      | none => none
      | some i =>
        match w.alive.find? (fun (r : Nat) => (r : Int) == i) with
        | some r => walk w (.obj r) (parts locator)
        | none => some .none
  else
    match w.frame thread frameId with
    | none => some (.names [])
    | some f =>
      if scope = c!"EXPRESSION" then
        match parts locator with
        | [] => none
        | e :: rest => (f.evaluate e).bind fun r => walk w (.obj r) rest
      else if scope = c!"GLOBAL" then
        match parts locator with
        | [] => none
        | _ :: rest => walk w (.names f.globals) rest
      else walk w (.names (merged f)) (parts locator)

/-- `scopeattrs` (214-217, 227-230) -/
def scopeAttrs (s : Str) : Str × Option Str :=
  match LineReq.splitN 1 s with
  | [scope, attrs] => (scope, some attrs)
  | _ => (s, none)

/-- `cmd_get_variable` (209-219) and the variable of the request (InternalGetVariable 832-834) -/
def requestVariable (w : World) (text : Str) : Option Val :=
  match LineReq.splitN 2 text with
  | [thread, frameId, sa] => getVariable w thread frameId (scopeAttrs sa).1 (scopeAttrs sa).2
  | _ => none

/-- what is sent for a row: a value, or a text or number that is no value of the program -/
inductive Cell
  | val (v : Val)
  | info
deriving DecidableEq

/-- `DefaultResolver._get_py_dictionary` (163-212): an attribute that cannot be read is shown as the text of the error -/
def attrRows (n : Node) : List (Str × Cell) :=
  n.dir.map fun a => (a, match n.attr a with
    | some r => .val (.obj r)
    | none => .info)

/-- a row of a sequence -/
def seqCell (r : Nat) : Resolver.Val Nat → Cell
  | .elem a => .val (.obj a)
  | .range a b => .val (.range r a b)
  | .more h => .val (.more r h)
  | .count _ => .info

def contCell {V : Type} (f : V → Nat) : Containers.Cell V → Cell
  | .value v => .val (.obj (f v))
  | _ => .info

/-- the assignments of `get_dictionary` (92-96, 330-347, 372-376, 419-423, 512-533, 576-589); `fuel` bounds the buckets of a sequence -/
def assigns (w : World) (fuel : Nat) : Val → List (Str × Cell)
  | .obj r =>
    match (w.heap r).kind with
    | .atom => []
    | .plain => attrRows (w.heap r)
    | .seq items =>
      (Resolver.dictLoop w.cfg items.length 0 items).map (fun e => (e.1, seqCell r e.2)) ++ attrRows (w.heap r) ++ [(Containers.lenName, .info)]
    | .dict items =>
      (Containers.dictAssigns w.max 0 (items.map fun e => (e.1.obj, e.2))).map (fun e => (e.1, contCell id e.2)) ++ attrRows (w.heap r) ++
        [(Containers.lenName, .info)]
    | .set items =>
      (Containers.setLoop w.max 0 items).map (fun e => (e.name, contCell (·.id) e.val)) ++ attrRows (w.heap r) ++ [(Containers.lenName, .info)]
  | .more r h => ((Resolver.moreContents w.cfg fuel (itemsOf w r) h).getD []).map fun e => (e.name, seqCell r e.val)
  | .range r a b => ((Resolver.rangeContents true false (itemsOf w r) a b).getD []).map fun e => (e.name, seqCell r e.val)
  | .names d => d.map fun e => (e.1, .val (.obj e.2))
  | .none => []

/-- `get_dictionary`: what is shown below a value (`InternalGetVariable.do_it` 829-849) -/
def shown (w : World) (fuel : Nat) (v : Val) : List (Str × Cell) := (assigns w fuel v).foldl (fun d e => Py.Dict.set d e.1 e.2) []

/-- `InternalGetArray` (860-876): the last name of the path is evaluated in the frame -/
def getArray (w : World) (thread frameId : Str) (attrs : Option Str) : Option Nat :=
  match attrs with
  | none => none
  | some a => (w.frame thread frameId).bind fun f => f.evaluate ((Py.split1 '\t' a).getLastD [])

/-- `cmd_get_array` (221-232) -/
def requestArray (w : World) (text : Str) : Option Nat :=
  match LineReq.splitN 7 text with
  | [_, _, _, _, _, thread, frameId, sa] => getArray w thread frameId (scopeAttrs sa).2
  | _ => none

end VarPath
