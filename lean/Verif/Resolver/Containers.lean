import Verif.Common.PyInt
import Verif.Common.Split
import Verif.Common.Str
/-!
Dictionaries and sets: `DictResolver` and `SetResolver` of `_pydevd_bundle/pydevd_resolver.py`.

Not modelled: the attributes of the object, which are listed before the items; a container that changes while it is shown; containers whose
classes redefine iteration.
-/

namespace Containers

abbrev Str := List Char

/-- an object that is a key of a dictionary or an item of a set -/
structure Obj where
  /-- `id(obj)` -/
  id : Nat
  /-- `key_to_str(obj, fmt)` (267-273), and without format -/
  text : Str
  plain : Str
  /-- `_does_obj_repr_evaluate_to_obj` (223-237) -/
  literal : Bool
  /-- objects are equal if these are -/
  val : Nat
deriving DecidableEq

/-- the value of a row: that of an item, the message that there is more, or the length -/
inductive Cell (V : Type)
  | value (v : V)
  | tooLarge
  | count (n : Nat)
deriving DecidableEq

structure Row (V : Type) where
  name : Str
  val : Cell V
  evalName : Option Str
deriving DecidableEq

/-- `GENERATED_LEN_ATTR_NAME`, `TOO_LARGE_ATTR` -/
def lenName : Str := c!"len()"
def tooLargeName : Str := c!"Unable to handle:"

/-- `"%s (id: %s)" % (key_as_str, id(key))` (304) -/
def idLabel (k : Obj) : Str := k.text ++ (c!" (id: " ++ (Py.natStr k.id ++ [')']))

/-- the name of an item (297-305), given `found_representations` -/
def dictName (found : List Str) (k : Obj) : Str := if k.text ∉ found then k.text else idLabel k

/-- the loop over the items (293-316), `i` before it is incremented -/
def dictLoop {V : Type} (max : Int) (i : Nat) (found : List Str) : List (Obj × V) → List (Row V)
  | [] => []
  | (k, v) :: items =>
    let name := dictName found k
    ⟨name, .value v, if k.literal then some ('[' :: (k.plain ++ [']'])) else none⟩ ::
      if (i : Int) + 1 ≥ max then [⟨tooLargeName, .tooLarge, none⟩] else dictLoop max (i + 1) (name :: found) items

/-- `DictResolver.get_contents_debug_adapter_protocol` (278-328) -/
def dictContents {V : Type} (max : Int) (d : List (Obj × V)) : List (Row V) :=
  dictLoop max 0 [] d ++ [⟨lenName, .count d.length, none⟩]

/-- `get_child_variable_named` (pydevd_suspended_frames.py 102-106) -/
def child {V : Type} (rows : List (Row V)) (name : Str) : Option (Row V) := rows.find? (fun r => r.name == name)

/-- `"%s (%s)" % (self.key_to_str(key), id(key))` (337) -/
def keyLabel (k : Obj) : Str := k.plain ++ (c!" (" ++ (Py.natStr k.id ++ [')']))

/-- the loop of `DictResolver.get_dictionary` (334-341), as the assignments it makes -/
def dictAssigns {V : Type} (max : Int) (i : Nat) : List (Obj × V) → List (Str × Cell V)
  | [] => []
  | (k, v) :: items =>
    (keyLabel k, .value v) :: if (i : Int) + 1 ≥ max then [(tooLargeName, .tooLarge)] else dictAssigns max (i + 1) items

/-- the result of `resolve`: `None`, the value, or an exception (`IndexError`, `ValueError`, `UnableToResolveVariableException`) -/
inductive Found (V : Type)
  | none
  | value (v : V)
  | error
deriving DecidableEq

/-- `key.split("(")[-1][:-1]` (259) -/
def lastPart (key : Str) : Str := ((Py.split1 '(' key).getLastD []).dropLast

/-- `DictResolver.resolve` (246-265) for names with a parenthesis -/
def dictResolve {V : Type} (d : List (Obj × V)) (key : Str) : Found V :=
  if key = lenName ∨ key = tooLargeName then .none
  else
    match Py.parseInt (lastPart key) with
    | some n => match d.find? (fun e => (e.1.id : Int) == n) with
      | some e => .value e.2
      | none => .error
    | none => .error

/-- the loop of `SetResolver.get_contents_debug_adapter_protocol` (547-552) -/
def setLoop (max : Int) (i : Nat) : List Obj → List (Row Obj)
  | [] => []
  | o :: os =>
    ⟨Py.natStr o.id, .value o, none⟩ :: if (i : Int) ≥ max then [⟨tooLargeName, .tooLarge, none⟩] else setLoop max (i + 1) os

/-- `SetResolver.get_contents_debug_adapter_protocol` (544-559) -/
def setContents (max : Int) (s : List Obj) : List (Row Obj) :=
  setLoop max 0 s ++ [⟨lenName, .count s.length, none⟩]

/-- `SetResolver.resolve` (561-574) for names that are numbers, and the two others -/
def setResolve (s : List Obj) (key : Str) : Found Obj :=
  if key = lenName ∨ key = tooLargeName then .none
  else match Py.parseInt key with
    | some n => match s.find? (fun o => (o.id : Int) == n) with
      | some o => .value o
      | none => .error
    | none => .error

/-- `set.add`: an equal item stays -/
def setAdd (s : List Obj) (o : Obj) : List Obj := if s.any (fun x => x.val == o.val) then s else s ++ [o]

/-- `SetResolver.change_var_from_name` (591-608), for a hashable new value; `none`: no item has this name -/
def changeName (s : List Obj) (name : Str) (new : Obj) : Option (List Obj × Str) :=
  match s.find? (fun o => Py.natStr o.id == name) with
  | some o => some (setAdd (s.filter (fun x => x.val != o.val)) new, Py.natStr new.id)
  | none => none

end Containers
