import Verif.Common.Str
/-!
Model of how the children of a variable are grouped and ordered.

Source: `/repo/_pydevd_bundle/pydevd_suspended_frames.py` `_AbstractVariable._group_entries` (109-150),
`_ObjectVariable.get_children_variables` (165-200), `_FrameVariable.get_children_variables` (265-315);
`/repo/_pydevd_bundle/pydevd_resolver.py` `get_var_scope` (796-830), `sorted_attributes_key` (45-58);
`/repo/_pydevd_bundle/pydevd_utils.py` `DAPGrouper` (327-347);
`/repo/_pydevd_bundle/pydevd_api.py` `VariablePresentation` (99-110).

Simplifications: values are numbers, and what `inspect.isroutine/isclass` say about a value is stored in
the entry (an exception in them counts as "neither", as in the code); evaluate names are opaque and carried
along; the value of the return-values dict is its list of items.
-/

namespace Grouping

/-- What `inspect` says about a value (818-828). -/
inductive Kind where
  | routine
  | cls
  | plain
deriving DecidableEq, Repr

structure Entry where
  name : List Char
  value : Nat
  kind : Kind := .plain
  /-- the items of the value, used only for the return-values dict -/
  items : List (List Char × Nat) := []
deriving DecidableEq, Repr

/-- The non-empty scopes (`pydevd_utils.py` 333-336). -/
inductive Scope where
  | special
  | prot
  | function
  | cls
deriving DecidableEq, Repr

/-- `DAPGrouper.SCOPES_SORTED` (338-343). -/
def scopesSorted : List Scope := [.special, .prot, .function, .cls]

inductive Presentation where
  | inline
  | group
  | hide
deriving DecidableEq, Repr

/-- `pydevd_constants.py` 89, 90 -/
def returnValuesDict : List Char := c!"__pydevd_ret_val_dict"
def generatedLen : List Char := c!"len()"

/-- The name used for classification (797-805); `none` is the early `return ""`. -/
def effectiveName (name : List Char) : Option (List Char) :=
  if Py.startsWith name c!"'" then
    if Py.endsWith name c!"'" then none
    else
      match Py.find c!"__' (" name with
      | some i => some ((name.drop 1).take (i + 1))       -- `attr_name[1 : i + 2]`
      | none => some name
  else some name

/-- `get_var_scope` (796-830); `none` is the empty string. -/
def getVarScope (e : Entry) (handleReturnValues : Bool) : Option Scope :=
  match effectiveName e.name with
  | none => none
  | some name =>
    if handleReturnValues && name == returnValuesDict then none
    else if name = generatedLen then none
    else if Py.startsWith name c!"__" && Py.endsWith name c!"__" then some .special
    else if Py.startsWith name c!"_" || Py.endsWith name c!"__" then some .prot
    else match e.kind with
      | .routine => some .function
      | .cls => some .cls
      | .plain => none

/-- The loop of `_group_entries` (120-143): the inline entries so far and `scope_to_grouper`. -/
def groupLoop (pres : Scope → Presentation) (hrv : Bool) :
    List Entry → List Entry → (Scope → Option (List Entry)) → List Entry × (Scope → Option (List Entry))
  | [], newLst, groupers => (newLst, groupers)
  | e :: rest, newLst, groupers =>
    match getVarScope e hrv with
    | some scope =>
      match pres scope with
      | .hide => groupLoop pres hrv rest newLst groupers
      | .inline => groupLoop pres hrv rest (newLst ++ [e]) groupers
      | .group =>
        groupLoop pres hrv rest newLst
          (fun s => if s = scope then some ((groupers scope).getD [] ++ [e]) else groupers s)
    | none => groupLoop pres hrv rest (newLst ++ [e]) groupers

/-- `_group_entries` (109-150). `isGrouper`: the variable itself is one of the groups. -/
def groupEntries (isGrouper : Bool) (pres : Scope → Presentation) (hrv : Bool) (lst : List Entry) :
    List Entry × List (Scope × List Entry) :=
  if isGrouper then (lst, [])
  else
    let (newLst, groupers) := groupLoop pres hrv lst [] (fun _ => none)
    (newLst, scopesSorted.filterMap (fun s => (groupers s).map (fun es => (s, es))))

/-- A child as the client sees it. -/
inductive Child where
  | group (s : Scope) (contents : List Entry)
  | item (e : Entry)
  /-- an entry of the return-values dict -/
  | ret (name : List Char) (value : Nat)
deriving DecidableEq, Repr

/-- `_ObjectVariable.get_children_variables` (165-200), after the resolver produced `lst`. -/
def objectChildren (isGrouper : Bool) (pres : Scope → Presentation) (lst : List Entry) : List Child :=
  let (newLst, groups) := groupEntries isGrouper pres false lst
  groups.map (fun g => .group g.1 g.2) ++ newLst.map .item

/-- `sorted_attributes_key` (45-58). -/
def sortKey (name : List Char) : Nat × List Char :=
  if Py.startsWith name c!"__" then
    if Py.endsWith name c!"__" then (3, name) else (2, name)
  else if Py.startsWith name c!"_" then (1, name)
  else (0, name)

/-- Tuple comparison of two sort keys. -/
def keyLe (a b : Nat × List Char) : Bool := a.1 < b.1 || (a.1 == b.1 && Py.strLe a.2 b.2)

def childName : Child → List Char
  | .group _ _ => []
  | .item e => e.name
  | .ret n _ => n

/-- `"_pydev_stop_at_break"` (281) -/
def stopAtBreak : List Char := c!"_pydev_stop_at_break"

/-- Expansion of one entry of the frame (293-309). -/
def expand (e : Entry) : List Child :=
  if e.name = returnValuesDict then e.items.map (fun i => .ret i.1 i.2) else [.item e]

/-- `_FrameVariable.get_children_variables` (265-315) over the items of the locals or globals dict.
Python's `sort` is stable, and so is `mergeSort`. -/
def frameChildren (pres : Scope → Presentation) (dct : List Entry) : List Child :=
  let (newLst, groups) := groupEntries false pres true (dct.filter (fun e => e.name != stopAtBreak))
  let groups := groups.map (fun g => Child.group g.1 (g.2.mergeSort (fun a b => keyLe (sortKey a.name) (sortKey b.name))))
  let children := (newLst.flatMap expand).mergeSort (fun a b => keyLe (sortKey (childName a)) (sortKey (childName b)))
  groups ++ children

end Grouping
