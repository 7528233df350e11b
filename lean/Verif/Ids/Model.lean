import Verif.Common.Dict
import Verif.Common.Lit
/-!
Model of the ids exchanged with the client.

Source: `/repo/_pydevd_bundle/_debug_adapter/pydevd_base_schema.py` `initialize_ids_translation`,
`_translate_id_to_dap`, `_translate_id_from_dap` (8-36); `/repo/_pydevd_bundle/pydevd_process_net_command_json.py`
`IDMap` (122-138), `on_gototargets_request`, `on_goto_request` (1223-1251), `on_stepin_request` (608-660);
`/repo/_pydevd_bundle/pydevd_comm.py` `internal_get_step_in_targets_json` (1056-1125).

The translation of ids has no lock and is used by all the threads that build messages: it is modelled in small steps.
Goto targets are only used by the reader thread.
-/

namespace Ids

/-- An id: the value for "all", `None`, a number or another string. -/
inductive Id where
  | star
  | none
  | num (n : Nat)
  | str (s : List Char)
deriving DecidableEq, Repr

/-! ### Translation -/

/-- Where a thread is in `_translate_id_to_dap`. -/
inductive Pc where
  | idle
  /-- after 24: no client id found -/
  | miss (o : Id)
  /-- after the call of `_next_dap_id` in 25 -/
  | have (o : Id) (k : Nat)
  /-- after the assignment to `_obj_id_to_dap_id` in 25 -/
  | half (o : Id) (k : Nat)
deriving DecidableEq, Repr

structure State where
  /-- `_obj_id_to_dap_id` -/
  toDap : List (Id × Id) := [(.num 0, .num 0), (.none, .none)]
  /-- `_dap_id_to_obj_id` -/
  toObj : List (Id × Id) := [(.num 0, .num 0), (.none, .none)]
  /-- `_next_dap_id` -/
  next : Nat := 1
  pcs : Nat → Pc := fun _ => .idle
  /-- results: (internal id, id given to the client) -/
  sent : List (Id × Id) := []

inductive Action where
  /-- 19-24 -/
  | start (t : Nat) (o : Id)
  /-- 25, right-hand side (atomic) -/
  | alloc (t : Nat)
  /-- 25, assignment -/
  | setDap (t : Nat)
  /-- 26-27 -/
  | setObj (t : Nat)

def setPc (s : State) (t : Nat) (p : Pc) : State := { s with pcs := fun u => if u = t then p else s.pcs u }

/-- `_translate_id_to_dap` (17-27), one step of one thread. -/
def step (s : State) : Action → State
  | .start t o =>
    match s.pcs t with
    | .idle =>
      if o = .star then { s with sent := (.star, .star) :: s.sent }
      else match (Py.Dict.get s.toDap o).getD .none with
        | .none => setPc s t (.miss o)
        | d => { s with sent := (o, d) :: s.sent }
    | _ => s
  | .alloc t =>
    match s.pcs t with
    | .miss o => setPc { s with next := s.next + 1 } t (.have o s.next)
    | _ => s
  | .setDap t =>
    match s.pcs t with
    | .have o k => setPc { s with toDap := Py.Dict.set s.toDap o (.num k) } t (.half o k)
    | _ => s
  | .setObj t =>
    match s.pcs t with
    | .half o k => setPc { s with toObj := Py.Dict.set s.toObj (.num k) o, sent := (o, .num k) :: s.sent } t .idle
    | _ => s

def run (s : State) (as : List Action) : State := as.foldl step s

/-- `_translate_id_from_dap` (29-36); `none`: `KeyError` -/
def fromDap (s : State) (d : Id) : Option Id := if d = .star then some .star else Py.Dict.get s.toObj d

/-- `_translate_id_to_dap` of one thread without interruption -/
def translate (s : State) (o : Id) : State := run s [.start 0 o, .alloc 0, .setDap 0, .setObj 0]

/-! ### Goto targets -/

structure IDMap (ν : Type) where
  valueToKey : List (ν × Nat) := []
  keyToValue : List (Nat × ν) := []
  next : Nat := 0

variable {ν : Type} [DecidableEq ν]

/-- `obtain_key` (131-138) -/
def obtainKey (m : IDMap ν) (v : ν) : Nat × IDMap ν :=
  match Py.Dict.get m.valueToKey v with
  | some k => (k, m)
  | none => (m.next, { valueToKey := Py.Dict.set m.valueToKey v m.next, keyToValue := Py.Dict.set m.keyToValue m.next v, next := m.next + 1 })

/-- `obtain_value` (128-129); `none`: `KeyError`, "Unknown goto target id" (1236-1247) -/
def obtainValue (m : IDMap ν) (k : Nat) : Option ν := Py.Dict.get m.keyToValue k

/-- the goto targets requested, in order -/
def requestAll (m : IDMap ν) : List ν → List (ν × Nat) × IDMap ν
  | [] => ([], m)
  | v :: vs => let (k, m') := obtainKey m v
               let (r, m'') := requestAll m' vs
               ((v, k) :: r, m'')

/-! ### Step-in targets -/

/-- `Variant`: a call that can be stepped into (`pydevd_bytecode_utils`), without its children. -/
structure Call where
  name : List Char
  offset : Nat
  callOrder : Nat := 1
deriving DecidableEq, Repr

structure Variant where
  call : Call
  visited : Bool := false
  children : List Call := []
deriving DecidableEq, Repr

/-- what an id stands for: the call and its parent -/
structure Target where
  call : Call
  parent : Option Call
deriving DecidableEq, Repr

/-- the loop over the children (1080-1096): stops after an insertion that makes at least 15 -/
def addChildren (parent : Call) : List Call → List (Nat × Target) → List (Nat × Target)
  | [], acc => acc
  | c :: cs, acc =>
    let acc := acc ++ [(acc.length, ⟨c, some parent⟩)]
    if acc.length ≥ 15 then acc else addChildren parent cs acc

/-- `internal_get_step_in_targets_json` (1074-1110): the ids and what they stand for. The `break` after the 15th
target of a variant with children leaves the inner loop only. -/
def stepTargets : List Variant → List (Nat × Target) → List (Nat × Target)
  | [], acc => acc
  | v :: vs, acc =>
    if v.visited then stepTargets vs acc
    else if v.children ≠ [] then stepTargets vs (addChildren v.call v.children acc)
    else
      let acc := acc ++ [(acc.length, ⟨v.call, none⟩)]
      if acc.length ≥ 15 then acc else stepTargets vs acc

/-- the arguments of the step (`on_stepin_request` 631-637): offset and child offset; `none`: refused -/
def stepInto (targets : List (Nat × Target)) (id : Nat) : Option (Nat × Option Nat) :=
  match Py.Dict.get targets id with
  | some t => match t.parent with
    | some p => some (p.offset, some t.call.offset)
    | none => some (t.call.offset, none)
  | none => none

end Ids
