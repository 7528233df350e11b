/-!
# Stepping into a chosen call

Models, for Python 3.11 and later, `_pydevd_bundle/pydevd_bytecode_utils_py311.py`,
`_convert_target_to_variant` and `get_smart_step_into_variant_from_frame_offset` of
`_pydevd_bundle/pydevd_bytecode_utils.py`, the answer to `stepInTargets` of
`_pydevd_bundle/pydevd_comm.py` and the stops of `CMD_SMART_STEP_INTO` of
`_pydevd_bundle/pydevd_frame.py`.

Simplified: of code only its calls (instructions `CALL` with a position, in the order of the bytecode)
and the code objects it loads matter; the name of a target, the text of the call in the file, is given.
-/
namespace StepInto

/-- `_Pos` (`pydevd_bytecode_utils_py311.py` 8) -/
structure Pos where
  line : Nat
  endLine : Nat
  startCol : Nat
  endCol : Nat
deriving DecidableEq, Repr

/-- A call instruction: the text of the call, its position, its offset. -/
structure Call where
  name : String
  pos : Pos
  offset : Nat
deriving DecidableEq, Repr

/-- A code object: its calls and the code objects among its constants which it loads. -/
inductive Code where
  | mk (calls : List Call) (consts : List Code)

/-- `Target` (`pydevd_bytecode_utils.py`), as made in `pydevd_bytecode_utils_py311.py` 60-61. -/
inductive Target where
  | mk (call : Call) (children : List Target)
deriving Repr

def Target.call : Target → Call
  | .mk c _ => c

def Target.children : Target → List Target
  | .mk _ cs => cs

/-- `_is_inside` (`pydevd_bytecode_utils_py311.py` 11-24) -/
def isInside (item container : Pos) : Bool :=
  if item.line < container.line ∨ item.endLine > container.endLine then false
  else if item.line = container.line ∧ item.startCol < container.startCol then false
  else if item.endLine = container.endLine ∧ item.endCol > container.endCol then false
  else true

/-- The loop over the outer targets (67-71): the first which contains the child gets it. -/
def attach : List Target → Target → List Target
  | [], _ => []
  | .mk c cs :: ts, t => if isInside t.call.pos c.pos then .mk c (cs ++ [t]) :: ts else .mk c cs :: attach ts t

mutual
/-- `_get_smart_step_into_targets` (27-72) -/
def targets : Code → List Target
  | .mk calls consts => (targetsAll consts).foldl attach (calls.map fun c => .mk c [])
/-- The targets of the code objects loaded (39-40, 63-64). -/
def targetsAll : List Code → List Target
  | [] => []
  | c :: cs => targets c ++ targetsAll cs
end

/-- `Variant` (`pydevd_bytecode_utils.py` 793-811) -/
inductive Variant where
  | mk (call : Call) (visited : Bool) (order : Nat) (children : List Variant)
deriving Repr

def Variant.call : Variant → Call
  | .mk c _ _ _ => c

def Variant.visited : Variant → Bool
  | .mk _ v _ _ => v

def Variant.order : Variant → Nat
  | .mk _ _ o _ => o

def Variant.children : Variant → List Variant
  | .mk _ _ _ cs => cs

/-- `call_order_cache` -/
abbrev Cache := String → Nat

def Cache.bump (c : Cache) (n : String) : Cache := fun m => if m = n then c n + 1 else c m

/-- All are there, or it raises: the constructor of `Variant` sets an attribute of each child (808-811),
which for `None` raises. -/
def allSome : List (Option Variant) → Option (List Variant)
  | [] => some []
  | none :: _ => none
  | some v :: r => (allSome r).map (v :: ·)

mutual
/-- `_convert_target_to_variant` (844-876); the outer `none` is an exception, the inner one `None`. -/
def convert (lo hi lasti : Nat) : Target → Cache → Option (Cache × Option Variant)
  | .mk c children, cache =>
    if c.pos.line > hi then some (cache, none)
    else if c.pos.line < lo then some (cache, none)
    else
      let cache1 := cache.bump c.name
      match convertAll lo hi lasti children cache1 with
      | none => none
      | some (cache2, vs) =>
        match allSome vs with
        | none => none
        | some vs => some (cache2, some (.mk c (c.offset ≤ lasti) (cache1 c.name) vs))
/-- The list comprehension over the children (858-860). -/
def convertAll (lo hi lasti : Nat) : List Target → Cache → Option (Cache × List (Option Variant))
  | [], cache => some (cache, [])
  | t :: ts, cache =>
    match convert lo hi lasti t cache with
    | none => none
    | some (cache1, v) =>
      match convertAll lo hi lasti ts cache1 with
      | none => none
      | some (cache2, vs) => some (cache2, v :: vs)
end

/-- `calculate_smart_step_into_variants` (`pydevd_bytecode_utils_py311.py` 75-105) -/
def calculate (code : Code) (lo hi lasti : Nat) : Option (List Variant) :=
  (convertAll lo hi lasti (targets code) (fun _ => 0)).map fun r => r.2.filterMap id

/-- An entry of the answer to `stepInTargets`: the call, its order, and the offset of the call it is in if
it is in another code object. The id of an entry is its place. -/
structure Entry where
  call : Call
  order : Nat
  parent : Option Nat
deriving DecidableEq, Repr

/-- The label (`pydevd_comm.py` 1084-1091, 1098-1105) -/
def Entry.label (e : Entry) : String :=
  if e.order > 1 then e.call.name ++ " (call " ++ toString e.order ++ ")" else e.call.name

/-- The inner loop (1081-1095): it ends when there are fifteen. -/
def offerChildren (parent : Nat) : List Entry → List Variant → List Entry
  | es, [] => es
  | es, v :: vs =>
    let es' := es ++ [⟨v.call, v.order, some parent⟩]
    if es'.length ≥ 15 then es' else offerChildren parent es' vs

/-- The loop over the variants (1078-1110): those visited are left out, of those with children the
children are offered; it ends when there are fifteen, but not after the inner loop. -/
def offer : List Entry → List Variant → List Entry
  | es, [] => es
  | es, v :: vs =>
    if v.visited then offer es vs
    else if v.children ≠ [] then offer (offerChildren v.call.offset es v.children) vs
    else
      let es' := es ++ [⟨v.call, v.order, none⟩]
      if es'.length ≥ 15 then es' else offer es' vs

/-- The request for an entry (`pydevd_process_net_command_json.py` 631-637): the offset of the call in the
frame, and the one in the code in between. -/
def Entry.request (e : Entry) : Nat × Option Nat :=
  match e.parent with
  | some p => (p, some e.call.offset)
  | none => (e.call.offset, none)

/-- `bisect` (`bisect_right` of the standard library) -/
def bisect (a : Nat → Nat) (x lo hi : Nat) : Nat :=
  if lo < hi then
    if x < a ((lo + hi) / 2) then bisect a x lo ((lo + hi) / 2) else bisect a x ((lo + hi) / 2 + 1) hi
  else lo
termination_by hi - lo

/-- `get_smart_step_into_variant_from_frame_offset` (`pydevd_bytecode_utils.py` 917-938): the place of the
variant, since it is compared by identity. -/
def lookup (lasti : Nat) (vs : List Variant) : Option Nat :=
  if vs.isEmpty then none
  else
    let i := bisect (fun k => (vs[k]?.map fun v => v.call.offset).getD 0) lasti 0 vs.length
    if i = 0 then none else some (i - 1)

/-- An event of the thread: a line, or the end of a frame; the frame, the one which called it with the
instruction it is at, and the one before that. Frames are numbers. -/
structure Event where
  isLine : Bool
  frame : Nat
  back : Nat
  backLasti : Nat
  backBack : Nat
deriving DecidableEq, Repr

/-- Whether to stop at an event (`pydevd_frame.py` 900-975), with the frame the step began in, the
variants and the request. If the call which was asked for is in another code object, the instruction of
the frame the step began in is not looked at. -/
def stops (stopFrame : Nat) (vs : List Variant) (req : Nat × Option Nat) (e : Event) : Bool :=
  if stopFrame = e.frame ∧ !e.isLine then true
  else if stopFrame = e.back ∧ e.isLine then
    match req.2 with
    | some _ => false
    | none => !vs.isEmpty && decide (lookup e.backLasti vs = lookup req.1 vs)
  else if stopFrame = e.backBack ∧ e.isLine then
    match req.2 with
    | none => false
    | some c =>
      if vs.isEmpty then false
      else
        match lookup req.1 vs with
        | none => false
        | some i =>
          let cs := (vs[i]?.map Variant.children).getD []
          !cs.isEmpty && decide (lookup e.backLasti cs = lookup c cs)
  else false

end StepInto
