import Verif.Common.Str
import Verif.Common.Dict
import Verif.Common.Lit
import Verif.Bytecode.Model
/-!
Model of how the stack size of a code object with breakpoints put into it is computed.

Source: `/repo/_pydevd_frame_eval/vendored/bytecode/bytecode.py` `Bytecode.compute_stacksize` (192-194), `to_code` (196-202);
`/repo/_pydevd_frame_eval/vendored/bytecode/cfg.py` `_compute_stack_size` (88-164), `ControlFlowGraph.compute_stacksize`
(201-250), `from_bytecode` (342-397);
`/repo/_pydevd_frame_eval/vendored/bytecode/instr.py` `_pushes_back` (35-67), `pre_and_post_stack_effect` (300-327), `has_jump`
(349-353), `is_uncond_jump` (360-362), `is_final` (364-375).

The table of the interpreter, `dis.stack_effect`, is a parameter: `eff name arg jump`. `SetLineno` is left out, as in
`Verif.Bytecode.Model`. `check_pre_and_post` (cfg.py 201) keeps its default. `if block.next_block` (159) also is false for an empty block:
only the last block can be empty, and going to it changes nothing. A label is at one place of the code. Errors (`none`) make the insertion of breakpoints fail.
-/

namespace StackSize

open Bytecode (Lab Arg Instr Item)

/-- `dis.stack_effect(opcode, arg, jump=...)` as called by `Instr.stack_effect` (instr.py 280-298) -/
abbrev Eff := String → Arg → Bool → Int

/-- `has_jump` (instr.py 349-353): instructions that jump are the ones whose argument is a label (181-183) -/
def target? (i : Instr) : Option Lab :=
  match i.arg with
  | .lab l => some l
  | _ => none

/-- `is_uncond_jump` (instr.py 360-362) -/
def isUncond (i : Instr) : Bool := i.name == "JUMP_FORWARD" || i.name == "JUMP_ABSOLUTE"

/-- `is_final` (instr.py 364-375) -/
def isFinal (i : Instr) : Bool :=
  ["RETURN_VALUE", "RAISE_VARARGS", "RERAISE", "BREAK_LOOP", "CONTINUE_LOOP"].contains i.name || isUncond i

/-- `opname.startswith(prefix)` -/
def begins (name : String) (p : List Char) : Bool := Py.startsWith name.toList p

/-- `_pushes_back` (instr.py 35-67) -/
def pushesBack (name : String) : Bool :=
  if name == "CALL_FINALLY" then false
  else begins name c!"UNARY_" || begins name c!"GET_" || begins name c!"BINARY_" || begins name c!"INPLACE_" ||
    begins name c!"BUILD_" || begins name c!"CALL_" ||
    ["LIST_TO_TUPLE", "LIST_EXTEND", "SET_UPDATE", "DICT_UPDATE", "DICT_MERGE", "IS_OP", "CONTAINS_OP", "FORMAT_VALUE",
      "MAKE_FUNCTION", "IMPORT_NAME", "SET_ADD", "LIST_APPEND", "MAP_ADD", "LOAD_ATTR"].contains name

/-- the number that is the argument of `ROT_N` (instr.py 325-326) -/
def argNum : Arg → Int
  | .num n => n
  | _ => 0

/-- `pre_and_post_stack_effect` (instr.py 300-327) -/
def prePost (eff : Eff) (i : Instr) (jump : Bool) : Int × Int :=
  let e := eff i.name i.arg jump
  if begins i.name c!"DUP_TOP" then (e * -1, e * 2)
  else if pushesBack i.name then (e - 1, 1)
  else if begins i.name c!"UNPACK_" then (-1, e + 1)
  else if i.name == "FOR_ITER" && !jump then (-1, 2)
  else if i.name == "ROT_N" then (-argNum i.arg, argNum i.arg)
  else if i.name == "ROT_TWO" then (-2, 2)
  else if i.name == "ROT_THREE" then (-3, 3)
  else if i.name == "ROT_FOUR" then (-4, 4)
  else (e, 0)

/-! ### The control flow graph -/

/-- `BasicBlock` (cfg.py 11-17) -/
structure Block where
  instrs : List Instr
  /-- `next_block`, by its index -/
  next : Option Nat
deriving DecidableEq, Repr

/-- What the loop of `from_bytecode` (cfg.py 361-392) carries: the blocks before the last one, the instructions of the last one,
`labels`, and whether it is at index 0 -/
structure Build where
  done : List Block := []
  cur : List Instr := []
  labels : List (Lab × Nat) := []
  first : Bool := true

/-- a new block after the last one, which `next_block` may lead to -/
def Build.close (s : Build) (linked : Bool) : Build :=
  { s with done := s.done ++ [⟨s.cur, if linked then some (s.done.length + 1) else none⟩], cur := [] }

/-- labels that instructions jump to (cfg.py 344-356) -/
def used (items : List Item) (l : Lab) : Bool :=
  items.any fun x => match x with | .instr i => target? i == some l | .label _ => false

/-- where no label that is jumped to is: a block that ends with a jump, or where the code leaves, is closed (cfg.py 378-384) -/
def Build.settle (s : Build) : Build :=
  match s.cur.getLast? with
  | none => s
  | some j => if isFinal j then s.close false else if (target? j).isSome then s.close true else s

/-- one round of the loop (cfg.py 365-392); `block[-1]` of an empty block raises (371) -/
def Build.item (isUsed : Lab → Bool) (s : Build) : Item → Option Build
  | .label l =>
    if isUsed l then
      if s.first then some { s with labels := Py.Dict.set s.labels l s.done.length, first := false }
      else
        match s.cur.getLast? with
        | none => none
        | some j =>
          let t := s.close (!isFinal j)
          some { t with labels := Py.Dict.set t.labels l t.done.length }
    else some { s.settle with first := false }
  | .instr i =>
    let t := s.settle
    some { t with cur := t.cur ++ [i], first := false }

def buildLoop (isUsed : Lab → Bool) : Build → List Item → Option Build
  | s, [] => some s
  | s, x :: rest =>
    match s.item isUsed x with
    | none => none
    | some t => buildLoop isUsed t rest

/-- a label that is jumped to and is not in the code raises (cfg.py 354-356) -/
def missing (items : List Item) : Bool :=
  items.any fun x =>
    match x with
    | .instr i => match target? i with | some l => !items.contains (.label l) | none => false
    | .label _ => false

/-- `ControlFlowGraph` -/
structure Cfg where
  blocks : List Block
  labels : List (Lab × Nat)

/-- `from_bytecode` (cfg.py 342-397) -/
def fromBytecode (items : List Item) : Option Cfg :=
  if missing items then none
  else (buildLoop (used items) {} items).map fun s => ⟨s.done ++ [⟨s.cur, none⟩], s.labels⟩

/-! ### The computation -/

/-- `block.startsize` of all blocks, and `maxsize` -/
structure Sizes where
  start : Nat → Int
  max : Int

/-- `update_size` (cfg.py 117-124) -/
def Sizes.update (s : Sizes) (e : Int × Int) (size : Int) : Option (Int × Sizes) :=
  if size + e.1 < 0 then none
  else some (size + e.1 + e.2, { s with max := if s.max < size + e.1 + e.2 then size + e.1 + e.2 else s.max })

/-- the loop over the instructions of a block (cfg.py 131-157): the size after them, or `none` after an unconditional jump. `visit`
is what the other generator does for the block that is jumped to. -/
def scan (eff : Eff) (labels : List (Lab × Nat)) (visit : Nat → Int → Sizes → Option Sizes) :
    List Instr → Int → Sizes → Option (Option Int × Sizes)
  | [], size, s => some (some size, s)
  | i :: rest, size, s =>
    match target? i with
    | none =>
      match s.update (prePost eff i false) size with
      | none => none
      | some (size, s) => scan eff labels visit rest size s
    | some l =>
      match s.update (prePost eff i true) size, Py.Dict.get labels l with
      | some (taken, s), some b =>
        match visit b taken s with
        | none => none
        | some s =>
          if isUncond i then some (none, s)
          else
            match s.update (prePost eff i false) size with
            | none => none
            | some (size, s) => scan eff labels visit rest size s
      | _, _ => none

/-- `_compute_stack_size` (cfg.py 88-164) for a block entered with a size. A generator that gives `maxsize` is not resumed, and the one
which waits for it goes on (235-245): this is recursion. The blocks with `seen` set are the ones under way. The first argument bounds
the depth of the recursion: there are no more blocks than that under way. -/
def visit (eff : Eff) (g : Cfg) : Nat → List Nat → Nat → Int → Sizes → Option Sizes
  | 0, _, _, _, _ => none
  | fuel + 1, seen, b, size, s =>
    if seen.contains b || decide (s.start b ≥ size) then some s
    else
      match g.blocks[b]? with
      | none => none
      | some blk =>
        match scan eff g.labels (visit eff g fuel (b :: seen)) blk.instrs size { s with start := fun c => if c = b then size else s.start c } with
        | none => none
        | some (none, s) => some s
        | some (some size, s) =>
          match blk.next with
          | none => some s
          | some n => visit eff g fuel (b :: seen) n size s

/-- `compute_stacksize` (cfg.py 201-250, bytecode.py 192-194); `initial` is `initial_stack_size` (218-219) -/
def stackSize (eff : Eff) (initial : Int) (items : List Item) : Option Int :=
  match fromBytecode items with
  | none => none
  | some g => (visit eff g (g.blocks.length + 1) [] 0 initial ⟨fun _ => -32768, 0⟩).map (·.max)

/-- `initial_stack_size` (cfg.py 216-219) -/
def initialSize (py310 generator : Bool) : Int := if py310 && generator then 1 else 0

end StackSize
