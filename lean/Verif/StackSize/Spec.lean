import Verif.StackSize.Model
/-!
Specification of stack depths: how many values are on the stack while a piece of code is run, by the interpreter's own account of its
instructions (`dis.stack_effect`).
-/

namespace StackSize

open Bytecode (Lab Arg Instr Item)

/-- A frame: the position in the code (`none` when the code was left), the number of values on the stack, and the blocks set up: where
an exception (or `break`, or `return` through a `finally`) goes, and the number of values that are then on the stack. -/
structure Config where
  pc : Option Nat
  depth : Int
  blocks : List (Lab × Int)
deriving DecidableEq

/-- `SETUP_FINALLY`, `SETUP_WITH`, ...: do not jump, but say where to go later -/
def Setup (i : Instr) : Prop := c!"SETUP_" <+: i.name.toList

/-- jumps in any case -/
def Away (i : Instr) : Bool := i.name ∈ ["JUMP_FORWARD", "JUMP_ABSOLUTE"]

/-- the instruction behind it is not the next one to run -/
def Leaves (i : Instr) : Bool :=
  i.name ∈ ["RETURN_VALUE", "RAISE_VARARGS", "RERAISE", "BREAK_LOOP", "CONTINUE_LOOP", "JUMP_FORWARD", "JUMP_ABSOLUTE"]

/-- What may happen next. Both outcomes of a condition are possible, and everything may raise. -/
inductive Step (eff : Eff) (prog : List Item) : Config → Config → Prop
  | label {p l d bs} (h : prog[p]? = some (.label l)) : Step eff prog ⟨some p, d, bs⟩ ⟨some (p + 1), d, bs⟩
  | next {p i d bs} (h : prog[p]? = some (.instr i)) (hf : Leaves i = false) :
      Step eff prog ⟨some p, d, bs⟩ ⟨some (p + 1), d + eff i.name i.arg false, bs⟩
  | jump {p i d bs l q} (h : prog[p]? = some (.instr i)) (hl : i.arg = .lab l) (hs : ¬ Setup i) (hq : prog[q]? = some (.label l)) :
      Step eff prog ⟨some p, d, bs⟩ ⟨some q, d + eff i.name i.arg true, bs⟩
  | setup {p i d bs l} (h : prog[p]? = some (.instr i)) (hl : i.arg = .lab l) (hs : Setup i) :
      Step eff prog ⟨some p, d, bs⟩ ⟨some (p + 1), d + eff i.name i.arg false, (l, d + eff i.name i.arg true) :: bs⟩
  | unwind {p d inner l e outer q} (hq : prog[q]? = some (.label l)) :
      Step eff prog ⟨some p, d, inner ++ (l, e) :: outer⟩ ⟨some q, e, outer⟩
  | popBlock {p d b bs} : Step eff prog ⟨some p, d, b :: bs⟩ ⟨some p, d, bs⟩
  | leave {p i d bs} (h : prog[p]? = some (.instr i)) (hf : Leaves i = true) (hu : Away i = false) :
      Step eff prog ⟨some p, d, bs⟩ ⟨none, d + eff i.name i.arg false, bs⟩

/-- The frames a run can come to. -/
inductive Reach (eff : Eff) (prog : List Item) (initial : Int) : Config → Prop
  | start : Reach eff prog initial ⟨some 0, initial, []⟩
  | step {c c'} (h : Reach eff prog initial c) (hs : Step eff prog c c') : Reach eff prog initial c'

/-- A depth does not exceed the one of a place (`none`: the place is not reached). -/
def Within : Option Int → Option Int → Prop
  | none, _ => True
  | some _, none => False
  | some a, some b => a ≤ b

/-- Going through the code from one end to the other, with a depth given for each label: no way to a label arrives with more values
than that. (What a compiler makes is of this kind: in particular no loop leaves more on the stack than it found.) -/
def Balanced (eff : Eff) (D : Lab → Option Int) : Option Int → List Item → Prop
  | _, [] => True
  | d, .label l :: rest => Within d (D l) ∧ Balanced eff D (D l) rest
  | none, .instr _ :: rest => Balanced eff D none rest
  | some d, .instr i :: rest =>
    (∀ l, i.arg = .lab l → Within (some (d + eff i.name i.arg true)) (D l)) ∧
      Balanced eff D (if Leaves i then none else some (d + eff i.name i.arg false)) rest

/-- The labels of the code, in order. -/
def labelsOf (items : List Item) : List Lab := items.filterMap fun x => match x with | .label l => some l | .instr _ => none

/-- What is assumed of the interpreter's table: `DUP_TOP` and `DUP_TOP_TWO` take nothing away, `UNPACK_SEQUENCE` and `UNPACK_EX` take
away one value at most, reordering changes no number, a loop that goes on pushes the next value. -/
structure Sane (eff : Eff) : Prop where
  dup : ∀ n a j, begins n c!"DUP_TOP" = true → 0 ≤ eff n a j
  unpack : ∀ n a j, begins n c!"UNPACK_" = true → -1 ≤ eff n a j
  forIter : ∀ a, eff "FOR_ITER" a false = 1
  rotN : ∀ a j, eff "ROT_N" a j = 0
  rotTwo : ∀ a j, eff "ROT_TWO" a j = 0
  rotThree : ∀ a j, eff "ROT_THREE" a j = 0
  rotFour : ∀ a j, eff "ROT_FOUR" a j = 0

/-- What the interpreter's table says of the instructions the debugger puts into code. -/
structure Table (eff : Eff) : Prop where
  loadConst : ∀ c, eff "LOAD_CONST" (.const c) false = 1
  call : eff "CALL_FUNCTION" (.num 1) false = -1
  popJump : ∀ a j, eff "POP_JUMP_IF_FALSE" a j = -1
  popTop : eff "POP_TOP" .unset false = -1
  nop : eff "NOP" .unset false = 0

end StackSize
