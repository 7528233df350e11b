/-!
Model of the assembler the debugger uses for the code it has put breakpoints
into: from a list of labels and instructions to bytes and a table of lines.

Models /repo/_pydevd_frame_eval/vendored/bytecode/concrete.py.
-/
namespace Assemble

/-! ### Lines -/

/-- A pair of bytes of a table of lines: an unsigned and a signed one, as packed by
`struct.pack("Bb", ...)`. -/
abbrev Entry := Nat × Int

/-- Lines 258-260 of `_assemble_lnotab`: the pairs for long distances, and what is
left of the distance. -/
def lnotabSkip (doff : Nat) : List Entry × Nat :=
  if doff > 255 then ((255, 0) :: (lnotabSkip (doff - 255)).1, (lnotabSkip (doff - 255)).2)
  else ([], doff)
termination_by doff
decreasing_by all_goals omega

/-- Lines 262-265: big steps back. -/
def lnotabBack (doff : Nat) (dline : Int) : List Entry × Nat × Int :=
  if dline < -128 then
    ((doff, -128) :: (lnotabBack 0 (dline + 128)).1, (lnotabBack 0 (dline + 128)).2)
  else ([], doff, dline)
termination_by (-128 - dline).toNat
decreasing_by all_goals omega

/-- Lines 267-270: big steps forward. -/
def lnotabForth (doff : Nat) (dline : Int) : List Entry × Nat × Int :=
  if dline > 127 then
    ((doff, 127) :: (lnotabForth 0 (dline - 127)).1, (lnotabForth 0 (dline - 127)).2)
  else ([], doff, dline)
termination_by (dline - 127).toNat
decreasing_by all_goals omega

/-- Lines 255-275: the pairs for one change of line, `doff` bytes after the last. -/
def lnotabEntries (doff : Nat) (dline : Int) : List Entry :=
  let s := lnotabSkip doff
  let b := lnotabBack s.2 dline
  let f := lnotabForth b.2.1 b.2.2
  s.1 ++ b.1 ++ f.1 ++ [(f.2.1, f.2.2)]

/-- The loop of `_assemble_lnotab` (concrete.py 241-277), for Python before 3.10, over
the offset and the line of each instruction. -/
def assembleLnotab : Nat → Int → List (Nat × Int) → List Entry
  | _, _, [] => []
  | oldOffset, oldLine, (offset, line) :: rest =>
    if line - oldLine = 0 then assembleLnotab oldOffset oldLine rest
    else lnotabEntries (offset - oldOffset) (line - oldLine) ++ assembleLnotab offset line rest

/-- Lines 281-287 of `_pack_linetable`: big steps. -/
def linetableSteps (dline : Int) : List Entry × Int :=
  if dline < -127 then ((0, -127) :: (linetableSteps (dline + 127)).1, (linetableSteps (dline + 127)).2)
  else if dline > 127 then ((0, 127) :: (linetableSteps (dline - 127)).1, (linetableSteps (dline - 127)).2)
  else ([], dline)
termination_by dline.natAbs
decreasing_by all_goals omega

/-- Lines 293-296: the rest of a long distance. -/
def linetableRest (doff : Nat) : List Entry :=
  if doff > 254 then (254, 0) :: linetableRest (doff - 254) else [(doff, 0)]
termination_by doff
decreasing_by omega

/-- `_pack_linetable` (concrete.py 279-302). -/
def packLinetable (doff : Nat) (dline : Int) : List Entry :=
  let s := linetableSteps dline
  if doff > 254 then s.1 ++ (254, s.2) :: linetableRest (doff - 254)
  else s.1 ++ [(doff, s.2)]

/-- The loop of `_assemble_linestable` (concrete.py 315-329), for Python 3.10, over the
offset, the size and the line of each instruction; `lastEnd` is `offset + i_size` of
the last one met. -/
def linestableLoop : Nat → Int → Int → Nat → List (Nat × Nat × Int) → List Entry
  | oldOffset, _, oldDline, lastEnd, [] => packLinetable (lastEnd - oldOffset) oldDline
  | oldOffset, oldLine, oldDline, _, (offset, size, line) :: rest =>
    if line - oldLine = 0 then linestableLoop oldOffset oldLine oldDline (offset + size) rest
    else packLinetable (offset - oldOffset) oldDline ++
      linestableLoop offset line (line - oldLine) (offset + size) rest

/-- `_assemble_linestable` (concrete.py 304-331). -/
def assembleLinestable (first : Int) : List (Nat × Nat × Int) → List Entry
  | [] => []
  | (offset, size, line) :: rest => linestableLoop 0 line (line - first) (offset + size) rest

/-! ### Instructions -/

/-- `opcode.EXTENDED_ARG`. -/
def extendedArg : Nat := 144

/-- The argument of an instruction: none, a number, or a label, for a relative or
an absolute jump (instr.py 182-205; concrete.py 578-602). -/
inductive Arg where
  | unset
  | num (n : Nat)
  | jump (relative : Bool) (label : Nat)
  deriving DecidableEq, Repr

/-- An element of `Bytecode`: a label, or an instruction with its line.  The constants,
names and variables of the code have already been turned into indices
(concrete.py 584-598), and an instruction without a line has got the one of the
instruction before it (concrete.py 576, 217-227). -/
inductive Item where
  | label (n : Nat)
  | instr (op : Nat) (arg : Arg) (line : Int)
  deriving DecidableEq, Repr

/-- `self.instructions` (concrete.py 604). -/
def instrs : List Item → List (Nat × Arg × Int)
  | [] => []
  | .label _ :: rest => instrs rest
  | .instr op arg line :: rest => (op, arg, line) :: instrs rest

/-- `self.labels` (concrete.py 562-564): how many instructions are before the label; a
later assignment replaces an earlier one.  `i` counts the instructions. -/
def labelIndex (l : Nat) : Nat → Option Nat → List Item → Option Nat
  | _, found, [] => found
  | i, found, .label l' :: rest => labelIndex l i (if l' = l then some i else found) rest
  | i, found, .instr _ _ _ :: rest => labelIndex l (i + 1) found rest

/-- How many pairs of bytes an argument takes.  Models `_set` (concrete.py 66-70), where
`size` is twice that.  `_extended_args` is not set in the instructions made here
(600). -/
def units (arg : Nat) : Nat := if arg > 0xFF then units (arg / 256) + 1 else 1
termination_by arg
decreasing_by omega

/-- The arguments of the instructions as they are now; `0` for an instruction
without one, which takes one pair of bytes too. -/
abbrev Args := List Nat

/-- The argument an instruction starts with (concrete.py 579-583). -/
def initialArg : Arg → Nat
  | .unset => 0
  | .num n => n
  | .jump _ _ => 0

/-- What an offset counts: pairs of bytes from 3.10 on, bytes before
(`OFFSET_AS_INSTRUCTION`, concrete.py 22-25). -/
def scale (py310 : Bool) : Nat := if py310 then 1 else 2

/-- `offsets` (concrete.py 607-613): where each instruction begins, and the end. -/
def offsets (py310 : Bool) : Nat → Args → List Nat
  | off, [] => [off]
  | off, a :: rest => off :: offsets py310 (off + scale py310 * units a) rest

/-- The new argument of one instruction in a pass of `compute_jumps` (concrete.py
617-627); `none` for a label that is not in the code (a `KeyError`) or an argument
that is out of range (instr.py 124-129). -/
def newArg (py310 : Bool) (items : List Item) (offs : List Nat) (index old : Nat) : Arg → Option Nat
  | .unset => some old
  | .num _ => some old
  | .jump relative l => do
    let target ← labelIndex l 0 none items
    let toff ← offs[target]?
    if relative then
      let ioff ← offs[index]?
      if ioff + scale py310 * units old ≤ toff ∧ toff - (ioff + scale py310 * units old) ≤ 2147483647 then
        some (toff - (ioff + scale py310 * units old))
      else none
    else if toff ≤ 2147483647 then some toff else none

/-- The new arguments in a pass of `compute_jumps`, from the `i`-th instruction on. -/
def newArgs (py310 : Bool) (items : List Item) (offs : List Nat) :
    Nat → List (Nat × Arg × Int) → Args → Option Args
  | i, (_, arg, _) :: is, old :: olds => do
    let a ← newArg py310 items offs i old arg
    let as ← newArgs py310 items offs (i + 1) is olds
    pure (a :: as)
  | _, _, _ => some []

/-- The loop of `to_concrete_bytecode` (concrete.py 644-649) with `passes` passes left:
it ends when a pass has changed no size (628-631), and fails if none did. -/
def computeJumps (py310 : Bool) (items : List Item) : Nat → Args → Option Args
  | 0, _ => none
  | passes + 1, args => do
    let args' ← newArgs py310 items (offsets py310 0 args) 0 (instrs items) args
    if args'.map units = args.map units then pure args'
    else computeJumps py310 items passes args'

/-- The prefixes in `assemble` (concrete.py 96-98): the loop puts them in front, so the
last one made comes first. -/
def prefixes (arg : Nat) (acc : List (Nat × Nat)) : List (Nat × Nat) :=
  if arg > 0xFF then prefixes (arg / 256) ((extendedArg, arg / 256 % 256) :: acc) else acc
termination_by arg
decreasing_by omega

/-- `ConcreteInstr.assemble` (concrete.py 90-104): pairs of an operation and a byte. -/
def assemble (op : Nat) (arg : Nat) : List (Nat × Nat) := prefixes arg [(op, arg % 256)]

/-- `code_str` of `_assemble_code` (concrete.py 229-239). -/
def assembleAll : List (Nat × Arg × Int) → Args → List (Nat × Nat)
  | (op, _, _) :: is, a :: as => assemble op a ++ assembleAll is as
  | _, _ => []

/-- `linenos` of `_assemble_code`: the offset in bytes, the size in bytes and the line of
each instruction. -/
def linenos (py310 : Bool) : Nat → List (Nat × Arg × Int) → Args → List (Nat × Nat × Int)
  | off, (_, _, line) :: is, a :: as =>
    (if py310 then off * 2 else off, 2 * units a, line) ::
      linenos py310 (off + scale py310 * units a) is as
  | _, _, _ => []

/-- The parts of a code object that are modelled. -/
structure Code where
  /-- `co_code`, in pairs of an operation and a byte. -/
  code : List (Nat × Nat)
  /-- `co_lnotab` before 3.10, `co_linetable` in 3.10. -/
  lines : List Entry
  deriving DecidableEq, Repr

/-- `to_concrete_bytecode` and `to_code` (concrete.py 633-658, 386-433); `none` where the
code raises. -/
def toCode (py310 : Bool) (first : Int) (items : List Item) : Option Code :=
  if (instrs items).all (fun i => initialArg i.2.1 ≤ 2147483647) then do
    let args ← computeJumps py310 items 10 ((instrs items).map fun i => initialArg i.2.1)
    let ls := linenos py310 0 (instrs items) args
    pure {
      code := assembleAll (instrs items) args
      lines := if py310 then assembleLinestable first ls
        else assembleLnotab 0 first (ls.map fun l => (l.1, l.2.2)) }
  else none

end Assemble
