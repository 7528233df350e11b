import Verif.Assemble.Spec

/-!
Model of reading a code object: from bytes to a list of labels and instructions.

Models /repo/_pydevd_frame_eval/vendored/bytecode/concrete.py.
-/
namespace Assemble

/-- `opcode.HAVE_ARGUMENT`: operations below have no argument. -/
def haveArgument : Nat := 90

/-- The instructions in `from_code` (concrete.py 172-186): each pair of bytes, with its
line.  `starts` is `line_starts`: what `dis.findlinestarts` says of an offset. -/
def disassemble (starts : Nat → Option Int) : Nat → Int → List (Nat × Nat) → List (Nat × Option Nat × Int)
  | _, _, [] => []
  | pos, line, (op, b) :: rest =>
    let line' := (starts pos).getD line
    (op, if op ≥ haveArgument then some b else none, line') :: disassemble starts (pos + 2) line' rest

/-- `ConcreteInstr` (concrete.py 36-76); `size` in pairs of bytes. -/
structure Concrete where
  op : Nat
  arg : Option Nat
  size : Nat
  line : Int
  deriving DecidableEq, Repr

/-- The biggest argument (`_check_arg_int`, instr.py 124-129). -/
def maxArg : Nat := 2147483647

/-- `_remove_extended_args` (concrete.py 333-379), with `nb_extended_args` and
`extended_arg`; `none` where it raises. -/
def removeExtendedArgs : Nat → Option Nat → List (Nat × Option Nat × Int) → Option (List Concrete)
  | _, ext, [] => if ext.isNone then some [] else none
  | nb, ext, (op, arg, line) :: rest =>
    if op = extendedArg then
      match ext with
      | some e => removeExtendedArgs (nb + 1) (some (e * 256 + arg.getD 0)) rest
      | none => removeExtendedArgs (nb + 1) (some (arg.getD 0)) rest
    else match ext, arg with
      | some e, some a =>
        if e * 256 + a ≤ maxArg then
          (removeExtendedArgs 0 none rest).map (⟨op, some (e * 256 + a), 1 + nb, line⟩ :: ·)
        else none
      | some _, none => none
      | none, arg => (removeExtendedArgs nb none rest).map (⟨op, arg, 1, line⟩ :: ·)

/-- `get_jump_target` (concrete.py 81-88).  `kind` says which operations are relative
(`hasjrel`) and absolute (`hasjabs`) jumps. -/
def jumpTarget (py310 : Bool) (kind : Nat → Option Bool) (off : Nat) (i : Concrete) : Option Nat :=
  match kind i.op with
  | some true => some (off + scale py310 * i.size + i.arg.getD 0)
  | some false => some (i.arg.getD 0)
  | none => none

/-- `jump_targets` (concrete.py 440-449). -/
def jumpTargets (py310 : Bool) (kind : Nat → Option Bool) : Nat → List Concrete → List Nat
  | _, [] => []
  | off, i :: rest =>
    (jumpTarget py310 kind off i).toList ++ jumpTargets py310 kind (off + scale py310 * i.size) rest

/-- Where the instructions begin: the keys of `labels` are those that are jumped to
(concrete.py 459-462). -/
def starts (py310 : Bool) : Nat → List Concrete → List Nat
  | _, [] => []
  | off, i :: rest => off :: starts py310 (off + scale py310 * i.size) rest

/-- The argument of the instruction that is made from a concrete one (concrete.py 464-502).
The label of an offset is called by the offset.  Looking up constants, names and
variables is not modelled: an argument stays a number. -/
def abstractArg (py310 : Bool) (kind : Nat → Option Bool) (off : Nat) (i : Concrete) : Arg :=
  match kind i.op, jumpTarget py310 kind off i with
  | some relative, some target => .jump relative target
  | _, _ => match i.arg with
    | some a => .num a
    | none => .unset

/-- The loop of `to_bytecode` (concrete.py 458-495). -/
def withLabels (py310 : Bool) (kind : Nat → Option Bool) (targets : List Nat) : Nat → List Concrete → List Item
  | _, [] => []
  | off, i :: rest =>
    (if targets.contains off then [.label off] else []) ++
      .instr i.op (abstractArg py310 kind off i) i.line ::
        withLabels py310 kind targets (off + scale py310 * i.size) rest

/-- `Bytecode.from_code`: `from_code` and `to_bytecode` (concrete.py 169-215, 435-516);
`none` where they raise: an `EXTENDED_ARG` without an instruction, an argument out of
range, or a jump to where no instruction begins (a `KeyError`, 501). -/
def fromCode (py310 : Bool) (kind : Nat → Option Bool) (lineStarts : Nat → Option Int) (first : Int)
    (code : List (Nat × Nat)) : Option (List Item) := do
  let cs ← removeExtendedArgs 0 none (disassemble lineStarts 0 first code)
  let targets := jumpTargets py310 kind 0 cs
  if targets.all (starts py310 0 cs).contains then pure (withLabels py310 kind targets 0 cs) else none

/-! ### Specification of C63 -/

/-- The line in force at the `n`-th pair of bytes: the last one that started there or
before. -/
def lineInForce (lineStarts : Nat → Option Int) (first : Int) : Nat → Int
  | 0 => (lineStarts 0).getD first
  | n + 1 => (lineStarts (2 * (n + 1))).getD (lineInForce lineStarts first n)

/-- The instruction of the program that was made from the one the interpreter reads. -/
structure ReadBack (py310 : Bool) (kind : Nat → Option Bool) (lineStarts : Nat → Option Int) (first : Int)
    (c : Code) (items : List Item) (r : Read) (arg : Arg) (line : Int) : Prop where
  line : line = lineInForce lineStarts first (r.next / 2 - 1)
  unset : r.op < 90 → arg = .unset
  num : 90 ≤ r.op → kind r.op = none → arg = .num r.arg
  jump : ∀ relative, kind r.op = some relative → ∃ l, arg = .jump relative l ∧
    ∃ before after, items = before ++ .label l :: after ∧ .label l ∉ after ∧
      c.place (instrs before).length = some (r.target py310 relative)

end Assemble
