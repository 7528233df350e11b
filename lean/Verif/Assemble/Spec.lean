import Verif.Assemble.Model

/-!
Specification for C62: how the interpreter reads a code object.
-/
namespace Assemble

/-- An instruction as the interpreter reads it: where it starts and ends, in bytes, its
operation and its argument. -/
structure Read where
  start : Nat
  op : Nat
  arg : Nat
  next : Nat
  deriving DecidableEq, Repr

/-- How the interpreter reads the pairs of bytes of the code from `pos` on: an
`EXTENDED_ARG` (144) is part of the instruction after it, whose argument gets 8 more
bits in front.  `start` is where the present instruction started and `ext` the part of
its argument that has been read. -/
def decode (start pos ext : Nat) : List (Nat × Nat) → List Read
  | [] => []
  | (op, b) :: rest =>
    if op = 144 then decode start (pos + 2) (ext * 256 + b) rest
    else ⟨start, op, ext * 256 + b, pos + 2⟩ :: decode (pos + 2) (pos + 2) 0 rest

/-- The instructions of a code object. -/
def Code.read (c : Code) : List Read := decode 0 0 0 c.code

/-- Where the `n`-th instruction starts; the end of the code if there are `n`. -/
def Code.place (c : Code) (n : Nat) : Option Nat :=
  if n = c.read.length then some (2 * c.code.length) else c.read[n]?.map (·.start)

/-- Where a jump goes: its argument counts pairs of bytes from 3.10 on and bytes before,
from the next instruction if it is relative. -/
def Read.target (py310 relative : Bool) (r : Read) : Nat :=
  (if relative then r.next else 0) + (if py310 then 2 * r.arg else r.arg)

/-- How the interpreter finds the line of an address before 3.10 (`PyCode_Addr2Line`, as
described in CPython's lnotab_notes.txt): `addr` and `line` are what has been added up. -/
def addr2line (address : Nat) : Nat → Int → List Entry → Int
  | _, line, [] => line
  | addr, line, (a, l) :: rest =>
    if addr + a > address then line else addr2line address (addr + a) (line + l) rest

/-- How the interpreter finds the line of an address in 3.10 (PEP 626): each entry is a
range of addresses, with a change of the line; -128 says that the range has no line. -/
def lineInTable (address : Nat) : Nat → Int → List Entry → Option Int
  | _, _, [] => none
  | from_, line, (size, l) :: rest =>
    let line' := if l = -128 then line else line + l
    if from_ + size > address then (if l = -128 then none else some line')
    else lineInTable address (from_ + size) line' rest

/-- The line of an address. -/
def Code.lineAt (py310 : Bool) (first : Int) (c : Code) (address : Nat) : Option Int :=
  if py310 then lineInTable address 0 first c.lines else some (addr2line address 0 first c.lines)

/-- An entry is a byte and a signed byte. -/
def Entry.Fits (e : Entry) : Prop := e.1 ≤ 255 ∧ -128 ≤ e.2 ∧ e.2 ≤ 127

/-- The instruction that was read is the `i`-th one of the program: it has its operation
and line, all along, and its argument; a jump goes to the instruction after its
label (the last one, if a label is there twice). -/
structure Faithful (py310 : Bool) (first : Int) (items : List Item) (c : Code)
    (op : Nat) (arg : Arg) (line : Int) (r : Read) : Prop where
  op : r.op = op
  unset : arg = .unset → r.arg = 0
  num : ∀ n, arg = .num n → r.arg = n
  jump : ∀ relative l, arg = .jump relative l →
    ∃ before after, items = before ++ .label l :: after ∧ .label l ∉ after ∧
      c.place (instrs before).length = some (r.target py310 relative)
  line : ∀ address, r.start ≤ address → address < r.next → c.lineAt py310 first address = some line

end Assemble
