import Verif.Disasm.Model

/-!
# What a made-up source has to show

A code object is described by what `dis` gives: instructions, and lines for some of them. The
specification does not look at how texts are put together.
-/

namespace Disasm.Spec

/-- The line of the instruction number `k`: that of the nearest instruction at or before it that
starts a line, or the first line of the code. -/
def lineAt (c : Code) : Nat → Nat
  | 0 => (Py.Dict.get c.starts (c.instrs[0]?.getD default).offset).getD c.first
  | k + 1 => (Py.Dict.get c.starts (c.instrs[k + 1]?.getD default).offset).getD (lineAt c k)

/-- The text `dis` gives for an argument, without the mark that the call protocol of Python 3.11 and
later puts before or after it. -/
def Names (r t : Text) : Prop :=
  r = t ∨ r = c!"NULL + " ++ t ∨ r = t ++ c!" + NULL" ∨ r = c!"NULL + " ++ (t ++ c!" + NULL")

/-- The punctuation and the words that are not taken from an instruction. -/
def fixed : List Text :=
  [c!"return ", c!"raise ", c!"raise", c!"(", c!")", c!", ", c!".", c!" = ", c!"|", c!"try(", c!"):",
   c!"LOAD_CONST(code)", c!"    "]

/-- Instructions that do nothing. -/
def idle : List Text := [c!"RESUME", c!"NULL"]

/-- The code object, or one in it, has an instruction on that line. -/
inductive HasLine : Code → Nat → Prop
  | here {c : Code} {k : Nat} {i : Instr} (at_k : c.instrs[k]? = some i) (busy : i.op ∉ idle) : HasLine c (lineAt c k)
  | inner {c d : Code} {i : Instr} {l : Nat} (mem : i ∈ c.instrs) (code : i.arg = .code d) (h : HasLine d l) :
      HasLine c l

/-- The text belongs to an instruction on that line, of the code object or of one in it. -/
inductive Shows : Code → Nat → Text → Prop
  | name {c : Code} {k : Nat} {i : Instr} {r t : Text} (at_k : c.instrs[k]? = some i) (repr : i.repr = .text r)
      (names : Names r t) : Shows c (lineAt c k) t
  | op {c : Code} {k : Nat} {i : Instr} (at_k : c.instrs[k]? = some i) : Shows c (lineAt c k) i.op
  | value {c : Code} {k : Nat} {i : Instr} {v : Text} (at_k : c.instrs[k]? = some i) (arg : i.arg.shown = some v) :
      Shows c (lineAt c k) (i.op ++ c!"{" ++ v ++ c!"}")
  | offset {c : Code} {k : Nat} {i : Instr} (at_k : c.instrs[k]? = some i) (target : i.target = true) :
      Shows c (lineAt c k) (Py.natStr i.offset)
  | inner {c d : Code} {i : Instr} {l : Nat} {t : Text} (mem : i ∈ c.instrs) (code : i.arg = .code d)
      (h : Shows d l t) : Shows c l t

/-- Instructions that need not be seen by their own text: the idle ones, those shown as punctuation
or as a keyword, and the dropping of a value. -/
def implicit : List Text :=
  [c!"RESUME", c!"NULL", c!"POP_TOP", c!"CALL_FUNCTION", c!"PRECALL", c!"CALL", c!"BUILD_TUPLE", c!"RETURN_VALUE",
   c!"RAISE_VARARGS"]

/-- The loading of a code object as a constant. -/
def LoadsCode (i : Instr) (d : Code) : Prop := i.op = c!"LOAD_CONST" ∧ i.arg = .code d

/-- The argument `r` of an instruction on line `l`, of the code object or of one in it, must be seen. -/
inductive Must : Code → Nat → Text → Prop
  | here {c : Code} {k : Nat} {i : Instr} {r : Text} (at_k : c.instrs[k]? = some i) (seen : i.op ∉ implicit)
      (plain : ∀ d, ¬ LoadsCode i d) (repr : i.repr = .text r) : Must c (lineAt c k) r
  | inner {c d : Code} {i : Instr} {l : Nat} {r : Text} (mem : i ∈ c.instrs) (loads : LoadsCode i d) (h : Must d l r) :
      Must c l r

/-- The row `l` of a text, counted from 1. -/
def row (out : Text) (l : Nat) : Text := (Py.split1 '\n' out).getD (l - 1) []

/-- Code as compilers give it. -/
inductive Formed : Code → Prop
  | mk {c : Code}
    /- every instruction has an offset of its own -/
    (offsets : (c.instrs.map Instr.offset).Nodup)
    /- what `dis` gives are texts of one line, with its marks separated by a space -/
    (texts : ∀ i ∈ c.instrs, ∃ r, i.repr = .text r ∧ '\n' ∉ r ∧ (∀ s, r = s ++ c!"+ NULL" → ∃ t, s = t ++ c!" " ∧ t ≠ c!"NULL +"))
    (ops : ∀ i ∈ c.instrs, '\n' ∉ i.op)
    (values : ∀ i ∈ c.instrs, ∀ v, i.arg.shown = some v → '\n' ∉ v)
    /- no empty tuple is built; calls have a number of arguments -/
    (tuples : ∀ i ∈ c.instrs, i.op = c!"BUILD_TUPLE" → ∃ n, i.arg = .num (n + 1))
    (calls : ∀ i ∈ c.instrs, i.op ∈ [c!"CALL_FUNCTION", c!"PRECALL", c!"CALL"] → ∃ n, i.arg = .num n)
    /- the code does not end in the middle of an expression -/
    (last : ∀ i, c.instrs.getLast? = some i → i.op ∉ [c!"LOAD_GLOBAL", c!"LOAD_FAST", c!"LOAD_CONST", c!"LOAD_NAME",
      c!"LOAD_ATTR", c!"CALL_FUNCTION", c!"PRECALL", c!"CALL", c!"BUILD_TUPLE", c!"POP_TOP"])
    /- a `PRECALL` is followed by its `CALL`, a code object by the making of its function -/
    (precall : ∀ k i, c.instrs[k]? = some i → i.op = c!"PRECALL" → ∃ j, c.instrs[k + 1]? = some j ∧ j.op = c!"CALL")
    (codes : ∀ k i d, c.instrs[k]? = some i → LoadsCode i d →
      (∃ j, c.instrs[k + 1]? = some j ∧ j.op = c!"MAKE_FUNCTION") ∨
      (∃ j m, c.instrs[k + 1]? = some j ∧ j.op = c!"LOAD_CONST" ∧ (∀ e, j.arg ≠ .code e) ∧
        c.instrs[k + 2]? = some m ∧ m.op = c!"MAKE_FUNCTION"))
    /- lines are counted from 1 -/
    (lines : ∀ k i, c.instrs[k]? = some i → i.op ∉ idle → 1 ≤ lineAt c k)
    /- and so it is for the code objects in it -/
    (inner : ∀ i ∈ c.instrs, ∀ d, i.arg = .code d → Formed d) : Formed c

end Disasm.Spec
