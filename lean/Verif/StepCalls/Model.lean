import Verif.Common.Lit
/-!
# The calls a line offers to step into, before Python 3.11

Models `_StackInterpreter` and `_get_smart_step_into_targets` of `/repo/_pydevd_bundle/pydevd_bytecode_utils.py`
(27-796), which follow the bytecode of a code object, block by block, with a stack of instructions, and name each
call after the instruction which put the called function on the stack.  Used for Python 3.8 to 3.10 (for later
versions see `StepInto`).

Simplified:
* instructions which the interpreter treats alike are one `Op`;
* the list of blocks of the control flow graph (`_pydevd_frame_eval/vendored/bytecode/cfg.py` 342-398) is one list
  of instructions with a mark, `cut`, where a new block begins: after an instruction that jumps or ends the code,
  and where some instruction jumps to;
* `func_name_id_to_code_object` maps the instruction which loaded the name of a comprehension (by identity) to its
  code; it is part of the entry on the stack here.  Nothing but that instruction's entry is ever looked up;
* the targets of the code object loaded by an instruction are computed when it is loaded, not when it is called;
* logging is left out.
-/
namespace StepCalls

/-- A name. -/
abbrev Name := List Char

/-- `Target` (59-87): the name, the line, the offset of the call, and the calls inside of a comprehension. -/
inductive Target where
  | mk (name : Name) (line offset : Nat) (children : List Target)

/-- The operators of `_BINARY_OP_MAP` but subscription (29-45). -/
inductive BinOp where
  | pow | mul | matmul | floordiv | truediv | mod | add | sub | lshift | rshift | and | or | xor
  deriving DecidableEq, Repr

/-- `_BINARY_OP_MAP` (29-45). -/
def BinOp.text : BinOp → Name
  | .pow => c!"__pow__" | .mul => c!"__mul__" | .matmul => c!"__matmul__" | .floordiv => c!"__floordiv__"
  | .truediv => c!"__div__" | .mod => c!"__mod__" | .add => c!"__add__" | .sub => c!"__sub__"
  | .lshift => c!"__lshift__" | .rshift => c!"__rshift__" | .and => c!"__and__" | .or => c!"__or__"
  | .xor => c!"__xor__"

/-- The comparisons of `COMPARE_OP` (Python 3.9 and later). -/
inductive CmpOp where
  | lt | le | eq | ne | gt | ge
  deriving DecidableEq, Repr

/-- `_COMP_OP_MAP` (47-56). -/
def CmpOp.text : CmpOp → Name
  | .lt => c!"__lt__" | .le => c!"__le__" | .eq => c!"__eq__" | .ne => c!"__ne__" | .gt => c!"__gt__"
  | .ge => c!"__ge__"

/-- What an instruction does, to the interpreter. -/
inductive Op where
  /-- pushes itself: `LOAD_GLOBAL`, `LOAD_CONST`, `LOAD_DEREF`, `LOAD_NAME`, `LOAD_CLOSURE`, `LOAD_FAST`,
  `LOAD_BUILD_CLASS` (162-163, 178-184, 327-336) -/
  | load
  /-- `LOAD_ASSERTION_ERROR` (333-334) -/
  | loadAssertion
  /-- replaces the top: `LOAD_ATTR` (171-174), `LOAD_METHOD` (298-300) -/
  | loadAttr
  /-- pops one, if there is one: `POP_TOP`, `STORE_FAST`, `STORE_ATTR`, `DELETE_ATTR`, `RETURN_VALUE`,
  `YIELD_VALUE`, `POP_JUMP_IF_FALSE`, `JUMP_IF_TRUE_OR_POP`, `LIST_APPEND`, `LIST_EXTEND`, `DICT_MERGE`,
  `INPLACE_ADD`, ... (165-169, 193-215, 477-483, 587-595, 657-678) -/
  | pop
  /-- changes nothing: `GET_ITER`, `UNARY_NOT`, `FORMAT_VALUE`, `LIST_TO_TUPLE`, `JUMP_FORWARD`, `FOR_ITER`,
  `YIELD_FROM`, `GET_AWAITABLE`, ... (158-159, 461-475, 598-600, 641-655, 732-736), and what has no method, as
  `CONTAINS_OP` (762-769) -/
  | nop
  /-- `BINARY_ADD`, ... (272-296) -/
  | binary (b : BinOp)
  /-- `BINARY_SUBSCR` (272-282) -/
  | subscr
  /-- `COMPARE_OP` (246-260) -/
  | compare (c : CmpOp)
  /-- `IS_OP` (262-271) -/
  | isOp
  /-- `CALL_FUNCTION` (384-401) -/
  | callFunction
  /-- `CALL_METHOD` (338-344) -/
  | callMethod
  /-- `CALL_FUNCTION_KW` (403-417) -/
  | callKw
  /-- `CALL_FUNCTION_EX` (454-459) -/
  | callEx
  /-- `MAKE_FUNCTION` (302-325) -/
  | makeFunction
  /-- pops what it is built of and pushes itself: `BUILD_LIST`, `BUILD_TUPLE`, `BUILD_SET`, `BUILD_STRING`,
  `BUILD_SLICE` (617-630, 705-711) -/
  | build
  /-- `BUILD_MAP` (575-579) -/
  | buildMap
  /-- `DUP_TOP` (680-687) -/
  | dup
  /-- `DUP_TOP_TWO` (689-703) -/
  | dupTwo
  /-- `ROT_TWO` (502-515) -/
  | rotTwo
  /-- `ROT_THREE` (517-538) -/
  | rotThree
  /-- `STORE_SUBSCR` (713-719) -/
  | storeSubscr
  /-- `UNPACK_SEQUENCE` (612-615) -/
  | unpack
  /-- not an instruction: here a new block begins -/
  | cut
  deriving DecidableEq, Repr

mutual
/-- The argument of an instruction: none, or one the interpreter cannot use; a string (a name, or a constant which
is one; for `_Variable`s their name); a number; a code object, by its instructions. -/
inductive Arg where
  | none
  | str (s : Name)
  | num (n : Nat)
  | code (body : List Instr)
/-- An instruction: what it does, its argument, line and offset. -/
inductive Instr where
  | mk (op : Op) (arg : Arg) (line offset : Nat)
end

def Instr.op : Instr → Op
  | .mk o _ _ _ => o

def Instr.arg : Instr → Arg
  | .mk _ a _ _ => a

def Instr.line : Instr → Nat
  | .mk _ _ l _ => l

def Instr.offset : Instr → Nat
  | .mk _ _ _ o => o

/-- The number an instruction has as argument. -/
def Instr.num (i : Instr) : Nat :=
  match i.arg with
  | .num n => n
  | _ => 0

/-- The last part of a dotted name: `name.split(".")[-1]`. -/
def lastPart (s : Name) : Name := (s.reverse.takeWhile (· ≠ '.')).reverse

/-- `name.endswith(">")`, and what follows from it (155-157). -/
def shorten (s : Name) : Name := if s.getLast? = some '>' then lastPart s else s

/-- `_getcallname` (130-157), for Python before 3.11. -/
def callName (i : Instr) : Option Name :=
  match i.op with
  | .subscr => some c!"__getitem__().__call__"
  | .callFunction => none
  | .makeFunction => some c!"__func__().__call__"
  | .loadAssertion => some c!"AssertionError"
  | .compare c => some (shorten c.text)
  | _ =>
    match i.arg with
    | .str s => some (shorten s)
    | _ => none

/-- What is on the stack: an instruction, the targets of the code it loaded, and the targets of the comprehension
it names, if it names one. -/
structure Entry where
  instr : Instr
  own : List Target := []
  made : Option (List Target) := none

/-- `_StackInterpreter` (107-117): `_stack`, its top first, and `function_calls`. -/
structure St where
  stack : List Entry := []
  calls : List Target := []

def isComp (n : Name) : Bool :=
  n = c!"<listcomp>" || n = c!"<genexpr>" || n = c!"<setcomp>" || n = c!"<dictcomp>"

/-- `_handle_call_from_instr` (220-244). -/
def handleCall (f : Entry) (i : Instr) (s : St) : St :=
  match callName f.instr with
  | none => { s with stack := { instr := i } :: s.stack }
  | some n =>
    if n = [] then { s with stack := { instr := i } :: s.stack }
    else if isComp n then
      match f.made with
      | none => s
      | some kids =>
        { stack := { instr := i } :: s.stack
          calls := if kids.isEmpty then s.calls else s.calls ++ [.mk n f.instr.line i.offset kids] }
    else { stack := { instr := i } :: s.stack, calls := s.calls ++ [.mk n f.instr.line i.offset []] }

/-- Pops `n` entries, then the function, and handles the call; if there are not enough the stack is empty after
it. -/
def popAndCall (n : Nat) (i : Instr) (s : St) : St :=
  match s.stack.drop n with
  | f :: r => handleCall f i { s with stack := r }
  | [] => { s with stack := [] }

/-- `arg & 0xFF`, and twice `arg >> 8` (387-388). -/
def argc (n : Nat) : Nat := n % 256 + n / 256 * 2

/-- An operator with two operands (246-260, 272-282). -/
def operator (t : Name) (i : Instr) (s : St) : St :=
  match s.stack with
  | _ :: _ :: r => { stack := { instr := i } :: r, calls := s.calls ++ [.mk t i.line i.offset []] }
  | _ => { s with stack := [] }

/-- How many entries `MAKE_FUNCTION` pops for its flags (311-319). -/
def flags (n : Nat) : Nat := n / 8 % 2 + n / 4 % 2 + n / 2 % 2 + n % 2

/-- One instruction (158-739), with the targets of the code it loads. -/
def step (i : Instr) (own : List Target) (s : St) : St :=
  match i.op with
  | .load => { s with stack := { instr := i, own := own } :: s.stack }
  | .loadAssertion => { s with stack := { instr := i } :: s.stack }
  | .loadAttr => { s with stack := { instr := i } :: s.stack.tail }
  | .pop => { s with stack := s.stack.tail }
  | .nop => s
  | .binary b => operator b.text i s
  | .subscr => operator c!"__getitem__" i s
  | .compare c => operator c.text i s
  | .isOp => { s with stack := s.stack.drop 2 }
  | .callFunction => popAndCall (argc i.num) i s
  | .callMethod => popAndCall i.num i s
  | .callKw => popAndCall (argc i.num + 1) i s
  | .callEx => popAndCall (i.num % 2 + 1) i s
  | .makeFunction =>
    match s.stack with
    | q :: c :: r =>
      if r.length < flags i.num then { s with stack := [] }
      else
        match callName q.instr, c.instr.arg with
        | some n, .code _ =>
          { s with stack := (if isComp n then { q with made := some c.own } else q) :: r.drop (flags i.num) }
        | _, _ => { s with stack := q :: r.drop (flags i.num) }
    | _ => { s with stack := [] }
  | .build => { s with stack := { instr := i } :: s.stack.drop i.num }
  | .buildMap =>
    if s.stack.length < 2 * i.num then { s with stack := [] }
    else { s with stack := { instr := i } :: s.stack.drop (2 * i.num) }
  | .dup =>
    match s.stack with
    | e :: r => { s with stack := e :: e :: r }
    | [] => { s with stack := [{ instr := i }] }
  | .dupTwo =>
    match s.stack with
    | [] => { s with stack := [{ instr := i }] }
    | [e] => { s with stack := [{ instr := i }, e, e] }
    | e :: f :: r => { s with stack := e :: f :: e :: f :: r }
  | .rotTwo =>
    match s.stack with
    | e :: f :: r => { s with stack := f :: e :: r }
    | l => { s with stack := l }
  | .rotThree =>
    match s.stack with
    | e :: f :: g :: r => { s with stack := g :: f :: e :: r }
    | [e, f] => { s with stack := [f, e] }
    | l => { s with stack := l }
  | .storeSubscr => { s with stack := s.stack.drop 3 }
  | .unpack =>
    match s.stack with
    | _ :: r => { s with stack := List.replicate i.num { instr := i } ++ r }
    | [] => s
  | .cut => { s with stack := [] }

mutual
/-- The targets of the code object the argument is. -/
def ownArg : Arg → List Target
  | .none => []
  | .str _ => []
  | .num _ => []
  | .code body => (run body {}).calls
/-- The targets of the code object an instruction loads. -/
def own : Instr → List Target
  | .mk _ a _ _ => ownArg a
/-- The loops over the blocks and their instructions (742-796). -/
def run : List Instr → St → St
  | [], s => s
  | i :: r, s => run r (step i (own i) s)
end

/-- `_get_smart_step_into_targets` (742-796). -/
def targets (code : List Instr) : List Target := (run code {}).calls

end StepCalls
