/-!
Model of the programmatic breakpoints of frame evaluation: the instructions
the debugger puts in the byte code of a function which has breakpoints, and
what the interpreter does when it runs such code.

Models /repo/_pydevd_frame_eval/pydevd_modify_bytecode.py and the part of
/repo/_pydevd_frame_eval/vendored/bytecode that gives instructions without a
line the line of the one before.
-/
namespace Bytecode

/-- A jump target.  Models `Label` (vendored/bytecode/instr.py 94-95): labels are
told apart by identity.  `orig n` are the ones made when the code is read
(concrete.py 459-462), `added k` the one made by the `k`-th call of
`get_instructions_to_add` (pydevd_modify_bytecode.py 92). -/
inductive Lab where
  | orig (n : Nat)
  | added (k : Nat)
  deriving DecidableEq, Repr

/-- A constant an instruction may load: one of the two functions of the
debugger, the line number passed to them (pydevd_modify_bytecode.py 95-106), or
a constant of the program. -/
inductive Const where
  | needsStop
  | stopAt
  | line (n : Int)
  | other (n : Nat)
  deriving DecidableEq, Repr

/-- The argument of an instruction (vendored/bytecode/instr.py 169-205). -/
inductive Arg where
  | unset
  | num (n : Nat)
  | lab (l : Lab)
  | const (c : Const)
  | sym (s : String)
  deriving DecidableEq, Repr

/-- An instruction.  Models `Instr` (vendored/bytecode/instr.py 160-224).
`offset` is where it was in the code that was read (concrete.py 115-118, 486,
500); an instruction made by the debugger has none. -/
structure Instr where
  name : String
  arg : Arg := .unset
  lineno : Option Int := none
  offset : Option Nat := none
  deriving DecidableEq, Repr

/-- An element of `Bytecode`: a label or an instruction.  `SetLineno` is never
made by `from_code` (concrete.py 435-516) and is left out. -/
inductive Item where
  | label (l : Lab)
  | instr (i : Instr)
  deriving DecidableEq, Repr

/-- `spurious_line` (pydevd_modify_bytecode.py 87-90). -/
def spuriousLine (L : Int) : Int := if L - 1 ≤ 0 then L + 1 else L - 1

/-- `get_instructions_to_add` (pydevd_modify_bytecode.py 75-115); `k` numbers the
calls and stands for the identity of the new label. -/
def instructionsToAdd (k : Nat) (L : Int) : List Item :=
  [ .instr { name := "LOAD_CONST", arg := .const .needsStop, lineno := some L },
    .instr { name := "LOAD_CONST", arg := .const (.line L), lineno := some L },
    .instr { name := "CALL_FUNCTION", arg := .num 1, lineno := some L },
    .instr { name := "POP_JUMP_IF_FALSE", arg := .lab (.added k), lineno := some L },
    .instr { name := "LOAD_CONST", arg := .const .stopAt, lineno := some (spuriousLine L) },
    .instr { name := "LOAD_CONST", arg := .const (.line L), lineno := some (spuriousLine L) },
    .instr { name := "CALL_FUNCTION", arg := .num 1, lineno := some (spuriousLine L) },
    .instr { name := "POP_TOP", lineno := some (spuriousLine L) },
    .instr { name := "NOP", lineno := some L },
    .label (.added k) ]

/-- `_PREDICT_TABLE` (pydevd_modify_bytecode.py 201-225); `[]` for a name that is
not in the table. -/
def predictTargets (name : String) : List String :=
  match name with
  | "LIST_APPEND" => ["JUMP_ABSOLUTE"]
  | "SET_ADD" => ["JUMP_ABSOLUTE"]
  | "GET_ANEXT" => ["LOAD_CONST"]
  | "GET_AWAITABLE" => ["LOAD_CONST"]
  | "DICT_MERGE" => ["CALL_FUNCTION_EX"]
  | "MAP_ADD" => ["JUMP_ABSOLUTE"]
  | "COMPARE_OP" => ["POP_JUMP_IF_FALSE", "POP_JUMP_IF_TRUE"]
  | "IS_OP" => ["POP_JUMP_IF_FALSE", "POP_JUMP_IF_TRUE"]
  | "CONTAINS_OP" => ["POP_JUMP_IF_FALSE", "POP_JUMP_IF_TRUE"]
  | _ => []

/-- The interpreter version, as far as the insertion looks at it:
`TRACK_MULTIPLE_BRANCHES` and `FIX_PREDICT` are the same test, 3.10 or later
(pydevd_modify_bytecode.py 231, 236). -/
abbrev Track := Bool

/-- What the loop of `insert_pydevd_breaks` carries from one node to the next
(pydevd_modify_bytecode.py 285-288):
* `prevLabel`: `curr_node.prev.data.__class__ == Label`;
* `pred`: the predict targets of the node before, which say whether that
  iteration has removed the line of this one (293-305);
* `last`: `last_lineno`;
* `added`: `added_breaks_in_lines`;
* `fresh`: how many times `get_instructions_to_add` was called. -/
structure Carry where
  prevLabel : Bool := false
  pred : List String := []
  last : Option Int := none
  added : List Int := []
  fresh : Nat := 0

/-- Lines 293-305 as seen from the instruction after: its line is removed if
its name is one of the targets of the instruction before. -/
def fixed (track : Track) (pred : List String) (i : Instr) : Instr :=
  if track && pred.contains i.name then { i with lineno := none } else i

/-- Lines 307-323: whether the instruction is passed over.  In the variant for
3.10 and later that is when it continues the line of the instruction before
and no label is between; before 3.10, when the line already has its break. -/
def passed (track : Track) (c : Carry) (L : Int) : Bool :=
  if track then c.last == some L && !c.prevLabel
  else c.added.contains L

/-- The loop of `insert_pydevd_breaks` (pydevd_modify_bytecode.py 288-346), giving
the list from the current node on.  The doubly linked list of the code
(118-198) is a list here: `prepend` puts the new items before the current one
(339-344), `append` after it, and the loop goes on after them (331-336). -/
def insertLoop (track : Track) (lines : List Int) : Carry → List Item → List Item
  | _, [] => []
  | c, .label l :: rest =>
    .label l :: insertLoop track lines { c with prevLabel := true, pred := [] } rest
  | c, .instr i₀ :: rest =>
    let i := fixed track c.pred i₀
    let next := { c with prevLabel := false, pred := predictTargets i.name }
    match i.lineno with
    | none => .instr i :: insertLoop track lines next rest
    | some L =>
      if passed track c L then .instr i :: insertLoop track lines next rest
      else if L ∈ lines then
        if c.prevLabel && i.name == "POP_TOP" then
          .instr i :: instructionsToAdd c.fresh L ++
            insertLoop track lines { prevLabel := true, pred := [], last := some L,
                                     added := L :: c.added, fresh := c.fresh + 1 } rest
        else
          instructionsToAdd c.fresh L ++ .instr i ::
            insertLoop track lines { next with last := some L, added := L :: c.added,
                                               fresh := c.fresh + 1 } rest
      else .instr i :: insertLoop track lines { next with last := some L } rest

/-- Line 300 raises when an instruction of the table is the last node
(`curr_node.next` is `None`); the exception makes the insertion fail
(355-357). -/
def failsAtEnd (track : Track) (items : List Item) : Bool :=
  match items.getLast? with
  | some (.instr i) => track && !(predictTargets i.name).isEmpty
  | _ => false

/-- An instruction without a line has the line of the instruction before, or
the first line of the code.  Models `concrete_instructions`
(vendored/bytecode/concrete.py 559, 575-576, 600). -/
def withLines : Int → List Item → List Item
  | _, [] => []
  | cur, .label l :: rest => .label l :: withLines cur rest
  | cur, .instr i :: rest =>
    .instr { i with lineno := some (i.lineno.getD cur) } :: withLines (i.lineno.getD cur) rest

/-- `insert_pydevd_breaks` (pydevd_modify_bytecode.py 239-363) on code that was
read: `none` is `(False, code)`.  `hasLines` is `line_to_offset` not being empty
(255).  Turning the list into bytes is modelled elsewhere (`Verif.Assemble`);
here its result is the list in which every instruction has its line. -/
def insertBreaks (track : Track) (lines : List Int) (firstLine : Int) (hasLines : Bool)
    (items : List Item) : Option (List Item) :=
  if !hasLines then none
  else if lines.any (· ≤ 0) then none
  else if failsAtEnd track items then none
  else some (withLines firstLine (insertLoop track lines {} items))

/-! ### The interpreter -/

/-- A value on the stack: one of the debugger's functions, a number, a boolean,
`None`, or any other value of the program. -/
inductive Val (U : Type) where
  | needsStop
  | stopAt
  | int (n : Int)
  | bool (b : Bool)
  | none
  | user (u : U)

/-- What an instruction does to the frame: go on with the next one, go to a
label (a jump, or an exception with a handler), or leave the frame (a return,
a yield, or an exception without a handler). -/
inductive Out (U E : Type) where
  | fall (stack : List (Val U)) (env : E)
  | goto (l : Lab) (stack : List (Val U)) (env : E)
  | leave (stack : List (Val U)) (env : E)

/-- Everything that is not modelled: what the instructions of the program do
(`sem`; it sees the stack and the rest of the program's world `E`, and not the
debugger's state, line numbers or the position in the code), the value of its
constants, and the debugger's functions (`_pydev_needs_stop_at_break` and
`_pydev_stop_at_break`, pydevd_frame_tracing.py 34-121), which have a state `D` of
their own and are assumed to return. -/
structure World (U E D : Type) where
  const : Nat → Val U
  sem : String → Arg → List (Val U) → E → Out U E
  needs : D → Int → D × Bool
  stop : D → Int → D

/-- What can be seen of a run: an instruction was run, with the stack and the
world it met; the debugger was asked whether to stop at a line; the debugger
was told to stop at a line. -/
inductive Ev (U E : Type) where
  | ran (i : Instr) (stack : List (Val U)) (env : E)
  | check (L : Int) (answer : Bool)
  | stopped (L : Int)

/-- A frame: the items still to run (`none` after it was left), the stack, the
world of the program, the state of the debugger. -/
structure Frame (U E D : Type) where
  code : Option (List Item)
  stack : List (Val U)
  env : E
  dbg : D

/-- The items after a label.  A jump goes to the instruction after its label
(concrete.py 617-619). -/
def after (l : Lab) : List Item → List Item
  | [] => []
  | .label l' :: rest => if l' = l then rest else after l rest
  | .instr _ :: rest => after l rest

/-- The value of a constant. -/
def World.value {U E D} (w : World U E D) : Const → Val U
  | .needsStop => .needsStop
  | .stopAt => .stopAt
  | .line n => .int n
  | .other n => w.const n

/-- What one instruction does, with the debugger's events.  The cases are the
instructions the debugger uses, with the meaning they have in CPython;
everything else is `sem`. -/
def exec {U E D} (w : World U E D) (name : String) (arg : Arg) (stack : List (Val U)) (env : E)
    (dbg : D) : Out U E × D × List (Ev U E) :=
  match name, arg, stack with
  | "LOAD_CONST", .const c, st => (.fall (w.value c :: st) env, dbg, [])
  | "CALL_FUNCTION", .num 1, .int L :: .needsStop :: st =>
    (.fall (.bool (w.needs dbg L).2 :: st) env, (w.needs dbg L).1, [.check L (w.needs dbg L).2])
  | "CALL_FUNCTION", .num 1, .int L :: .stopAt :: st =>
    (.fall (.none :: st) env, w.stop dbg L, [.stopped L])
  | "POP_JUMP_IF_FALSE", .lab l, .bool b :: st =>
    (if b then .fall st env else .goto l st env, dbg, [])
  | "POP_TOP", .unset, _ :: st => (.fall st env, dbg, [])
  | "NOP", .unset, st => (.fall st env, dbg, [])
  | name, arg, st => (w.sem name arg st env, dbg, [])

/-- The frame after an instruction. -/
def land {U E D} (prog rest : List Item) (dbg : D) : Out U E → Frame U E D
  | .fall st env => { code := some rest, stack := st, env := env, dbg := dbg }
  | .goto l st env => { code := some (after l prog), stack := st, env := env, dbg := dbg }
  | .leave st env => { code := none, stack := st, env := env, dbg := dbg }

/-- One step of the interpreter on the program `prog`; a frame that was left, or
whose code has run out, makes none. -/
def step {U E D} (w : World U E D) (prog : List Item) (f : Frame U E D) :
    Option (Frame U E D × List (Ev U E)) :=
  match f.code with
  | none => none
  | some [] => none
  | some (.label _ :: rest) => some ({ f with code := some rest }, [])
  | some (.instr i :: rest) =>
    let r := exec w i.name i.arg f.stack f.env f.dbg
    some (land prog rest r.2.1 r.1, .ran i f.stack f.env :: r.2.2)

/-- Up to `n` steps, with the events. -/
def run {U E D} (w : World U E D) (prog : List Item) : Nat → Frame U E D →
    Frame U E D × List (Ev U E)
  | 0, f => (f, [])
  | n + 1, f =>
    match step w prog f with
    | none => (f, [])
    | some (f', evs) => ((run w prog n f').1, evs ++ (run w prog n f').2)

/-- A frame at the start of a program. -/
def start {U E D} (prog : List Item) (stack : List (Val U)) (env : E) (dbg : D) : Frame U E D :=
  { code := some prog, stack := stack, env := env, dbg := dbg }

/-! ### The functions the inserted instructions call -/

/-- What the debugger's functions look at: `additional_info.is_tracing`, whether
`frame.f_trace` is set, and the lines of `py_db.breakpoints` for the frame's file
(`none` when there is no debugger). -/
structure Dbg where
  isTracing : Bool := false
  traced : Bool := false
  breakpoints : Option (List Int) := some []
  deriving DecidableEq, Repr

/-- `_pydev_needs_stop_at_break` (pydevd_frame_tracing.py 65-121).  `is_tracing` is
raised during the call and lowered again (85, 119), so nothing is changed.  A
breakpoint is an object and so always true (114). -/
def needsStop (d : Dbg) (L : Int) : Dbg × Bool :=
  if d.isTracing then (d, false)
  else if d.traced then (d, false)
  else match d.breakpoints with
    | none => (d, false)
    | some lines => (d, lines.contains L)

/-- `_pydev_stop_at_break` (pydevd_frame_tracing.py 34-62): the frame's trace
function is set. -/
def stopAt (d : Dbg) (_L : Int) : Dbg :=
  if d.isTracing then d
  else match d.breakpoints with
    | none => d
    | some _ => { d with traced := true }

end Bytecode
