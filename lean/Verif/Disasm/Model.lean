import Verif.Common.Dict
import Verif.Common.Lit
import Verif.Common.PyInt
import Verif.Common.Split
import Verif.Common.Str

/-!
# The source made up for a frame that has none

Models `_pydevd_bundle/pydevd_collect_bytecode_info.py` 484-875 (`_MsgPart`, `_Disassembler`,
`code_to_bytecode_representation`) and the part of `_pydevd_bundle/pydevd_api.py` 800-819
(`get_decompiled_source_from_frame_id`) that chooses between the cached lines and the made-up ones.

Simplifications:
* the only caller (`pydevd_api.py` 817) leaves `use_func_first_line` at `False`, so the first line
  given to every disassembler is 0 and line indexes are line numbers, natural numbers;
* a code object is what `dis` says about it: its first line, its table of line starts (without the
  entries that have no line) and its instructions; `opcode` and `starts_line` are not looked at by
  the code;
* an argument value is a number, a code object, or something of which only its truth and its text
  matter;
* the Python loop that goes on while there are instructions is given a number of rounds, and the
  answer is `none` when they run out; a Python exception is `Except.error`.
-/

namespace Disasm

/-- Texts. -/
abbrev Text := List Char

/-- What `_lookahead` and `_next_instruction_to_str` build: a `str`, a `list` or `tuple`, or a
`_MsgPart` (pydevd_collect_bytecode_info.py 488-499). -/
inductive Part where
  | text (s : Text)
  | many (ps : List Part)
  | msg (line : Nat) (tok : Part)

mutual
/-- `argval` of an instruction. -/
inductive Arg where
  | num (n : Nat)
  | code (c : Code)
  | other (truth : Bool) (text : Text)

/-- `_Instruction` (pydevd_collect_bytecode_info.py 82): `opname`, `argval`, `is_jump_target`,
`offset` and `argrepr`. -/
inductive Instr where
  | mk (op : Text) (arg : Arg) (target : Bool) (offset : Nat) (repr : Part)

/-- A code object: `co_firstlineno`, `dis.findlinestarts(co)` without the entries whose line is
`None`, and `list(iter_instructions(co))` (pydevd_collect_bytecode_info.py 85-95). -/
inductive Code where
  | mk (first : Nat) (starts : List (Nat × Nat)) (instrs : List Instr)
end

instance : Inhabited Instr := ⟨.mk [] (.num 0) false 0 (.text [])⟩

/-- `instruction.opname`. -/
def Instr.op : Instr → Text
  | .mk op _ _ _ _ => op

/-- `instruction.argval`. -/
def Instr.arg : Instr → Arg
  | .mk _ arg _ _ _ => arg

/-- `instruction.is_jump_target`. -/
def Instr.target : Instr → Bool
  | .mk _ _ target _ _ => target

/-- `instruction.offset`. -/
def Instr.offset : Instr → Nat
  | .mk _ _ _ offset _ => offset

/-- `instruction.argrepr`. -/
def Instr.repr : Instr → Part
  | .mk _ _ _ _ repr => repr

/-- `co.co_firstlineno`. -/
def Code.first : Code → Nat
  | .mk first _ _ => first

/-- `dict(entry for entry in dis.findlinestarts(co) if entry[1] is not None)`. -/
def Code.starts : Code → List (Nat × Nat)
  | .mk _ starts _ => starts

/-- `list(iter_instructions(co))`. -/
def Code.instrs : Code → List Instr
  | .mk _ _ instrs => instrs

/-- `_Disassembler.__init__` (pydevd_collect_bytecode_info.py 530-547): every instruction's offset
gets the line of the last line start met. -/
def fillLines : List (Nat × Nat) → Nat → List Instr → List (Nat × Nat)
  | d, _, [] => d
  | d, cur, i :: is =>
    match Py.Dict.get d i.offset with
    | some l => fillLines (Py.Dict.set d i.offset l) l is
    | none => fillLines (Py.Dict.set d i.offset cur) cur is

/-- `op_offset_to_line` after `_Disassembler.__init__` (pydevd_collect_bytecode_info.py 530-547). -/
def Code.lines (c : Code) : List (Nat × Nat) := fillLines c.starts c.first c.instrs

/-- `self.op_offset_to_line[instruction.offset]`; every instruction has an entry. -/
def lineOf (lines : List (Nat × Nat)) (i : Instr) : Nat := (Py.Dict.get lines i.offset).getD 0

/-- `BIG_LINE_INT` (pydevd_collect_bytecode_info.py 549). -/
def bigLine : Nat := 9999999

mutual
/-- `min_line` of an argument (pydevd_collect_bytecode_info.py 552-563), where texts have no line.
An instruction given to `min_line` is a named tuple, so `isinstance(arg, (list, tuple))` is true of
it and its fields are looked at, not its offset: only an `argrepr` made of parts has a line. So
`min_line(instruction)` is `instruction.repr.minLine`. -/
def Part.minLine : Part → Nat
  | .text _ => bigLine
  | .many ps => minLines ps
  | .msg l _ => min bigLine l

/-- `min_line(*args)` for parts (pydevd_collect_bytecode_info.py 552-563). -/
def minLines : List Part → Nat
  | [] => bigLine
  | p :: ps => min p.minLine (minLines ps)
end

mutual
/-- `max_line` of the parts of an argument (pydevd_collect_bytecode_info.py 565-576); `none` is
`SMALL_LINE_INT`. -/
def Part.maxLine : Part → Option Nat
  | .text _ => none
  | .many ps => maxLines ps
  | .msg l _ => some l

/-- `max_line(*args)` for parts (pydevd_collect_bytecode_info.py 565-576). -/
def maxLines : List Part → Option Nat
  | [] => none
  | p :: ps => match p.maxLine, maxLines ps with
    | some a, some b => some (max a b)
    | some a, none => some a
    | none, r => r
end

/-- `_decorate_jump_target` (pydevd_collect_bytecode_info.py 718-722). -/
def decorate (i : Instr) (r : Part) : Part :=
  if i.target then .many [.text c!"|", .text (Py.natStr i.offset), .text c!"|", r] else r

/-- The two cuts of the `NULL` marks (pydevd_collect_bytecode_info.py 729-733). -/
def trim (r : Text) : Text :=
  let r := if Py.startsWith r c!"NULL + " then r.drop 7 else r
  if Py.endsWith r c!"+ NULL" then r.take (r.length - 7) else r

/-- The cuts are made in a text only (`isinstance(argrepr, str)`, 730 and 732). -/
def trimPart : Part → Part
  | .text r => .text (trim r)
  | p => p

/-- `_create_msg_part(instruction)` (pydevd_collect_bytecode_info.py 724-734). -/
def msg (lines : List (Nat × Nat)) (i : Instr) : Part := .msg (lineOf lines i) (decorate i (trimPart i.repr))

/-- `_create_msg_part(instruction, tok)` (pydevd_collect_bytecode_info.py 724-734). -/
def msgTok (lines : List (Nat × Nat)) (i : Instr) (tok : Part) : Part := .msg (lineOf lines i) tok

/-- `_create_msg_part(instruction, tok, line=line)` (pydevd_collect_bytecode_info.py 724-734). -/
def msgAt (lines : List (Nat × Nat)) (i : Instr) (tok : Text) (line : Nat) : Part :=
  .msg (if line = bigLine then lineOf lines i else line) (.text tok)

/-- The opnames that `_lookahead` collects (pydevd_collect_bytecode_info.py 585, 757). -/
def isLoad (i : Instr) : Bool :=
  decide (i.op ∈ [c!"LOAD_GLOBAL", c!"LOAD_FAST", c!"LOAD_CONST", c!"LOAD_NAME"])

/-- `opname in ("STORE_FAST", "STORE_NAME")`. -/
def isStore (i : Instr) : Bool := decide (i.op ∈ [c!"STORE_FAST", c!"STORE_NAME"])

/-- What is returned by `_next_instruction_to_str`, with the instructions left. -/
inductive Next where
  /-- a Python exception -/
  | error
  /-- `RESTART_FROM_LOOKAHEAD` -/
  | restart (left : List Instr)
  /-- `None` -/
  | hidden (left : List Instr)
  /-- something to show -/
  | shown (s : Part) (left : List Instr)
  /-- something to show after the contents of a code object have been added -/
  | nested (c : Code) (s : Part) (left : List Instr)

/-- The arguments of a call or a tuple, with commas between them
(pydevd_collect_bytecode_info.py 634-639 and 680-685). Gives the instruction last seen as well. -/
def commas (lines : List (Nat × Nat)) : Instr → Bool → List Instr → List Part × Instr
  | prev, _, [] => ([], prev)
  | prev, begun, a :: as =>
    let r := commas lines a true as
    ((if begun then [msgTok lines prev (.text c!", ")] else []) ++ msg lines a :: r.1, r.2)

/-- The text of a call (pydevd_collect_bytecode_info.py 627-641). -/
def callRepr (lines : List (Nat × Nat)) (f : Instr) (args : List Instr) : List Part :=
  let r := commas lines f false args
  [msg lines f, msgTok lines f (.text c!"(")] ++ r.1 ++ [msgTok lines r.2 (.text c!")")]

/-- The text of a tuple (pydevd_collect_bytecode_info.py 678-687). -/
def tupleRepr (lines : List (Nat × Nat)) (first : Instr) (args : List Instr) : List Part :=
  let r := commas lines first false args
  msgTok lines first (.text c!"(") :: r.1 ++ [msgTok lines r.2 (.text c!")")]

/-- An instruction that stands for what has been put together
(pydevd_collect_bytecode_info.py 599-607, 645-653, 692-700). -/
def merged (i : Instr) (r : List Part) : Instr := .mk i.op i.arg false i.offset (.many r)

/-- A store or a return right after what has been put together (pydevd_collect_bytecode_info.py
708-714). -/
def finishWith (lines : List (Nat × Nat)) (full : List Part) : List Instr → Next
  | [] => .error
  | j :: js =>
    if isStore j then .shown (.many [msg lines j, msgTok lines j (.text c!" = "), .many full]) js
    else if j.op = c!"RETURN_VALUE" then
      .shown (.many [msgAt lines j c!"return " (min j.repr.minLine (minLines full)), .many full]) js
    else .shown (.many full) (j :: js)

/-- The end of `_lookahead` (pydevd_collect_bytecode_info.py 704-716). -/
def finish (lines : List (Nat × Nat)) (full : List Part) : List Instr → Next
  | [] => .shown (.many full) []
  | i :: is => finishWith lines full (if i.op = c!"POP_TOP" then is else i :: is)

/-- `_lookahead` (pydevd_collect_bytecode_info.py 578-716) when `found` are the loads at the front
and `next :: rest` is what follows them. `none` is the Python value `None`. -/
def look (lines : List (Nat × Nat)) (found : List Instr) (next : Instr) (rest : List Instr) : Option Next :=
  if next.op = c!"LOAD_ATTR" then
    match found.getLast? with
    | none => none
    | some prev =>
      some (.restart (found.dropLast ++
        merged prev [msg lines prev, msgTok lines prev (.text c!"."), msg lines next] :: rest))
  else if next.op ∈ [c!"CALL_FUNCTION", c!"PRECALL", c!"CALL"] then
    match next.arg with
    | .num n =>
      if found.length < n + 1 then none
      else
        let delta := found.length - (n + 1)
        match found.drop delta with
        | [] => none
        | f :: args =>
          let full := callRepr lines f args
          let rest := if next.op = c!"PRECALL" then rest.drop 1 else rest
          if found.length = n + 1 then some (finish lines full rest)
          else some (.restart (found.take delta ++ merged f full :: rest))
    | _ => some .error
  else if next.op = c!"BUILD_TUPLE" then
    match next.arg with
    | .num n =>
      if found.length < n then none
      else
        let delta := found.length - n
        let args := found.drop delta
        let first := args.headD next
        let full := tupleRepr lines first args
        if found.length = n then some (finish lines full rest)
        else some (.restart (found.take delta ++ merged first full :: rest))
    | _ => some .error
  else none

/-- `_lookahead` (pydevd_collect_bytecode_info.py 578-716): nothing is done without a load at the
front, nor when only loads are left, since then the instruction looked at is a load. -/
def lookahead (lines : List (Nat × Nat)) (is : List Instr) : Option Next :=
  match is.takeWhile isLoad, is.dropWhile isLoad with
  | [], _ => none
  | _, [] => none
  | f :: fs, n :: rest => look lines (f :: fs) n rest

/-- Whether `instruction.argval` is true, and its text (pydevd_collect_bytecode_info.py 793-801). -/
def Arg.shown : Arg → Option Text
  | .num 0 => none
  | .num n => some (Py.natStr n)
  | .code _ => some c!"<code>"
  | .other true t => some t
  | .other false _ => none

/-- `instruction.argval == n`. -/
def Arg.isNum (n : Nat) : Arg → Bool
  | .num m => m == n
  | _ => false

/-- Whether `instruction.argrepr` is true. -/
def Part.truth : Part → Bool
  | .text s => !s.isEmpty
  | .many ps => !ps.isEmpty
  | .msg _ _ => true

/-- The last part of `_next_instruction_to_str` (pydevd_collect_bytecode_info.py 782-803): an
instruction on its own. -/
def plain (lines : List (Nat × Nat)) (i : Instr) : Part :=
  if i.op = c!"RAISE_VARARGS" ∧ i.arg.isNum 0 = true then
    msgTok lines i (.text c!"raise")
  else if i.op = c!"SETUP_FINALLY" then
    msgTok lines i (.many [.text c!"try(", i.repr, .text c!"):"])
  else if i.repr.truth then
    msgTok lines i (.many [.text i.op, .text c!"(", i.repr, .text c!")"])
  else match i.arg.shown with
    | some t => msgTok lines i (.text (i.op ++ c!"{" ++ t ++ c!"}"))
    | none => msgTok lines i (.text i.op)

/-- A load, after `_lookahead` had nothing to say (pydevd_collect_bytecode_info.py 757-781): a plain
assignment, `return` or `raise`, or the contents of a code object. -/
def load (lines : List (Nat × Nat)) (i : Instr) : List Instr → Next
  | [] => .error
  | n :: rest =>
    if isStore n then .shown (.many [msg lines n, msgTok lines n (.text c!" = "), msg lines i]) rest
    else if n.op = c!"RETURN_VALUE" then
      .shown (.many [msgAt lines i c!"return " i.repr.minLine, msg lines i]) rest
    else if n.op = c!"RAISE_VARARGS" ∧ n.arg.isNum 1 = true then
      .shown (.many [msgAt lines i c!"raise " i.repr.minLine, msg lines i]) rest
    else if i.op = c!"LOAD_CONST" then
      match i.arg with
      | .code c => .nested c (msgTok lines i (.text c!"LOAD_CONST(code)")) (n :: rest)
      | _ => .shown (plain lines i) (n :: rest)
    else .shown (plain lines i) (n :: rest)

/-- `_next_instruction_to_str` (pydevd_collect_bytecode_info.py 736-803) with instructions `i :: is`
left. -/
def next (lines : List (Nat × Nat)) (i : Instr) (is : List Instr) : Next :=
  match lookahead lines (i :: is) with
  | some r => r
  | none =>
    if i.op ∈ [c!"RESUME", c!"NULL"] then .hidden is
    else if i.op = c!"RETURN_CONST" then
      .shown (.many [msgAt lines i c!"return " i.repr.minLine, msg lines i]) is
    else if isLoad i then load lines i is
    else .shown (plain lines i) is

/-- What a line has: texts and separators (`none`), in order. -/
abbrev Contents := List (Nat × List (Option Text))

/-- `line_to_contents.setdefault(line, []).extend(more)`. -/
def addTo (d : Contents) (line : Nat) (more : List (Option Text)) : Contents :=
  Py.Dict.set d line ((Py.Dict.get d line).getD [] ++ more)

mutual
/-- `_MsgPart.add_to_line_to_contents` (pydevd_collect_bytecode_info.py 501-524). The line matters
only for a text; `_next_instruction_to_str` gives no text outside of a `_MsgPart`. -/
def Part.addTo (d : Contents) (line : Nat) : Part → Contents
  | .text s => Disasm.addTo d line [some s]
  | .many ps => addParts d line ps
  | .msg l tok => tok.addTo d l

/-- The loop in `add_to_line_to_contents` (pydevd_collect_bytecode_info.py 503-506). -/
def addParts (d : Contents) (line : Nat) : List Part → Contents
  | [] => d
  | p :: ps => addParts (p.addTo d line) line ps
end

/-- The end of a round of `build_line_to_contents` (pydevd_collect_bytecode_info.py 821-824). -/
def add (d : Contents) (s : Part) : Contents :=
  let d := s.addTo d 0
  match s.maxLine with
  | some m => addTo d m [none]
  | none => d

/-- The contents of a code object put in those of the code that has it
(pydevd_collect_bytecode_info.py 776-780). -/
def mergeIn (d : Contents) : Contents → Contents
  | [] => d
  | (l, cs) :: rest => mergeIn (addTo d l (some c!"    " :: cs)) rest

/-- `build_line_to_contents` (pydevd_collect_bytecode_info.py 805-825) with so many rounds left. -/
def build : Nat → List (Nat × Nat) → List Instr → Contents → Option (Except Unit Contents)
  | 0, _, _, _ => none
  | _ + 1, _, [], d => some (.ok d)
  | n + 1, lines, i :: is, d =>
    match next lines i is with
    | .error => some (.error ())
    | .restart left => build n lines left d
    | .hidden left => build n lines left d
    | .shown s left => build n lines left (add d s)
    | .nested c s left =>
      match build n c.lines c.instrs [] with
      | none => none
      | some (.error e) => some (.error e)
      | some (.ok inner) => build n lines left (add (mergeIn d inner) s)

/-- `sorted(line_to_contents.items())`: the lines are different numbers. -/
def insertLine (e : Nat × List (Option Text)) : Contents → Contents
  | [] => [e]
  | f :: fs => if e.1 ≤ f.1 then e :: f :: fs else f :: insertLine e fs

/-- `sorted(line_to_contents.items())`. -/
def sortLines : Contents → Contents
  | [] => []
  | e :: es => insertLine e (sortLines es)

/-- The texts of a line (pydevd_collect_bytecode_info.py 843-848): a separator at the end is not
written. -/
def render : List (Option Text) → Text
  | [] => []
  | [none] => []
  | none :: cs => c!", " ++ render cs
  | some t :: cs => t ++ render cs

/-- The loop of `disassemble` (pydevd_collect_bytecode_info.py 832-852). -/
def emit (last : Nat) : Contents → Text
  | [] => []
  | (line, cs) :: rest => List.replicate (line - 1 - last) '\n' ++ (render cs ++ '\n' :: emit line rest)

/-- `code_to_bytecode_representation` (pydevd_collect_bytecode_info.py 855-875) with so many rounds. -/
def represent (rounds : Nat) (c : Code) : Option (Except Unit Text) :=
  match build rounds c.lines c.instrs [] with
  | none => none
  | some (.error e) => some (.error e)
  | some (.ok d) => some (.ok (emit 0 (sortLines d)))

/-- `get_decompiled_source_from_frame_id` (pydevd_api.py 800-819): `cached i` is
`linecache.getline(filename, i + 1)`, given here as the list of the lines up to the end. -/
def decompiled (rounds : Nat) (cached : List Text) (c : Code) : Option (Except Unit Text) :=
  let source := (cached.takeWhile (fun l => !l.isEmpty)).flatten
  if source.isEmpty then represent rounds c else some (.ok source)

end Disasm
