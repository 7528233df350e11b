import Verif.Common.Slice
import Verif.Common.Utf8
/-!
Columns of a frame: `_pydevd_bundle/pydevd_frame_utils.py` (108-206) and the part of `make_get_thread_stack_message` that reports
them (`_pydevd_bundle/pydevd_net_command_factory_json.py` 296-309).

The result of Python's parser for a part of a line (`_extract_caret_anchors_in_bytes_from_line_segment`, 175-206) is a parameter.
-/

namespace Columns

abbrev Str := List Char

/-- the number of bytes added for a character (155-167) -/
def width (c : Char) : Nat :=
  1 + if c.toNat ≥ 0x10000 then 3 else if c.toNat ≥ 0x800 then 2 else if c.toNat ≥ 0x80 then 1 else 0

/-- the loop (153-172): `byteOffset` before the character with the index `i`. After the last character the result is one more
than its index, which for an empty text is 1. -/
def loop (offset byteOffset i : Nat) : Str → Nat
  | [] => i
  | c :: cs => if byteOffset + width c > offset then i else loop offset (byteOffset + width c) (i + 1) cs

/-- `_utf8_byte_offset_to_character_offset` (148-172); the offset may be `None` -/
def toChar (s : Str) (offset : Option Nat) : Nat := if s = [] then 1 else loop (offset.getD 0) 0 0 s

/-- `_LineColInfo` (107-112) -/
structure Info where
  lineno : Int
  endLineno : Option Int
  colno : Option Nat
  endColno : Option Nat

/-- `map_columns_to_line` (114-140). `ret[0] + self.colno` fails if `colno` is `None`, which is suppressed. -/
def mapColumns (anchors : Str → Option (Nat × Nat)) (info : Info) (line : Str) : Nat × Nat :=
  let a := toChar line info.colno
  let b := toChar line info.endColno
  if some info.lineno = info.endLineno then
    match anchors (Py.slice line a b), info.colno with
    | some (l, r), some col => (toChar line (some (l + col)), toChar line (some (r + col)))
    | _, _ => (a, b)
  else (a, b)

/-- the column and the end column reported for a frame (296-309). `getline file lineno` is empty if there is no such line.
The line number is the one shown to the client, the file is the one of the program. -/
def reported (anchors : Str → Option (Nat × Nat)) (getline : Str → Int → Str) (file : Str) (lineno : Int) : Option Info → Nat × Option Nat
  | none => (1, none)
  | some info =>
    if getline file lineno = [] then (1, none)
    else
      let (a, b) := mapColumns anchors info (getline file lineno)
      (a + 1, if some info.lineno = info.endLineno then some (b + 1) else none)

end Columns
