import Verif.PatchArgs.Model
/-!
Model of where the last `from __future__` import of a code ends.

Source: `/repo/_pydev_bundle/pydev_monkey.py` `_get_offset_from_line_col` (103-112), its use in `_separate_future_imports` (129-142); `str.splitlines`
of Python. What comes after it is `PatchArgs.separateFuture`.

Simplifications: the line (from one) and the column that the parser of Python gives are the arguments; Python 3.8 or later (they are there).
-/

namespace FutureEnd

abbrev Str := List Char

/-- the characters at which `str.splitlines` ends a line, other than CR -/
def isEnd (c : Char) : Bool :=
  c = '\n' || c = '\x0b' || c = '\x0c' || c = '\x1c' || c = '\x1d' || c = '\x1e' || c = '\u0085' || c = '\u2028' || c = '\u2029'

/-- `code.splitlines(True)`: the line that is read, the rest -/
def splitLines (acc : Str) : Str → List Str
  | [] => if acc = [] then [] else [acc.reverse]
  | c :: cs =>
    if c = '\r' then
      match cs with
      | [] => [acc.reverse ++ ['\r']]
      | d :: ds => if d = '\n' then (acc.reverse ++ ['\r', '\n']) :: splitLines [] ds else (acc.reverse ++ ['\r']) :: splitLines [] (d :: ds)
    else if isEnd c then (acc.reverse ++ [c]) :: splitLines [] cs
    else splitLines (c :: acc) cs
termination_by s => s.length

/-- the loop of `_get_offset_from_line_col` (104-112) -/
def offsetLoop (line col : Nat) (i offset : Nat) : List Str → Option Nat
  | [] => none
  | l :: ls => if i = line then some (offset + col) else offsetLoop line col (i + 1) (offset + l.length) ls

/-- `_get_offset_from_line_col` (103-112); `none`: -1 -/
def offsetFrom (code : Str) (line col : Nat) : Option Nat := offsetLoop line col 0 0 (splitLines [] code)

/-- (138-142): what the parser says of the end of the last import, if there is one -/
def futureEnd (parser : Str → Option (Nat × Nat)) (code : Str) : Option Nat := (parser code).bind fun p => offsetFrom code (p.1 - 1) p.2

end FutureEnd
