import Verif.Common.Lit
/-!
Model of log messages turned into expressions.

Source: `/repo/_pydevd_bundle/pydevd_utils.py` `_extract_variable_nested_braces` (205-216), `_extract_expression_list`
(219-235), `convert_dap_log_message_to_expression` (238-246).

What Python does with the text (`repr`, evaluation) is described in `Spec.lean`.
-/

namespace LogMsg

abbrev Str := List Char

/-- whitespace removed by `str.strip` -/
def isSpace (c : Char) : Bool :=
  let n := c.toNat
  (9 ≤ n && n ≤ 13) || (28 ≤ n && n ≤ 32) || n == 0x85 || n == 0xA0 || n == 0x1680 || (0x2000 ≤ n && n ≤ 0x200A) ||
  n == 0x2028 || n == 0x2029 || n == 0x202F || n == 0x205F || n == 0x3000

def strip (s : Str) : Str := ((s.dropWhile isSpace).reverse.dropWhile isSpace).reverse

/-- the change of `level` (209-212) -/
def levelAfter (c : Char) (level : Int) : Int :=
  let level := if c = '{' then level + 1 else level
  if c = '}' then level - 1 else level

/-- `_extract_variable_nested_braces` (205-216): the expression and what the iterator has left; `none`: `SyntaxError` -/
def nested : Str → Str → Int → Option (Str × Str)
  | [], _, _ => none
  | c :: r, acc, level =>
    if levelAfter c level = -1 then some (strip acc, r) else nested r (acc ++ [c]) (levelAfter c level)

theorem nested_length {s acc : Str} {l : Int} {e r : Str} (h : nested s acc l = some (e, r)) : r.length < s.length := by
  induction s generalizing acc l with
  | nil => simp [nested] at h
  | cons c s ih =>
    simp only [nested] at h
    split at h
    · simp only [Option.some.injEq, Prod.mk.injEq] at h; rw [h.2]; simp
    · have := ih h; simp; omega

/-- `_extract_expression_list` (219-235): the format and the expressions -/
def extract (s : Str) : Option (Str × List Str) :=
  match s with
  | [] => some ([], [])
  | c :: r =>
    if c = '{' then
      match _h : nested r [] 0 with
      | none => none
      | some (e, r') =>
        match extract r' with
        | none => none
        | some (f, es) => if e ≠ [] then some (c!"%s" ++ f, e :: es) else some (f, es)
    else
      match extract r with
      | none => none
      | some (f, es) => some (c :: f, es)
termination_by s.length
decreasing_by
  · have := nested_length _h; simp; omega
  · simp

/-- `sep.join(l)` -/
def join (sep : Str) : List Str → Str
  | [] => []
  | [x] => x
  | x :: y :: l => x ++ sep ++ join sep (y :: l)

/-- `convert_dap_log_message_to_expression` (238-246), for the `repr` of Python -/
def convert (repr : Str → Str) (s : Str) : Str :=
  match extract s with
  | none => repr (c!"Unbalanced braces in: " ++ s)
  | some (f, es) => if es = [] then repr f else repr f ++ c!" % (" ++ join c!", " es ++ c!",)"

end LogMsg
