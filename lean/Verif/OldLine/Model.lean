import Verif.Common.Lit
/-!
Model of the line of a template at which Django 1.8 or an older one is.

Source: `/repo/pydevd_plugins/django_debug.py` `_offset_to_line_number` (276-292), `_get_template_line` (366-385).

Simplifications: the loop is over what is left of the text, and the offset is counted from there. An exception is `none`.
-/

namespace OldLine

abbrev Str := List Char

/-- the loop (279-290): what is left of the text, how far the offset is, `curLine` -/
def go (rest : Str) (offset : Nat) (curLine : Int) : Option Int :=
  match offset, rest with
  | 0, _ => some curLine
  | _ + 1, [] => some (-1)
  | k + 1, c :: r =>
    if c = '\n' then go r k (curLine + 1)
    else if c = '\r' then
      match r with
      | [] => none
      | d :: r' => if d = '\n' then go r' (k - 1) (curLine + 1) else go (d :: r') k (curLine + 1)
    else go r k curLine
termination_by rest.length

/-- `_offset_to_line_number` (276-292); `none`: `IndexError` -/
def offsetToLine (text : Str) (offset : Nat) : Option Int := go text offset 1

/-- `_get_template_line` (374-385) for the old versions: there is a source with a start, the name of the file and what can be read of it -/
def templateLine (source : Option Nat) (file : Option (Option Str)) : Option Int :=
  match file, source with
  | some (some text), some start => offsetToLine text start
  | _, _ => none

end OldLine
