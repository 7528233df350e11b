import Verif.Common.Lit
/-!
How a client reads the messages: the start tag of an XML element (attributes in double quotes, separated by spaces,
the four entities used) and URL unquoting.
-/

namespace Xml.Spec

abbrev Str := List Char

/-- the text of an attribute value; `none`: not well formed -/
def unescape : Str → Option Str
  | [] => some []
  | '&' :: 'a' :: 'm' :: 'p' :: ';' :: r => (unescape r).map ('&' :: ·)
  | '&' :: 'l' :: 't' :: ';' :: r => (unescape r).map ('<' :: ·)
  | '&' :: 'g' :: 't' :: ';' :: r => (unescape r).map ('>' :: ·)
  | '&' :: 'q' :: 'u' :: 'o' :: 't' :: ';' :: r => (unescape r).map ('"' :: ·)
  | c :: r => if c = '&' ∨ c = '<' ∨ c = '"' then none else (unescape r).map (c :: ·)

/-- the text before the first `c`, and the text after it -/
def before (c : Char) : Str → Option (Str × Str)
  | [] => none
  | x :: r => if x = c then some ([], r) else (before c r).map fun p => (x :: p.1, p.2)

def isNameChar (c : Char) : Bool := c.isAlpha

/-- attributes up to the end of the start tag; `fuel` is at least the length of the text -/
def attrs : Nat → Str → Option (List (Str × Str))
  | 0, _ => none
  | fuel + 1, s =>
    match s with
    | '>' :: _ => some []
    | '/' :: '>' :: _ => some []
    | ' ' :: r =>
      match r with
      | ' ' :: _ => attrs fuel r
      | '>' :: _ => some []
      | '/' :: '>' :: _ => some []
      | _ =>
        match before '=' r with
        | some (name, '"' :: r) =>
          if name ≠ [] ∧ name.all isNameChar then
            match before '"' r with
            | some (raw, r) =>
              match unescape raw, attrs fuel r with
              | some v, some rest => some ((name, v) :: rest)
              | _, _ => none
            | none => none
          else none
        | _ => none
    | _ => none

/-- the name and the attributes of a start tag -/
def startTag (s : Str) : Option (Str × List (Str × Str)) :=
  match s with
  | '<' :: r =>
    let name := r.takeWhile isNameChar
    if name = [] then none else (attrs (r.length + 1) (r.drop name.length)).map fun a => (name, a)
  | _ => none

def hexValue (c : Char) : Option Nat :=
  if 48 ≤ c.toNat ∧ c.toNat ≤ 57 then some (c.toNat - 48)
  else if 65 ≤ c.toNat ∧ c.toNat ≤ 70 then some (c.toNat - 55)
  else if 97 ≤ c.toNat ∧ c.toNat ≤ 102 then some (c.toNat - 87)
  else none

/-- URL unquoting, to bytes -/
def unquote : Str → Option (List Nat)
  | [] => some []
  | '%' :: a :: b :: r =>
    match hexValue a, hexValue b, unquote r with
    | some x, some y, some bs => some ((x * 16 + y) :: bs)
    | _, _, _ => none
  | c :: r => if c = '%' ∨ 128 ≤ c.toNat then none else (unquote r).map (c.toNat :: ·)

end Xml.Spec
