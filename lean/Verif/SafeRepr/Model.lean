import Verif.Common.PyInt
/-!
Model of the representation of values shown to the user.

Source: `/repo/_pydevd_bundle/pydevd_safe_repr.py` `SafeRepr._repr` (83-113), `_is_long_iter` (117-175), `_repr_iter`
(177-201), `_repr_long_iter` (203-212), `_repr_dict` (214-262), `_repr_str` (264-318), `_repr_obj` (323-366).

Objects live in a heap (any graph, cycles included). Simplifications: `raw_value` and `convert_to_hex` are off; the
`repr()` of an object of another type (or what replaces it when it raises) is an input; so is the escaping of one
character by Python's `repr` of text.
-/

namespace SafeRepr

abbrev Str := List Char
abbrev Id := Nat

/-- the types of `collection_types` (38-49), exact `__repr__` -/
inductive Kind
  | tuple
  | list
  | frozenset
  | set
  | deque
deriving DecidableEq

inductive Obj
  | coll (k : Kind) (items : List Id)
  /-- `dict` or `OrderedDict`; a value is `none` when `obj[key]` raises -/
  | dict (ordered : Bool) (pairs : List (Id × Option Id))
  /-- `str` or `bytes` -/
  | text (bytes : Bool) (s : Str)
  /-- anything else: its `repr()`; its items if it is one of `long_iter_types` and is not excluded by 131-150; the name
  of its type and its length -/
  | other (r : Str) (iter : Option (List Id)) (name : Str) (len : Option Nat)

abbrev Heap := Id → Obj

structure Cfg where
  /-- `maxother_outer`, `maxother_inner` -/
  outer : Nat := 65536
  inner : Nat := 128
  /-- `maxstring_inner` -/
  strInner : Nat := 128
  /-- `maxcollection` -/
  limits : List Nat := [60, 20]
  /-- what Python's `repr` writes for a character inside quotes (other than the quote itself) -/
  esc : Char → Str

def Kind.prefix : Kind → Str
  | .tuple => c!"("
  | .list => c!"["
  | .frozenset => c!"frozenset({"
  | .set => c!"{"
  | .deque => c!"deque(["

def Kind.suffix : Kind → Str
  | .tuple => c!")"
  | .list => c!"]"
  | .frozenset => c!"})"
  | .set => c!"}"
  | .deque => c!"])"

/-- `comma_after_single_element` -/
def Kind.comma : Kind → Bool
  | .tuple => true
  | _ => false

/-- Python's `repr` of text: double quotes when it has single but no double quotes -/
def quoteOf (s : Str) : Char := if '\'' ∈ s ∧ '"' ∉ s then '"' else '\''

def pyStr (esc : Char → Str) (bytes : Bool) (s : Str) : Str :=
  (if bytes then ['b'] else []) ++ quoteOf s ::
    (s.flatMap fun c => if c = '\'' ∧ quoteOf s = '\'' then ['\\', '\''] else esc c) ++ [quoteOf s]

/-- the items `_is_long_iter` looks at, for objects that are not text (127-157); `deque` is not in `long_iter_types` -/
def iterItems : Obj → Option (List Id)
  | .text _ _ => none
  | .coll .deque _ => none
  | .coll _ items => some items
  | .dict _ pairs => some (pairs.map (·.1))
  | .other _ items _ _ => items

/-- text longer than the limit (123-124) -/
def longText (cfg : Cfg) : Obj → Bool
  | .text _ s => s.length > cfg.strInner
  | _ => false

/-- `_is_long_iter` (117-175) with the limits from its level on -/
def isLong (cfg : Cfg) (heap : Heap) : List Nat → Id → Bool
  | [], id => longText cfg (heap id) || (iterItems (heap id)).isSome
  | c :: ls, id =>
    longText cfg (heap id) ||
    match iterItems (heap id) with
    | none => false
    | some items => items.length > c || items.any fun x => isLong cfg heap ls x

/-- `max(1, int(2 * limit / 3))`, `max(1, int(limit / 3))` -/
def leftCount (limit : Nat) : Nat := max 1 (2 * limit / 3)
def rightCount (limit : Nat) : Nat := max 1 (limit / 3)

/-- `obj[-n:]` -/
def lastN (n : Nat) (s : Str) : Str := s.drop (s.length - n)

/-- the text before the last single quote (`part[: part.rindex("'")]`); `none`: it raises -/
def beforeLastQuote (s : Str) : Option Str :=
  if '\'' ∈ s then some ((s.reverse.dropWhile (· ≠ '\'')).drop 1).reverse else none

/-- the text after the first single quote -/
def afterFirstQuote (s : Str) : Option Str :=
  if '\'' ∈ s then some ((s.dropWhile (· ≠ '\'')).drop 1) else none

/-- `_repr_obj` after `repr` (349-366) -/
def cut (limit : Nat) (r : Str) : Str :=
  if r.length ≤ limit then r else r.take (leftCount limit) ++ c!"..." ++ lastN (rightCount limit) r

/-- `_repr_str` (264-318) -/
def reprText (cfg : Cfg) (inner : Bool) (bytes : Bool) (s : Str) : Str :=
  let limit := if inner then cfg.inner else cfg.outer
  if s.length ≤ limit then pyStr cfg.esc bytes s
  else
    match beforeLastQuote (pyStr cfg.esc bytes (s.take (leftCount limit))), afterFirstQuote (pyStr cfg.esc bytes (lastN (rightCount limit) s)) with
    | some part1, some part2 => part1 ++ c!"..." ++ part2
    | _, _ => cut limit (pyStr cfg.esc bytes s)

/-- `_repr_long_iter` (203-212) -/
def reprLong (name : Str) (len : Option Nat) : Str :=
  match len with
  | some n => c!"<" ++ name ++ c!", len() = " ++ Py.natStr n ++ c!">"
  | none => c!"<" ++ name ++ c!">"

/-- `_repr` of objects that are not collections (104-113) -/
def reprOther (cfg : Cfg) (heap : Heap) (inner : Bool) (id : Id) (r name : Str) (len : Option Nat) : Str :=
  if isLong cfg heap cfg.limits id then reprLong name len else cut (if inner then cfg.inner else cfg.outer) r

/-- prefix and suffix of dicts (52-58) -/
def dictPrefix (ordered : Bool) : Str := if ordered then c!"OrderedDict([" else c!"{"
def dictSuffix (ordered : Bool) : Str := if ordered then c!"])" else c!"}"

/-- the loop of `_repr_iter` (184-196): the text and, if it was not left, the remaining count -/
def loop (f : Id → Str) : Nat → Bool → List Id → Str × Option Nat
  | count, _, [] => ([], some count)
  | count, comma, x :: xs =>
    let sep := if comma then c!", " else []
    if count - 1 = 0 then (sep ++ c!"...", none)
    else
      let r := loop f (count - 1) true xs
      (sep ++ f x ++ r.1, r.2)

/-- the value of a dict item, `<?>` when `obj[key]` raises (252-259) -/
def valueText (fv : Id → Str) : Option Id → Str
  | none => c!"<?>"
  | some v => fv v

/-- one item of a dict (245-260) -/
def dictItem (ordered : Bool) (fk : Id → Str) (fv : Id → Str) (p : Id × Option Id) : Str :=
  (if ordered then c!"(" else []) ++ fk p.1 ++ (if ordered then c!", " else c!": ") ++
  valueText fv p.2 ++ (if ordered then c!")" else [])

/-- the loop of `_repr_dict` (234-260) -/
def dictLoop (f : (Id × Option Id) → Str) : Nat → Bool → List (Id × Option Id) → Str
  | _, _, [] => []
  | count, comma, p :: ps =>
    let sep := if comma then c!", " else []
    if count - 1 = 0 then sep ++ c!"..." else sep ++ f p ++ dictLoop f (count - 1) true ps

/-- `_repr` at a level with no limits left -/
def reprDeep (cfg : Cfg) (heap : Heap) (inner : Bool) (id : Id) : Str :=
  match heap id with
  | .coll k _ => k.prefix ++ c!"..." ++ k.suffix
  | .dict o pairs => if pairs = [] then dictPrefix o ++ dictSuffix o else dictPrefix o ++ c!"..." ++ dictSuffix o
  | .text b s => reprText cfg inner b s
  | .other r _ name len => reprOther cfg heap inner id r name len

/-- `_repr` (83-113) with the limits of its level and below; `inner`: the level is not 0 -/
def reprObj (cfg : Cfg) (heap : Heap) : List Nat → Bool → Id → Str
  | [], inner, id => reprDeep cfg heap inner id
  | c :: ls, inner, id =>
    match heap id with
    | .coll k items =>
      let r := loop (fun x => if x = id then reprDeep cfg heap true x else reprObj cfg heap ls true x) c false items
      k.prefix ++ r.1 ++ (if k.comma ∧ r.2.any (fun count => count + 1 = c) then c!"," else []) ++ k.suffix
    | .dict o pairs =>
      if pairs = [] then dictPrefix o ++ dictSuffix o
      else dictPrefix o ++
        dictLoop (dictItem o (reprObj cfg heap ls true) fun v => if v = id then reprDeep cfg heap true v else reprObj cfg heap ls true v) c false pairs ++
        dictSuffix o
    | .text b s => reprText cfg inner b s
    | .other r _ name len => reprOther cfg heap inner id r name len

/-- `SafeRepr()(obj)` (66-81) -/
def safeRepr (cfg : Cfg) (heap : Heap) (id : Id) : Str := reprObj cfg heap cfg.limits false id

end SafeRepr
