import Verif.Common.PyInt
import Verif.Common.Slice
import Verif.Common.Split
import Verif.Common.Str
/-!
The items shown when a sequence is expanded: `TupleResolver`, `MoreItems` and `MoreItemsRange` of
`_pydevd_bundle/pydevd_resolver.py`.

Not modelled: the attributes of the object, which are listed before the items, and a sequence that changes while it is shown.
-/

namespace Resolver

abbrev Str := List Char

/-- `PYDEVD_CONTAINER_INITIAL_EXPANDED_ITEMS`, `PYDEVD_CONTAINER_BUCKET_SIZE` (pydevd_constants.py 312-313): any integers -/
structure Cfg where
  initial : Int
  bucket : Int

/-- the value of a row -/
inductive Val (α : Type)
  | elem (a : α)
  /-- `MoreItemsRange(value, from_i, to_i)` -/
  | range (fromI toI : Int)
  /-- `MoreItems(value, handled_items)` -/
  | more (handled : Int)
  /-- the length -/
  | count (n : Nat)
deriving DecidableEq

/-- name, value and the text that makes an expression for it from an expression for the sequence -/
structure Row (α : Type) where
  name : Str
  val : Val α
  evalName : Option Str
deriving DecidableEq

/-- zeros up to the width -/
def zeros (width : Nat) (s : Str) : Str := List.replicate (width - s.length) '0' ++ s

/-- the digits of a number in base 16, as written by `hex()` and `%x` -/
def hexDigit (d : Nat) : Char := if d < 10 then Py.digitChar d else Char.ofNat (87 + d)

def hexStr (n : Nat) : Str := if n < 16 then [hexDigit n] else hexStr (n / 16) ++ [hexDigit (n % 16)]
termination_by n

/-- `"%0" + str(int(len(str(l - 1)))) + "d"` (363, 485, 516) applied to an index -/
def decLabel (len : Nat) (i : Nat) : Str := zeros (Py.intStr ((len : Int) - 1)).length (Py.natStr i)

/-- `"0x%0" + str(int(len(hex(l).lstrip("0x")))) + "x"` (365, 487, 518) applied to an index -/
def hexLabel (len : Nat) (i : Nat) : Str :=
  c!"0x" ++ zeros ((c!"0x" ++ hexStr len).dropWhile fun c => c == '0' || c == 'x').length (hexStr i)

/-- `format_str % i` -/
def label (hex : Bool) (len i : Nat) : Str := if hex then hexLabel len i else decLabel len i

/-- `"[%s]" % i` -/
def evalName (i : Nat) : Str := '[' :: (Py.natStr i ++ [']'])

/-- the loop over the sequence (490-502), from the index `i` -/
def seqLoop {α : Type} (c : Cfg) (hex : Bool) (len : Nat) (i : Nat) : List α → List (Row α)
  | [] => []
  | a :: as =>
    ⟨label hex len i, .elem a, some (evalName i)⟩ ::
      if (i : Int) ≥ c.initial - 1 then
        [⟨c!"more", if (len : Int) - c.initial < c.bucket then .range c.initial len else .more c.initial, none⟩]
      else seqLoop c hex len (i + 1) as

/-- `TupleResolver.get_contents_debug_adapter_protocol` (472-510) -/
def seqContents {α : Type} (c : Cfg) (hex : Bool) (l : List α) : List (Row α) :=
  seqLoop c hex l.length 0 l ++ [⟨c!"len()", .count l.length, none⟩]

/-- the rows of `enumerate(self.value[self.from_i : self.to_i])` (367-369); `i + from_i` for a `from_i` that is not negative -/
def rangeRows {α : Type} (hex : Bool) (len i : Nat) : List α → List (Row α)
  | [] => []
  | a :: as => ⟨label hex len i, .elem a, some (evalName i)⟩ :: rangeRows hex len (i + 1) as

/-- `MoreItemsRange.get_contents_debug_adapter_protocol` (359-370); `none`: `TypeError`, the sequence has no slices (`deque`) -/
def rangeContents {α : Type} (slices : Bool) (hex : Bool) (l : List α) (a b : Int) : Option (List (Row α)) :=
  if slices then some (rangeRows hex l.length a.toNat (Py.slice l a b)) else none

/-- `"[%s:%s]" % (self.from_i, self.to_i)` (389-390) -/
def rangeName (a b : Int) : Str := '[' :: (Py.intStr a ++ ':' :: (Py.intStr b ++ [']']))

/-- the loop of `MoreItems.get_contents_debug_adapter_protocol` (409-415); `none`: it has not ended after so many rounds -/
def bucketLoop {α : Type} (bucket : Int) : Nat → Int → Int → Int → Option (List (Row α))
  | 0, _, _, _ => none
  | fuel + 1, remaining, a, b =>
    if remaining > 0 then
      (bucketLoop bucket fuel (remaining - bucket) b (b + min bucket (remaining - bucket))).map
        (⟨rangeName a b, .range a b, none⟩ :: ·)
    else some []

/-- `MoreItems.get_contents_debug_adapter_protocol` (400-417) -/
def moreContents {α : Type} (c : Cfg) (fuel : Nat) (l : List α) (handled : Int) : Option (List (Row α)) :=
  bucketLoop c.bucket fuel (l.length - handled) handled (handled + min c.bucket (l.length - handled))

/-- the rows below a row. `ForwardInternalResolverToObject` (445-446) passes the format as the first parameter of the method,
which is ignored: below `more` the format is never hexadecimal. -/
def children {α : Type} (c : Cfg) (slices : Bool) (fuel : Nat) (l : List α) : Val α → Option (List (Row α))
  | .range a b => rangeContents slices false l a b
  | .more h => moreContents c fuel l h
  | _ => some []

/-- `TupleResolver.get_dictionary` (512-533), in the order of insertion: as the contents, but always with `MoreItems` -/
def dictLoop {α : Type} (c : Cfg) (len : Nat) (i : Nat) : List α → List (Str × Val α)
  | [] => []
  | a :: as =>
    (decLabel len i, .elem a) ::
      if (i : Int) ≥ c.initial - 1 then [(c!"more", .more c.initial)] else dictLoop c len (i + 1) as

/-- `var[i]` -/
def index {α : Type} (l : List α) (i : Int) : Option α :=
  if i < 0 then (if 0 ≤ i + l.length then l[(i + l.length).toNat]? else none) else l[i.toNat]?

/-- `TupleResolver.resolve` (456-470); `none`: the attribute of the object with that name, or an error -/
def resolve {α : Type} (c : Cfg) (l : List α) (name : Str) : Option (Val α) :=
  match (Py.parseInt name).bind (index l) with
  | some a => some (.elem a)
  | none => if name = c!"more" then some (.more c.initial) else none

/-- `MoreItems.resolve` (425-429); `none`: an exception -/
def resolveMore {α : Type} (name : Str) : Option (Val α) :=
  match Py.split1 ':' ((name.take (name.length - 1)).drop 1) with
  | [a, b] => (Py.parseInt a).bind fun a => (Py.parseInt b).map fun b => .range a b
  | _ => none

/-- `MoreItemsRange.resolve` (378-384) -/
def resolveRange {α : Type} (l : List α) (name : Str) : Option (Val α) := ((Py.parseInt name).bind (index l)).map .elem

end Resolver
