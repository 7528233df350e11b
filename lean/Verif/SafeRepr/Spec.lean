import Verif.SafeRepr.Model
/-!
Python's own representation of values, what "within the limits" means, and a bound from the limits.
-/

namespace SafeRepr.Spec

/-- `", ".join(l)` -/
def join : List Str → Str
  | [] => []
  | [x] => x
  | x :: y :: l => x ++ c!", " ++ join (y :: l)

/-- all the values of a list of optional values -/
def all : List (Option Str) → Option (List Str)
  | [] => some []
  | none :: _ => none
  | some x :: l => (all l).map (x :: ·)

/-- Python's `repr(obj)` for values nested less than `n` deep (`none`: deeper). Deques without `maxlen`, ordered dicts as
before Python 3.12. -/
def pyRepr (esc : Char → Str) (heap : Heap) : Nat → Id → Option Str
  | 0, _ => none
  | n + 1, id =>
    match heap id with
    | .coll .list items => (all (items.map (pyRepr esc heap n))).map fun l => c!"[" ++ join l ++ c!"]"
    | .coll .tuple items => (all (items.map (pyRepr esc heap n))).map fun l => c!"(" ++ join l ++ (if l.length = 1 then c!",)" else c!")")
    | .coll .set items => (all (items.map (pyRepr esc heap n))).map fun l => if l = [] then c!"set()" else c!"{" ++ join l ++ c!"}"
    | .coll .frozenset items => (all (items.map (pyRepr esc heap n))).map fun l => if l = [] then c!"frozenset()" else c!"frozenset({" ++ join l ++ c!"})"
    | .coll .deque items => (all (items.map (pyRepr esc heap n))).map fun l => c!"deque([" ++ join l ++ c!"])"
    | .dict false pairs => (all (pairs.map fun p => do some ((← pyRepr esc heap n p.1) ++ c!": " ++ (← pyRepr esc heap n (← p.2))))).map fun l =>
        c!"{" ++ join l ++ c!"}"
    | .dict true pairs => (all (pairs.map fun p => do some (c!"(" ++ (← pyRepr esc heap n p.1) ++ c!", " ++ (← pyRepr esc heap n (← p.2)) ++ c!")"))).map fun l =>
        if l = [] then c!"OrderedDict()" else c!"OrderedDict([" ++ join l ++ c!"])"
    | .text b s => some (pyStr esc b s)
    | .other r _ _ _ => some r

/-- a container of another type that is not too long or too deep -/
def Small (cfg : Cfg) (heap : Heap) : List Nat → Id → Prop
  | [], id => match heap id with
    | .text _ s => s.length ≤ cfg.strInner
    | .coll k _ => k = .deque
    | .dict _ _ => False
    | .other _ iter _ _ => iter = none
  | c :: ls, id => match heap id with
    | .text _ s => s.length ≤ cfg.strInner
    | .coll k items => k = .deque ∨ items.length ≤ c ∧ ∀ x ∈ items, Small cfg heap ls x
    | .dict _ pairs => pairs.length ≤ c ∧ ∀ p ∈ pairs, Small cfg heap ls p.1
    | .other _ none _ _ => True
    | .other _ (some items) _ _ => items.length ≤ c ∧ ∀ x ∈ items, Small cfg heap ls x

/-- the value is within the limits: collections have fewer items than the limit of their level, there are enough
levels, texts are not longer than the limit. The empty set, frozenset and ordered dict are left out. -/
def Fits (cfg : Cfg) (heap : Heap) : List Nat → Bool → Id → Prop
  | [], inner, id => match heap id with
    | .text _ s => s.length ≤ (if inner then cfg.inner else cfg.outer)
    | .coll _ _ => False
    | .dict o pairs => pairs = [] ∧ o = false
    | .other r _ _ _ => Small cfg heap cfg.limits id ∧ r.length ≤ (if inner then cfg.inner else cfg.outer)
  | c :: ls, inner, id => match heap id with
    | .text _ s => s.length ≤ (if inner then cfg.inner else cfg.outer)
    | .coll k items => items.length < c ∧ (items = [] → k ≠ .set ∧ k ≠ .frozenset) ∧ ∀ x ∈ items, Fits cfg heap ls true x
    | .dict o pairs => pairs.length < c ∧ (pairs = [] → o = false) ∧ ∀ p ∈ pairs, Fits cfg heap ls true p.1 ∧ ∃ v, p.2 = some v ∧ Fits cfg heap ls true v
    | .other r _ _ _ => Small cfg heap cfg.limits id ∧ r.length ≤ (if inner then cfg.inner else cfg.outer)

/-- a bound for the length of the text, from the limits and the longest name of a type -/
def bound (cfg : Cfg) (T : Nat) : List Nat → Bool → Nat
  | [], inner => 10 * (if inner then cfg.inner else cfg.outer) + T + 29
  | c :: ls, inner => 10 * (if inner then cfg.inner else cfg.outer) + T + 29 + c * (2 * bound cfg T ls true + 8)

end SafeRepr.Spec
