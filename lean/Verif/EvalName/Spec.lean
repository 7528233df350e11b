import Verif.EvalName.Model
/-!
What an expression of the program means: a small part of Python's grammar and its evaluation in a frame.

The grammar has names, attributes, subscripts, calls of one argument, sums, and literals (integers,
strings, `None`, `True`, `False`, tuples, and numbers such as `.5`).
-/

namespace EvalName

/-! ### Tokens -/

def idStart (c : Char) : Bool := c.isAlpha || c = '_'
def idCont (c : Char) : Bool := idStart c || Py.isDigit c

/-- Python's keywords. -/
def keywords : List Str :=
  [c!"False", c!"None", c!"True", c!"and", c!"as", c!"assert", c!"async", c!"await", c!"break", c!"class",
   c!"continue", c!"def", c!"del", c!"elif", c!"else", c!"except", c!"finally", c!"for", c!"from",
   c!"global", c!"if", c!"import", c!"in", c!"is", c!"lambda", c!"nonlocal", c!"not", c!"or", c!"pass",
   c!"raise", c!"return", c!"try", c!"while", c!"with", c!"yield"]

/-- A name that can be written in an expression (ASCII only). -/
def Ident (s : Str) : Prop :=
  (∃ c r, s = c :: r ∧ idStart c = true) ∧ (∀ c ∈ s, idCont c = true) ∧ s ∉ keywords

instance (s : Str) : Decidable (Ident s) :=
  have : Decidable (∃ c r, s = c :: r ∧ idStart c = true) :=
    match s with
    | [] => .isFalse (by rintro ⟨c, r, h, _⟩; cases h)
    | c :: r => if h : idStart c = true then .isTrue ⟨c, r, rfl, h⟩
        else .isFalse (by rintro ⟨c', r', h', h2⟩; injection h' with h1 h3; subst h1; exact h h2)
  inferInstanceAs (Decidable (_ ∧ _))

/-- The value of a hexadecimal digit. -/
def hexVal (c : Char) : Option Nat :=
  if 48 ≤ c.toNat ∧ c.toNat ≤ 57 then some (c.toNat - 48)
  else if 97 ≤ c.toNat ∧ c.toNat ≤ 102 then some (c.toNat - 87)
  else if 65 ≤ c.toNat ∧ c.toNat ≤ 70 then some (c.toNat - 55)
  else none

/-- Exactly `w` hexadecimal digits, and what follows. -/
def readHex : Nat → Nat → Str → Option (Nat × Str)
  | 0, acc, s => some (acc, s)
  | _ + 1, _, [] => none
  | w + 1, acc, c :: s =>
    match hexVal c with
    | some d => readHex w (acc * 16 + d) s
    | none => none

/-- The character with a code, if there is one. -/
def charOf (n : Nat) : Option Char := if n.isValidChar then some (Char.ofNat n) else none

/-- How many hexadecimal digits follow `\\x`, `\\u` and `\\U`. -/
def hexWidth (c : Char) : Nat := if c = 'x' then 2 else if c = 'u' then 4 else if c = 'U' then 8 else 0

/-- What follows a backslash, and what follows that. -/
def readEscape : Str → Option (Char × Str)
  | [] => none
  | c :: s =>
    if c = '\\' ∨ c = '\'' ∨ c = '"' then some (c, s)
    else if c = 'n' then some ('\n', s)
    else if c = 'r' then some ('\r', s)
    else if c = 't' then some ('\t', s)
    else if hexWidth c = 0 then none
    else match readHex (hexWidth c) 0 s with
      | some (n, r) => (charOf n).map fun x => (x, r)
      | none => none

/-- One character, perhaps escaped, of a string literal quoted with `q`, and what follows. -/
def readChar (q : Char) : Str → Option (Char × Str)
  | [] => none
  | c :: s =>
    if c = '\\' then readEscape s
    else if c = q ∨ c = '\n' ∨ c = '\r' then none
    else some (c, s)

/-- `Body q t s`: the text `t`, which ends with the closing quote `q`, stands for the string `s`. -/
inductive Body (q : Char) : Str → Str → Prop where
  | close : Body q [q] []
  | char {t r : Str} {c : Char} {s : Str} (h : readChar q t = some (c, r)) (hr : Body q r s) : Body q t (c :: s)

/-- The value of a text of decimal digits. -/
def natOf (l : Str) : Nat := l.foldl (fun a c => a * 10 + Py.digitVal c) 0

/-- A decimal integer: digits, with no zero in front of others. -/
def Decimal (t : Str) : Prop :=
  t ≠ [] ∧ (∀ c ∈ t, Py.isDigit c = true) ∧ (t.head? = some '0' → t.length = 1)

mutual
/-- `Lit t k`: the text `t` is a literal for `k`. -/
inductive Lit : Str → Key → Prop where
  | nat {t} (h : Decimal t) : Lit t (.int (natOf t))
  | neg {t} (h : Decimal t) : Lit ('-' :: t) (.int (-(natOf t : Int)))
  | str {q t s} (hq : q = '\'' ∨ q = '"') (h : Body q t s) : Lit (q :: t) (.str s)
  | none : Lit c!"None" .none
  | true : Lit c!"True" (.bool true)
  | false : Lit c!"False" (.bool false)
  | unit : Lit c!"()" (.tuple [])
  | single {t k} (h : Lit t k) : Lit ('(' :: (t ++ c!",)")) (.tuple [k])
  | tuple {t k r k' l} (h : Lit t k) (hr : Rest r (k' :: l)) : Lit ('(' :: (t ++ r)) (.tuple (k :: k' :: l))
/-- The elements of a tuple after the first. -/
inductive Rest : Str → List Key → Prop where
  | close : Rest c!")" []
  | more {t k r l} (h : Lit t k) (hr : Rest r l) : Rest (',' :: ' ' :: (t ++ r)) (k :: l)
end

inductive Expr where
  | name (s : Str)
  | attr (e : Expr) (a : Str)
  | sub (e i : Expr)
  | call (e a : Expr)
  | plus (a b : Expr)
  | lit (k : Key)
  /-- A number such as `.5`, with its digits. -/
  | point (digits : Str)

mutual
/-- `Prim t e`: a name followed by attributes, subscripts and calls. -/
inductive Prim : Str → Expr → Prop where
  | name {s} (h : Ident s) : Prim s (.name s)
  | attr {t e a} (h : Prim t e) (ha : Ident a) : Prim (t ++ '.' :: a) (.attr e a)
  | sub {t e u i} (h : Prim t e) (hi : Means u i) : Prim (t ++ '[' :: (u ++ c!"]")) (.sub e i)
  | call {t e u i} (h : Prim t e) (hi : Means u i) : Prim (t ++ '(' :: (u ++ c!")")) (.call e i)
/-- `Means t e`: the text `t` is the expression `e`.  Subscripts bind tighter than sums. -/
inductive Means : Str → Expr → Prop where
  | prim {t e} (h : Prim t e) : Means t e
  | lit {t k} (h : Lit t k) : Means t (.lit k)
  | point {t} (hne : t ≠ []) (h : ∀ c ∈ t, Py.isDigit c = true) : Means ('.' :: t) (.point t)
  | plus {t e u i} (h : Means t e) (hi : Prim u i) : Means (t ++ c!" + " ++ u) (.plus e i)
end

/-! ### Evaluation -/

/-- What an expression can evaluate to. -/
inductive Res where
  | obj (n : Nat)
  | num (n : Nat)
  | key (k : Key)
  | point (digits : Str)
  | lenFn

mutual
/-- Keys are looked up by equality: `True` is `1`. -/
def Key.norm : Key → Key
  | .bool b => .int (if b then 1 else 0)
  | .tuple l => .tuple (normAll l)
  | k => k
def normAll : List Key → List Key
  | [] => []
  | k :: l => k.norm :: normAll l
end

mutual
def Key.same : Key → Key → Bool
  | .int a, .int b => a = b
  | .str a, .str b => a = b
  | .none, .none => true
  | .bool a, .bool b => a = b
  | .tuple a, .tuple b => sameAll a b
  | .other _ _ a, .other _ _ b => a = b
  | _, _ => false
def sameAll : List Key → List Key → Bool
  | [], [] => true
  | a :: l, b :: m => a.same b && sameAll l m
  | _, _ => false
end

def lookup (items : List (Key × Nat)) (k : Key) : Option Nat :=
  (items.find? fun x => x.1.norm.same k.norm).map (·.2)

/-- `lst[i]`. -/
def index (items : List Nat) (i : Int) : Option Nat :=
  if 0 ≤ i then items[i.toNat]?
  else if -i ≤ items.length then items[(items.length - (-i).toNat)]?
  else none

/-- `a[b]`. -/
def subscript (w : World) (n : Nat) (k : Key) : Option Res :=
  match (w.obj n).kind with
  | .dict items => (lookup items k).map .obj
  | .seq items =>
    match k.norm with
    | .int i => (index items i).map .obj
    | _ => none
  | _ => none

/-- `len(a)`. -/
def lenOf (w : World) (n : Nat) : Option Res :=
  match (w.obj n).kind with
  | .dict items => some (.num items.length)
  | .seq items => some (.num items.length)
  | .set items => some (.num items.length)
  | _ => none

/-- A name in a frame. -/
def nameIn (f : Frame) (s : Str) : Option Res :=
  match Py.Dict.get f.locals s with
  | some n => some (.obj n)
  | none =>
    match Py.Dict.get f.globals s with
    | some n => some (.obj n)
    | none => if s = c!"len" then some .lenFn else none

/-- The value of an expression in a frame; `none` is an exception. -/
def value (w : World) (f : Frame) : Expr → Option Res
  | .name s => nameIn f s
  | .attr e a =>
    match value w f e with
    | some (.obj n) => ((w.obj n).get a).map .obj
    | _ => none
  | .sub e i =>
    match value w f e, value w f i with
    | some (.obj n), some (.key k) => subscript w n k
    | some (.obj n), some (.obj m) =>
      match w.keyOf m with
      | some k => subscript w n k
      | none => none
    | _, _ => none
  | .call e a =>
    match value w f e, value w f a with
    | some .lenFn, some (.obj n) => lenOf w n
    | _, _ => none
  | .plus a b =>
    match value w f a, value w f b with
    | some (.obj n), some (.obj m) => (w.plus n m).map .obj
    | _, _ => none
  | .lit k => some (.key k)
  | .point d => some (.point d)

/-! ### What is claimed -/

/-- `Gives w f t r`: the text is an expression, it can be read in one way only, and its value in the
frame is `r` (`none`: it raises). -/
def Gives (w : World) (f : Frame) (t : Str) (r : Option Res) : Prop :=
  ∃ e, Means t e ∧ (∀ e', Means t e' → e' = e) ∧ value w f e = r

/-- The text is no expression at all (of the grammar). -/
def NoExpr (t : Str) : Prop := ∀ e, ¬ Means t e

mutual
/-- Keys made of integers, strings, `None`, booleans and tuples of those. -/
def Key.Readable : Key → Prop
  | .tuple l => ReadableAll l
  | .other _ _ _ => False
  | _ => True
def ReadableAll : List Key → Prop
  | [] => True
  | k :: l => k.Readable ∧ ReadableAll l
end

mutual
/-- Keys that are, or are tuples with somewhere in them, an object of no basic type. -/
inductive Opaque : Key → Prop where
  | here (t : Str) (id : Nat) : Opaque (.other false t id)
  | tuple {l : List Key} (h : OpaqueIn l) : Opaque (.tuple l)
inductive OpaqueIn : List Key → Prop where
  | head {k : Key} {l : List Key} (h : Opaque k) : OpaqueIn (k :: l)
  | tail {k : Key} {l : List Key} (h : OpaqueIn l) : OpaqueIn (k :: l)
end

/-- The dictionaries of the program have no key twice. -/
def World.Ok (w : World) : Prop :=
  ∀ n items, (w.obj n).kind = .dict items →
    items.Pairwise fun a b => a.1.norm.same b.1.norm = false

/-- The rows for which the claim is made: attributes with a name that can be written, keys that are made of
integers, strings, `None`, booleans and tuples, indices, and "len()" where `len` is the builtin function. -/
def Via.Fair (f : Frame) : Via → Prop
  | .attr a => Ident a
  | .dictAttr _ => False
  | .key k => k.Readable
  | .index _ => True
  | .len => nameIn f c!"len" = some .lenFn
  | .nothing => True

/-- The dictionary has strings for keys only (the one of returned values: the names of functions). -/
def StrKeys (w : World) (n : Nat) : Prop :=
  ∀ items, (w.obj n).kind = .dict items → ∀ x ∈ items, ∃ s, x.1 = .str s

/-- The names of the variables of a frame are different. -/
def Frame.Ok (f : Frame) : Prop := Py.Dict.Ok f.locals ∧ Py.Dict.Ok f.globals

/-- The variables a client can get: the variables of a frame with a name that can be written and that
is not hidden by a local of the same name, the values returned by functions, results of evaluating a name
with attributes, subscripts and calls after it, and what is shown when any of them is expanded. -/
inductive Shown (w : World) (g : Groups) (lim : Limits) (f : Frame) : Var → Prop where
  | frame {s : Scope} {v : Var} {x : Str} {n : Nat} (h : v ∈ frameVars w g f s) (hx : (x, n) ∈ f.dict s)
      (hv : v ∈ rowVars w ⟨x, .obj n, .nothing⟩) (hid : Ident x)
      (hs : s = .globals → Py.Dict.get f.locals x = none) (hr : x = retDict → StrKeys w n) :
      Shown w g lim f v
  | result {t : Str} {e : Expr} {n : Nat} (h : Prim t e) (hv : value w f e = some (.obj n)) :
      Shown w g lim f (resultVar t n)
  | child {v : Var} {r : Row} (h : Shown w g lim f v) (hr : r ∈ grouped g v.val (contents w lim v.val))
      (hf : r.via.Fair f) : Shown w g lim f (childVar w v r)

/-- What evaluating the expression of a variable has to give: the value that is shown; where the value
shown is the traceback of a failed attribute, the failure. -/
def Val.shown : Val → Option Res
  | .obj n => some (.obj n)
  | .num n => some (.num n)
  | _ => none

end EvalName
