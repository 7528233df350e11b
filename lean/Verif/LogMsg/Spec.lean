import Verif.LogMsg.Model
/-!
What a log message means: literal text with expressions in braces; and what is assumed of Python's evaluation.
-/

namespace LogMsg.Spec

/-- text whose braces are balanced -/
inductive Balanced : Str → Prop
  | nil : Balanced []
  | char {c s} : c ≠ '{' → c ≠ '}' → Balanced s → Balanced (c :: s)
  | braces {s t} : Balanced s → Balanced t → Balanced ('{' :: s ++ '}' :: t)

inductive Piece
  | text (c : Char)
  | expr (e : Str)

/-- pieces as they may be written: an opening brace always starts an expression -/
def Piece.Ok : Piece → Prop
  | .text c => c ≠ '{'
  | .expr e => Balanced e

def Piece.source : Piece → Str
  | .text c => [c]
  | .expr e => '{' :: e ++ ['}']

/-- the message with these pieces -/
def source (ps : List Piece) : Str := ps.flatMap Piece.source

/-- nothing but whitespace -/
def Blank (e : Str) : Prop := ∀ c ∈ e, isSpace c = true

/-- `fmt % (args...)` with strings as arguments. `none`: raises. Conversions other than `%s` and `%%` are not described. -/
def format : Str → List Str → Option Str
  | [], [] => some []
  | [], _ :: _ => none
  | '%' :: 's' :: f, a :: args => (format f args).map (a ++ ·)
  | '%' :: '%' :: f, args => (format f args).map ('%' :: ·)
  | c :: f, args => if c = '%' then none else (format f args).map (c :: ·)

/-- what is used of Python: `repr` of a text evaluates to the text, and formatting with a tuple formats with the
values of its items, where `values e` are the values the text `e` stands for in a tuple (several if it contains a
comma outside brackets) -/
structure Python where
  repr : Str → Str
  /-- `str(eval(text))` -/
  eval : Str → Option Str
  /-- texts that are expressions (or lists of expressions) -/
  Expr : Str → Prop
  values : Str → List Str
  eval_repr : ∀ s, eval (repr s) = some s
  eval_format : ∀ f es, es ≠ [] → (∀ e ∈ es, Expr e) →
    eval (repr f ++ c!" % (" ++ join c!", " es ++ c!",)") = format f (es.flatMap values)

open Classical in
/-- the text the user expects: each expression replaced by its value, blank ones by nothing -/
noncomputable def expected (value : Str → Str) (ps : List Piece) : Str :=
  ps.flatMap fun p => match p with
    | .text c => [c]
    | .expr e => if Blank e then [] else value (strip e)

end LogMsg.Spec
