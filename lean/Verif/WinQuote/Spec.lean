import Verif.WinQuote.Model
/-!
The standard rules for splitting a Windows command line (Microsoft, "Parsing C command-line arguments" and
`CommandLineToArgvW`), for the arguments after the program name:

* arguments are separated by blanks (spaces and tabs) outside quotes;
* 2N backslashes and a double quote stand for N backslashes, and the quote begins or ends a quoted part; inside a quoted
  part two double quotes in a row stand for one double quote (in newer libraries);
* 2N+1 backslashes and a double quote stand for N backslashes and a double quote;
* backslashes not followed by a double quote stand for themselves.
-/

namespace WinQuote.Spec

def Blank (c : Char) : Prop := c = ' ' ∨ c = '\t'

/-- `Reads p q line arg rest`: reading `line` from inside an argument (`q`: inside quotes), the argument goes on with `arg`
and ends where `rest` is left. The rule of two double quotes in a row holds in newer libraries only: `p` says whether it
does. -/
inductive Reads (p : Bool) : Bool → Str → Str → Str → Prop
  | done (q : Bool) : Reads p q [] [] []
  | blank (c : Char) (l : Str) (h : Blank c) : Reads p false (c :: l) [] (c :: l)
  | char (q : Bool) (c : Char) (l a r : Str) (hs : c ≠ '\\') (hq : c ≠ '"') (hb : q = true ∨ ¬ Blank c) (h : Reads p q l a r) :
      Reads p q (c :: l) (c :: a) r
  | plain (q : Bool) (n : Nat) (l a r : Str) (hs : l.head? ≠ some '\\') (hq : l.head? ≠ some '"') (h : Reads p q l a r) :
      Reads p q (slashes (n + 1) ++ l) (slashes (n + 1) ++ a) r
  | escaped (q : Bool) (n : Nat) (l a r : Str) (h : Reads p q l a r) :
      Reads p q (slashes (2 * n + 1) ++ '"' :: l) (slashes n ++ '"' :: a) r
  | pair (n : Nat) (l a r : Str) (hp : p = true) (h : Reads p true l a r) :
      Reads p true (slashes (2 * n) ++ '"' :: '"' :: l) (slashes n ++ '"' :: a) r
  | toggle (q : Bool) (n : Nat) (l a r : Str) (hp : p = true → q = true → l.head? ≠ some '"') (h : Reads p (!q) l a r) :
      Reads p q (slashes (2 * n) ++ '"' :: l) (slashes n ++ a) r

/-- `Splits p line args`: the arguments of a command line -/
inductive Splits (p : Bool) : Str → List Str → Prop
  | nil (bs : Str) (hb : ∀ c ∈ bs, Blank c) : Splits p bs []
  | cons (bs l a r : Str) (as : List Str) (hb : ∀ c ∈ bs, Blank c) (hne : l ≠ []) (hl : ∀ c, l.head? = some c → ¬ Blank c)
      (h : Reads p false l a r) (hr : Splits p r as) : Splits p (bs ++ l) (a :: as)

/-- the argument ends in a newline with a backslash before it -/
def SlashNewline (a : Str) : Prop := ∃ u, a = u ++ ['\\', '\n']

end WinQuote.Spec
