import Verif.Common.Lit
/-!
Decimal printing (`str(n)`, `"%s" % n`) and parsing (`int(s)`) of Python integers, on ASCII text.

Simplifications: non-ASCII digits and non-ASCII white space, which `int(str)` also accepts, are
treated as invalid.
-/

namespace Py

/-- ASCII white space as removed by `bytes.strip()` and skipped by `int(..)`. -/
def isSpace (c : Char) : Bool :=
  c = ' ' || c = '\t' || c = '\n' || c = '\r' || c.toNat = 11 || c.toNat = 12

def isDigit (c : Char) : Bool := '0'.toNat ≤ c.toNat && c.toNat ≤ '9'.toNat

def digitVal (c : Char) : Nat := c.toNat - '0'.toNat

def digitChar (d : Nat) : Char := Char.ofNat ('0'.toNat + d)

/-- `str(n)` for a non-negative integer. -/
def natStr (n : Nat) : List Char :=
  if n < 10 then [digitChar n] else natStr (n / 10) ++ [digitChar (n % 10)]
termination_by n

/-- `str(i)`. -/
def intStr (i : Int) : List Char :=
  match i with
  | .ofNat n => natStr n
  | .negSucc n => '-' :: natStr (n + 1)

/-- The digits part of `int(s)`: digits with single underscores between digits.
`prev` says whether the previous character was a digit. -/
def parseDigits : List Char → Nat → Bool → Option Nat
  | [], acc, prev => if prev then some acc else none
  | c :: cs, acc, prev =>
    if isDigit c then parseDigits cs (acc * 10 + digitVal c) true
    else if c = '_' && prev then parseDigits cs acc false
    else none

def lstrip (s : List Char) : List Char := s.dropWhile isSpace

def rstrip (s : List Char) : List Char := (s.reverse.dropWhile isSpace).reverse

/-- `s.strip()`. -/
def strip (s : List Char) : List Char := rstrip (lstrip s)

/-- `int(s)`; `none` is `ValueError`. -/
def parseInt (s : List Char) : Option Int :=
  match strip s with
  | '-' :: r => (parseDigits r 0 false).map (fun n => -(n : Int))
  | '+' :: r => (parseDigits r 0 false).map (fun n => (n : Int))
  | r => (parseDigits r 0 false).map (fun n => (n : Int))

/-! ### Lemmas -/

theorem toNat_digitChar {d : Nat} (h : d < 10) : (digitChar d).toNat = 48 + d := by
  unfold digitChar
  have : d = 0 ∨ d = 1 ∨ d = 2 ∨ d = 3 ∨ d = 4 ∨ d = 5 ∨ d = 6 ∨ d = 7 ∨ d = 8 ∨ d = 9 := by omega
  rcases this with h|h|h|h|h|h|h|h|h|h <;> subst h <;> rfl

theorem isDigit_digitChar {d : Nat} (h : d < 10) : isDigit (digitChar d) = true := by
  have h0 : '0'.toNat = 48 := rfl
  have h9 : '9'.toNat = 57 := rfl
  simp [isDigit, toNat_digitChar h, h0, h9]; omega

theorem digitVal_digitChar {d : Nat} (h : d < 10) : digitVal (digitChar d) = d := by
  have h0 : '0'.toNat = 48 := rfl
  simp [digitVal, toNat_digitChar h, h0]

theorem natStr_digits (n : Nat) : ∀ c ∈ natStr n, isDigit c = true := by
  induction n using natStr.induct with
  | case1 n h =>
    rw [natStr, if_pos h]; simp only [List.mem_singleton]; rintro c rfl; exact isDigit_digitChar h
  | case2 n h ih =>
    rw [natStr, if_neg h]
    simp only [List.mem_append, List.mem_singleton]
    rintro c (hc | rfl)
    · exact ih c hc
    · exact isDigit_digitChar (by omega)

theorem natStr_ne_nil (n : Nat) : natStr n ≠ [] := by
  rw [natStr]; split <;> simp

theorem parseDigits_append (a b : List Char) (acc : Nat) (prev : Bool)
    (ha : ∀ c ∈ a, isDigit c = true) :
    parseDigits (a ++ b) acc prev =
      parseDigits b (a.foldl (fun x c => x * 10 + digitVal c) acc) (prev || !a.isEmpty) := by
  induction a generalizing acc prev with
  | nil => simp
  | cons c cs ih =>
    have hc := ha c (by simp)
    simp only [List.cons_append, parseDigits, hc, if_true]
    rw [ih _ _ (fun x hx => ha x (by simp [hx]))]
    simp

theorem natStr_foldl (n : Nat) (acc : Nat) :
    ∃ k, (natStr n).foldl (fun x c => x * 10 + digitVal c) acc = acc * 10 ^ k + n := by
  induction n using natStr.induct generalizing acc with
  | case1 n h =>
    rw [natStr, if_pos h]
    exact ⟨1, by simp [digitVal_digitChar h]⟩
  | case2 n h ih =>
    rw [natStr, if_neg h]
    obtain ⟨k, hk⟩ := ih acc
    refine ⟨k + 1, ?_⟩
    have hd : n % 10 < 10 := by omega
    rw [List.foldl_append, hk]
    simp only [List.foldl_cons, List.foldl_nil, digitVal_digitChar hd]
    rw [Nat.add_mul, Nat.pow_succ, ← Nat.mul_assoc]
    omega

theorem parseDigits_natStr (n : Nat) : parseDigits (natStr n) 0 false = some n := by
  have h := parseDigits_append (natStr n) [] 0 false (natStr_digits n)
  rw [List.append_nil] at h
  obtain ⟨k, hk⟩ := natStr_foldl n 0
  rw [h, hk]
  have : (natStr n).isEmpty = false := by
    cases hh : natStr n with
    | nil => exact absurd hh (natStr_ne_nil n)
    | cons => rfl
  simp [parseDigits, this]

theorem not_isSpace_of_isDigit {c : Char} (h : isDigit c = true) : isSpace c = false := by
  have h0 : '0'.toNat = 48 := rfl
  have h9 : '9'.toNat = 57 := rfl
  have h1 : ' '.toNat = 32 := rfl
  have h2 : '\t'.toNat = 9 := rfl
  have h3 : '\n'.toNat = 10 := rfl
  have h4 : '\r'.toNat = 13 := rfl
  simp only [isDigit, Bool.and_eq_true, decide_eq_true_eq, h0, h9] at h
  have e1 : c ≠ ' ' := by rintro rfl; omega
  have e2 : c ≠ '\t' := by rintro rfl; omega
  have e3 : c ≠ '\n' := by rintro rfl; omega
  have e4 : c ≠ '\r' := by rintro rfl; omega
  have e5 : c.toNat ≠ 11 := by omega
  have e6 : c.toNat ≠ 12 := by omega
  simp [isSpace, e1, e2, e3, e4, e5, e6]

theorem dropWhile_eq_self {α} {p : α → Bool} {s : List α} (h : ∀ c ∈ s, p c = false) :
    s.dropWhile p = s := by
  cases s with
  | nil => rfl
  | cons c cs => simp [List.dropWhile, h c (by simp)]

theorem strip_eq_self {s : List Char} (h : ∀ c ∈ s, isSpace c = false) : strip s = s := by
  unfold strip rstrip lstrip
  rw [dropWhile_eq_self h, dropWhile_eq_self (by simpa using h), List.reverse_reverse]

/-- Stripping removes surrounding white space and nothing else, when the core has none. -/
theorem strip_wrap {a s b : List Char} (ha : ∀ c ∈ a, isSpace c = true)
    (hb : ∀ c ∈ b, isSpace c = true) (hs : ∀ c ∈ s, isSpace c = false) (hne : s ≠ []) :
    strip (a ++ s ++ b) = s := by
  have dropAll : ∀ (l r : List Char), (∀ c ∈ l, isSpace c = true) →
      (l ++ r).dropWhile isSpace = r.dropWhile isSpace := by
    intro l r hl
    induction l with
    | nil => rfl
    | cons c cs ih =>
      simp only [List.cons_append, List.dropWhile, hl c (by simp)]
      exact ih (fun x hx => hl x (by simp [hx]))
  have headKeep : ∀ (l r : List Char), (∀ c ∈ l, isSpace c = false) → l ≠ [] →
      (l ++ r).dropWhile isSpace = l ++ r := by
    intro l r hl hne
    cases l with
    | nil => exact absurd rfl hne
    | cons c cs => simp [hl c (by simp)]
  unfold strip rstrip lstrip
  rw [List.append_assoc, dropAll _ _ ha, headKeep _ _ hs hne, List.reverse_append,
    dropAll _ _ (by simpa using hb), dropWhile_eq_self (by simpa using hs), List.reverse_reverse]

theorem intStr_not_space (i : Int) : ∀ c ∈ intStr i, isSpace c = false := by
  intro c hc
  cases i with
  | ofNat n => exact not_isSpace_of_isDigit (natStr_digits n c hc)
  | negSucc n =>
    simp only [intStr, List.mem_cons] at hc
    rcases hc with rfl | hc
    · decide
    · exact not_isSpace_of_isDigit (natStr_digits _ c hc)

theorem intStr_ne_nil (i : Int) : intStr i ≠ [] := by
  cases i with
  | ofNat n => exact natStr_ne_nil n
  | negSucc n => simp [intStr]

theorem parse_core (i : Int) (s : List Char) (h : strip s = intStr i) : parseInt s = some i := by
  unfold parseInt
  rw [h]
  cases i with
  | ofNat n =>
    simp only [intStr]
    have hd := natStr_digits n
    cases hh : natStr n with
    | nil => exact absurd hh (natStr_ne_nil n)
    | cons c cs =>
      have hc : isDigit c = true := hd c (by simp [hh])
      have e1 : c ≠ '-' := by rintro rfl; exact absurd hc (by decide)
      have e2 : c ≠ '+' := by rintro rfl; exact absurd hc (by decide)
      split
      · simp_all
      · simp_all
      · rw [← hh, parseDigits_natStr]; rfl
  | negSucc n =>
    simp only [intStr, parseDigits_natStr]
    rfl

/-- `int(str(i)) == i`. -/
theorem parseInt_intStr (i : Int) : parseInt (intStr i) = some i :=
  parse_core i _ (strip_eq_self (intStr_not_space i))

/-- `int` ignores surrounding white space. -/
theorem parseInt_wrap {a b : List Char} (i : Int) (ha : ∀ c ∈ a, isSpace c = true)
    (hb : ∀ c ∈ b, isSpace c = true) : parseInt (a ++ intStr i ++ b) = some i :=
  parse_core i _ (strip_wrap ha hb (intStr_not_space i) (intStr_ne_nil i))

end Py
