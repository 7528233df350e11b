import Verif.Common.Lit
/-!
Python string operations on `List Char`, as used by several models. Comparison of strings is by code
point, lexicographically, like Python's.
-/

namespace Py

/-- `s.startswith(p)` -/
def startsWith (s p : List Char) : Bool := p.isPrefixOf s

/-- `s.endswith(p)` -/
def endsWith (s p : List Char) : Bool := p.isSuffixOf s

/-- `s.find(p)`; `none` stands for -1. -/
def find (p : List Char) : List Char → Option Nat
  | [] => if p = [] then some 0 else none
  | c :: cs => if p.isPrefixOf (c :: cs) then some 0 else (find p cs).map (· + 1)

/-- `p in s` -/
def isIn (p s : List Char) : Bool := (find p s).isSome

/-- `a <= b` for strings. -/
def strLe : List Char → List Char → Bool
  | [], _ => true
  | _ :: _, [] => false
  | a :: as, b :: bs => if a.toNat < b.toNat then true else if a.toNat = b.toNat then strLe as bs else false

/-- `s.replace(pat, new)` for a non-empty `pat`: non-overlapping occurrences from the left. -/
def replaceAll (pat new : List Char) : List Char → List Char
  | [] => []
  | c :: cs =>
    if h : pat ≠ [] ∧ pat.isPrefixOf (c :: cs) then new ++ replaceAll pat new ((c :: cs).drop pat.length)
    else c :: replaceAll pat new cs
termination_by s => s.length
decreasing_by
  · simp only [List.length_drop, List.length_cons]
    have := List.length_pos_iff.2 h.1
    omega
  · simp

theorem replaceAll_nil (pat new : List Char) : replaceAll pat new [] = [] := by rw [replaceAll]

/-- Text without the first character of the pattern is left alone. -/
theorem replaceAll_of_not_mem (p : Char) (pat new s : List Char) (h : p ∉ s) : replaceAll (p :: pat) new s = s := by
  induction s with
  | nil => exact replaceAll_nil _ _
  | cons c cs ih =>
    simp only [List.mem_cons, not_or] at h
    rw [replaceAll, dif_neg (by simp [List.isPrefixOf, h.1]), ih h.2]

/-- An occurrence at the front is replaced. -/
theorem replaceAll_prefix (pat new s : List Char) (h : pat ≠ []) :
    replaceAll pat new (pat ++ s) = new ++ replaceAll pat new s := by
  cases pat with
  | nil => exact absurd rfl h
  | cons p ps =>
    have hp : (p :: ps).isPrefixOf (p :: ps ++ s) = true := by
      rw [List.isPrefixOf_iff_prefix]; exact List.prefix_append _ _
    rw [List.cons_append, replaceAll, dif_pos ⟨h, hp⟩]
    simp

theorem startsWith_iff (s p : List Char) : startsWith s p = true ↔ p <+: s := by
  simp [startsWith]

theorem endsWith_iff (s p : List Char) : endsWith s p = true ↔ p <:+ s := by
  simp [endsWith]

theorem char_toNat_inj {a b : Char} (h : a.toNat = b.toNat) : a = b := by
  exact Char.toNat_inj.1 h

theorem strLe_refl (a : List Char) : strLe a a = true := by
  induction a with
  | nil => rfl
  | cons c cs ih => simp [strLe, ih]

theorem strLe_total (a b : List Char) : strLe a b = true ∨ strLe b a = true := by
  induction a generalizing b with
  | nil => simp [strLe]
  | cons c cs ih =>
    cases b with
    | nil => simp [strLe]
    | cons d ds =>
      simp only [strLe]
      have := ih ds
      grind

theorem strLe_trans (a b c : List Char) (h1 : strLe a b = true) (h2 : strLe b c = true) : strLe a c = true := by
  induction a generalizing b c with
  | nil => simp [strLe]
  | cons x xs ih =>
    cases b with
    | nil => simp [strLe] at h1
    | cons y ys =>
      cases c with
      | nil => simp [strLe] at h2
      | cons z zs =>
        simp only [strLe] at *
        have := ih ys zs
        grind

theorem strLe_antisymm (a b : List Char) (h1 : strLe a b = true) (h2 : strLe b a = true) : a = b := by
  induction a generalizing b with
  | nil => cases b with
    | nil => rfl
    | cons => simp [strLe] at h2
  | cons x xs ih =>
    cases b with
    | nil => simp [strLe] at h1
    | cons y ys =>
      simp only [strLe] at h1 h2
      have hxy : x.toNat = y.toNat := by grind
      rw [char_toNat_inj hxy]
      congr 1
      exact ih ys (by grind) (by grind)

end Py
