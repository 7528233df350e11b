/-!
Slices of sequences, with Python's rules for bounds.
-/

namespace Py

/-- a bound of a slice -/
def bound (len : Nat) (i : Int) : Nat := if i < 0 then (i + len).toNat else min i.toNat len

/-- `l[a:b]` -/
def slice {α : Type} (l : List α) (a b : Int) : List α := (l.take (bound l.length b)).drop (bound l.length a)

theorem slice_eq {α : Type} (l : List α) (a b : Nat) (hb : b ≤ l.length) (hab : a ≤ b) :
    slice l a b = (l.take b).drop a := by
  unfold slice bound
  rw [if_neg (by omega), if_neg (by omega)]
  simp only [Int.toNat_natCast]
  rw [Nat.min_eq_left hb, Nat.min_eq_left (by omega)]

theorem slice_drop {α : Type} (l : List α) (a b : Nat) (hb : b ≤ l.length) (hab : a ≤ b) :
    slice l a b ++ l.drop b = l.drop a := by
  rw [slice_eq l a b hb hab]
  have : l.drop a = (l.take b ++ l.drop b).drop a := by rw [List.take_append_drop]
  rw [this, List.drop_append_of_le_length (by simp; omega)]

theorem slice_length {α : Type} (l : List α) (a b : Nat) (hb : b ≤ l.length) (hab : a ≤ b) : (slice l a b).length = b - a := by
  rw [slice_eq l a b hb hab]
  simp
  omega

theorem slice_beyond {α : Type} (l : List α) (a : Nat) (b : Int) (ha : l.length ≤ a) : slice l a b = [] := by
  unfold slice
  have : bound l.length (a : Int) = l.length := by unfold bound; rw [if_neg (by omega)]; simp; omega
  rw [this]
  simp only [List.drop_eq_nil_iff, List.length_take]
  omega

end Py
