import Verif.Resolver.Model
/-!
What the user sees after opening every row below a sequence.
-/

namespace Resolver.Spec

open Resolver

/-- opening all the rows: an item stands for itself, the length for nothing, any other row for the rows below it -/
inductive Expand {α : Type} (c : Cfg) (slices : Bool) (l : List α) : List (Row α) → List (Row α) → Prop
  | nil : Expand c slices l [] []
  | item (name : Str) (a : α) (e : Option Str) (rows out : List (Row α)) :
      Expand c slices l rows out → Expand c slices l (⟨name, .elem a, e⟩ :: rows) (⟨name, .elem a, e⟩ :: out)
  | count (name : Str) (n : Nat) (e : Option Str) (rows out : List (Row α)) :
      Expand c slices l rows out → Expand c slices l (⟨name, .count n, e⟩ :: rows) out
  | opened (name : Str) (v : Val α) (e : Option Str) (fuel : Nat) (sub rows out out' : List (Row α)) :
      (∀ a, v ≠ .elem a) → (∀ n, v ≠ .count n) → children c slices fuel l v = some sub → Expand c slices l sub out →
      Expand c slices l rows out' → Expand c slices l (⟨name, v, e⟩ :: rows) (out ++ out')

/-- the value of a hexadecimal digit -/
def hexVal (c : Char) : Nat := if c.toNat < 58 then c.toNat - 48 else c.toNat - 87

/-- a decimal or hexadecimal numeral for `i` -/
def Numeral (s : Str) (i : Nat) : Prop :=
  Py.parseInt s = some (i : Int) ∨ ∃ d, s = c!"0x" ++ d ∧ d.foldl (fun x c => x * 16 + hexVal c) 0 = i

/-- every item once, in order, with its index as the name and `[index]` as the expression -/
def Shows {α : Type} (l : List α) (out : List (Row α)) : Prop :=
  out.map (·.val) = l.map .elem ∧
  ∀ i row, out[i]? = some row → Numeral row.name i ∧ row.evalName = some ('[' :: (Py.natStr i ++ [']']))

end Resolver.Spec
