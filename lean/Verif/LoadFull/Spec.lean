import Verif.LoadFull.Model
import Verif.VarPath.Spec
/-!
What is asked for.
-/

namespace LoadFull.Spec

open VarPath (World Val Frame)
open VarPath.Spec (Opened Means Name)

/-- the texts, with the separator between them -/
def joined : List Str → Str
  | [] => []
  | [a] => a
  | a :: b :: l => a ++ c!"__pydev_val__" ++ joined (b :: l)

/-- a text that cannot be mistaken when the separator follows -/
def Clean (v : Str) : Prop := ¬ c!"__pydev_val__" <:+: v ++ c!"__pydev_val_"

/-- a row the user sees: the variable, the rows opened below it, and the value it stands for -/
structure Item where
  name : Str
  path : List Str
  root : Nat
  value : Val

/-- the text that asks for it in a frame, and in a console -/
def Item.frameText (i : Item) : Str := Py.join1 '\t' (c!"FRAME" :: i.name :: i.path)
def Item.consoleText (i : Item) : Str := Py.join1 '\t' (i.name :: i.path)

/-- the answers that were given before time was over -/
def InTime {α : Type} (over : Nat → Bool) (all got : List α) : Prop :=
  got <+: all ∧ (∀ i, i < got.length → over i = false) ∧ (got.length < all.length → over got.length = true)

end LoadFull.Spec
