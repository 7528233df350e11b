import Verif.StackSize.Flat
import Verif.Bytecode.Spec
/-! Lemmas for C92: code stays balanced when breakpoints are put into it. -/

namespace StackSize

open Bytecode (Lab Arg Instr Item Original instructionsToAdd insertLoop withLines insertBreaks fixed Carry Track)

variable {eff : Eff}

/-- depths for the labels the debugger adds -/
def extend (D : Lab → Option Int) (f : Nat → Option Int) : Lab → Option Int
  | .orig n => D (.orig n)
  | .added k => f k

theorem within_refl (a : Option Int) : Within a a := by
  cases a with
  | none => trivial
  | some a => exact Int.le_refl a

theorem balanced_block (ht : Table eff) {D : Lab → Option Int} {k : Nat} {L : Int} {d : Option Int} (hD : D (.added k) = d) {rest : List Item}
    (h : Balanced eff D d rest) : Balanced eff D d (instructionsToAdd k L ++ rest) := by
  have e1 := ht.loadConst
  have e2 := ht.call
  have e3 := ht.popJump
  have e4 := ht.popTop
  have e5 := ht.nop
  cases d with
  | none =>
    simp only [instructionsToAdd, List.cons_append, List.nil_append, Balanced, hD]
    exact ⟨trivial, h⟩
  | some d =>
    have f1 : ∀ a ln, isFinal ⟨"LOAD_CONST", a, ln, none⟩ = false := fun _ _ => by simp [isFinal, isUncond]
    have f2 : ∀ a ln, isFinal ⟨"CALL_FUNCTION", a, ln, none⟩ = false := fun _ _ => by simp [isFinal, isUncond]
    have f3 : ∀ a ln, isFinal ⟨"POP_JUMP_IF_FALSE", a, ln, none⟩ = false := fun _ _ => by simp [isFinal, isUncond]
    have f4 : ∀ a ln, isFinal ⟨"POP_TOP", a, ln, none⟩ = false := fun _ _ => by simp [isFinal, isUncond]
    have f5 : ∀ a ln, isFinal ⟨"NOP", a, ln, none⟩ = false := fun _ _ => by simp [isFinal, isUncond]
    simp only [instructionsToAdd, List.cons_append, List.nil_append, Balanced, leaves_eq, hD, f1, f2, f3, f4, f5, e1, e2, e3, e4, e5, if_false, Bool.false_eq_true]
    refine ⟨by simp, by simp, by simp, ?_, by simp, by simp, by simp, by simp, by simp, ?_, h⟩
    · intro l hl
      simp only [Arg.lab.injEq] at hl
      rw [← hl, hD]
      show d + 1 + 1 + -1 + -1 ≤ d
      omega
    · show d + 1 + 1 + -1 + -1 + 1 + 1 + -1 + -1 + 0 ≤ d
      omega

theorem balanced_loop (ht : Table eff) (D : Lab → Option Int) (track : Track) (lines : List Int) :
    ∀ (r : List Item) (c : Carry) (d : Option Int), Original r → Balanced eff D d r →
      ∃ f : Nat → Option Int, ∀ g : Nat → Option Int, (∀ k, c.fresh ≤ k → g k = f k) → Balanced eff (extend D g) d (insertLoop track lines c r) := by
  intro r
  induction r with
  | nil => intro c d _ _; exact ⟨fun _ => none, fun g _ => by simp [insertLoop, Balanced]⟩
  | cons x r ih =>
    intro c d ho hb
    have hor : Original r := fun y hy => ho y (List.mem_cons_of_mem _ hy)
    cases x with
    | label l =>
      have hl : ∃ n, l = .orig n := by
        have := ho (.label l) (by simp)
        cases l with
        | orig n => exact ⟨n, rfl⟩
        | added k => simp [Bytecode.Item.Original] at this
      obtain ⟨n, rfl⟩ := hl
      obtain ⟨h1, h2⟩ := hb
      obtain ⟨f, hf⟩ := ih { c with prevLabel := true, pred := [] } _ hor h2
      refine ⟨f, fun g hg => ?_⟩
      simp only [insertLoop]
      exact ⟨h1, hf g hg⟩
    | instr i₀ =>
      have hoi := ho (.instr i₀) (by simp)
      have hname : (fixed track c.pred i₀).name = i₀.name := by unfold fixed; split <;> rfl
      have harg : (fixed track c.pred i₀).arg = i₀.arg := by unfold fixed; split <;> rfl
      have hfin : isFinal (fixed track c.pred i₀) = isFinal i₀ := by simp only [isFinal, isUncond, hname]
      -- the instruction itself, and what comes after it
      have step : ∀ (c' : Carry), c.fresh ≤ c'.fresh → ∃ f : Nat → Option Int, ∀ g : Nat → Option Int, (∀ k, c'.fresh ≤ k → g k = f k) →
          (∀ tail, (∀ d', Balanced eff (extend D g) d' (insertLoop track lines c' r) → Balanced eff (extend D g) d' tail) →
            Balanced eff (extend D g) d (.instr (fixed track c.pred i₀) :: tail)) := by
        intro c' _
        cases d with
        | none =>
          obtain ⟨f, hf⟩ := ih c' none hor hb
          exact ⟨f, fun g hg tail ht => ht none (hf g hg)⟩
        | some d =>
          obtain ⟨h1, h2⟩ := hb
          rw [leaves_eq] at h2
          obtain ⟨f, hf⟩ := ih c' _ hor h2
          refine ⟨f, fun g hg tail ht => ?_⟩
          simp only [Balanced, leaves_eq, hname, harg, hfin]
          refine ⟨fun l hl => ?_, ht _ (hf g hg)⟩
          cases l with
          | orig n => exact h1 _ hl
          | added k => exact absurd hl (hoi.2.2.2.2.1 k)
      simp only [insertLoop]
      split
      · obtain ⟨f, hf⟩ := step { c with prevLabel := false, pred := Bytecode.predictTargets (fixed track c.pred i₀).name } (Nat.le_refl _)
        exact ⟨f, fun g hg => hf g hg _ (fun _ h => h)⟩
      · rename_i L hL
        split
        · obtain ⟨f, hf⟩ := step { c with prevLabel := false, pred := Bytecode.predictTargets (fixed track c.pred i₀).name } (Nat.le_refl _)
          exact ⟨f, fun g hg => hf g hg _ (fun _ h => h)⟩
        · split
          · split
            · obtain ⟨f, hf⟩ := step { prevLabel := true, pred := [], last := some L, added := L :: c.added, fresh := c.fresh + 1 } (by simp)
              refine ⟨fun k => if k = c.fresh then d.bind (afterInstr eff (fixed track c.pred i₀)) else f k,
                fun g hg => ?_⟩
              have hg0 := hg c.fresh (Nat.le_refl _)
              simp only [if_true] at hg0
              have hg' : ∀ k, c.fresh + 1 ≤ k → g k = f k := by
                intro k hk
                have := hg k (by omega)
                simpa only [if_neg (show ¬ k = c.fresh by omega)] using this
              have := hf g hg'
              cases d with
              | none =>
                refine balanced_block ht (L := L) (d := none) hg0 ?_
                exact this _ (fun d' h => h)
              | some d =>
                have h3 := this _ (fun d' h => h)
                refine ⟨h3.1, balanced_block ht ?_ h3.2⟩
                rw [leaves_eq]
                exact hg0
            · obtain ⟨f, hf⟩ := step { c with prevLabel := false, pred := Bytecode.predictTargets (fixed track c.pred i₀).name, last := some L, added := L :: c.added, fresh := c.fresh + 1 } (by simp)
              refine ⟨fun k => if k = c.fresh then d else f k, fun g hg => ?_⟩
              have hg0 := hg c.fresh (Nat.le_refl _)
              simp only [if_true] at hg0
              have hg' : ∀ k, c.fresh + 1 ≤ k → g k = f k := by
                intro k hk
                have := hg k (by omega)
                simpa only [if_neg (show ¬ k = c.fresh by omega)] using this
              exact balanced_block ht hg0 (hf g hg' _ (fun _ h => h))
          · obtain ⟨f, hf⟩ := step { c with prevLabel := false, pred := Bytecode.predictTargets (fixed track c.pred i₀).name, last := some L } (Nat.le_refl _)
            exact ⟨f, fun g hg => hf g hg _ (fun _ h => h)⟩

theorem balanced_withLines {D : Lab → Option Int} : ∀ (r : List Item) (cur : Int) (d : Option Int), Balanced eff D d r →
    Balanced eff D d (withLines cur r) := by
  intro r
  induction r with
  | nil => intro cur d h; exact h
  | cons x r ih =>
    intro cur d h
    cases x with
    | label l => exact ⟨h.1, ih _ _ h.2⟩
    | instr i =>
      cases d with
      | none => exact ih _ _ h
      | some d => exact ⟨h.1, ih _ _ h.2⟩

theorem labels_withLines : ∀ (r : List Item) (cur : Int), labelsOf (withLines cur r) = labelsOf r := by
  intro r
  induction r with
  | nil => intro cur; rfl
  | cons x r ih =>
    intro cur
    have := ih
    simp only [labelsOf] at this
    cases x <;> simp [withLines, labelsOf, this]

theorem labels_block (k : Nat) (L : Int) (r : List Item) : labelsOf (instructionsToAdd k L ++ r) = .added k :: labelsOf r := by
  simp [instructionsToAdd, labelsOf]

theorem labels_instr (i : Instr) (r : List Item) : labelsOf (.instr i :: r) = labelsOf r := by
  simp [labelsOf]

theorem labels_label (l : Lab) (r : List Item) : labelsOf (.label l :: r) = l :: labelsOf r := by
  simp [labelsOf]

theorem labels_loop (track : Track) (lines : List Int) : ∀ (r : List Item) (c : Carry), Original r → (labelsOf r).Nodup →
    (labelsOf (insertLoop track lines c r)).Nodup ∧
      ∀ l ∈ labelsOf (insertLoop track lines c r), l ∈ labelsOf r ∨ ∃ k, c.fresh ≤ k ∧ l = .added k := by
  intro r
  induction r with
  | nil => intro c _ _; simp [insertLoop, labelsOf]
  | cons x r ih =>
    intro c ho hn
    have hor : Original r := fun y hy => ho y (List.mem_cons_of_mem _ hy)
    cases x with
    | label l =>
      rw [labels_label, List.nodup_cons] at hn
      obtain ⟨h1, h2⟩ := ih { c with prevLabel := true, pred := [] } hor hn.2
      simp only [insertLoop, labels_label, List.nodup_cons, List.mem_cons]
      refine ⟨⟨fun hl => ?_, h1⟩, ?_⟩
      · rcases h2 l hl with h | ⟨k, _, h⟩
        · exact hn.1 h
        · have := ho (.label l) (by simp)
          rw [h] at this
          simp [Bytecode.Item.Original] at this
      · rintro l' (rfl | hl')
        · exact .inl (.inl rfl)
        · rcases h2 l' hl' with h | h
          · exact .inl (.inr h)
          · exact .inr h
    | instr i₀ =>
      rw [labels_instr] at hn ⊢
      have new : ∀ (c' : Carry), c'.fresh = c.fresh + 1 →
          (Lab.added c.fresh :: labelsOf (insertLoop track lines c' r)).Nodup ∧
          ∀ l ∈ Lab.added c.fresh :: labelsOf (insertLoop track lines c' r), l ∈ labelsOf r ∨ ∃ k, c.fresh ≤ k ∧ l = .added k := by
        intro c' hc
        obtain ⟨h1, h2⟩ := ih c' hor hn
        refine ⟨List.nodup_cons.2 ⟨fun hl => ?_, h1⟩, ?_⟩
        · rcases h2 _ hl with h | ⟨k, hk, h⟩
          · obtain ⟨y, hy, he⟩ := List.mem_filterMap.1 h
            cases y with
            | instr i => cases he
            | label l =>
              cases he
              have := hor _ hy
              simp [Bytecode.Item.Original] at this
          · cases h; omega
        · intro l hl
          rcases List.mem_cons.1 hl with rfl | hl
          · exact .inr ⟨_, Nat.le_refl _, rfl⟩
          · rcases h2 l hl with h | ⟨k, hk, h⟩
            · exact .inl h
            · exact .inr ⟨k, by omega, h⟩
      simp only [insertLoop]
      split
      · rw [labels_instr]; exact ih _ hor hn
      · split
        · rw [labels_instr]; exact ih _ hor hn
        · split
          · split
            · rw [List.cons_append, labels_instr, labels_block]; exact new _ rfl
            · rw [labels_block, labels_instr]; exact new _ rfl
          · rw [labels_instr]; exact ih _ hor hn

theorem inserted_balanced (ht : Table eff) {D : Lab → Option Int} {track : Track} {lines : List Int} {first : Int} {has : Bool}
    {items items' : List Item} {d : Option Int} (ho : Original items) (hn : (labelsOf items).Nodup) (hb : Balanced eff D d items)
    (h : insertBreaks track lines first has items = some items') :
    (labelsOf items').Nodup ∧ ∃ D', Balanced eff D' d items' := by
  unfold insertBreaks at h
  split at h
  · cases h
  split at h
  · cases h
  split at h
  · cases h
  cases h
  obtain ⟨f, hf⟩ := balanced_loop ht D track lines items {} d ho hb
  refine ⟨?_, extend D f, balanced_withLines _ _ _ (hf f (fun _ _ => rfl))⟩
  rw [labels_withLines]
  exact (labels_loop track lines items {} ho hn).1

end StackSize
