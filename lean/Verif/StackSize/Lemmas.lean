import Verif.StackSize.Spec
/-! Lemmas for C92: the sizes the computation leaves behind are closed under the steps of the code. -/

namespace StackSize

open Bytecode (Lab Arg Instr Item)
open Py (Dict.get)

theorem away_eq (i : Instr) : Away i = isUncond i := by
  simp only [Away, isUncond]
  rw [Bool.eq_iff_iff]
  simp

theorem leaves_eq (i : Instr) : Leaves i = isFinal i := by
  simp only [Leaves, isFinal, isUncond]
  rw [Bool.eq_iff_iff]
  simp [or_assoc]

theorem target_some {i : Instr} {l : Lab} : target? i = some l ↔ i.arg = .lab l := by
  unfold target?
  split <;> simp_all

theorem argNum_nonneg (a : Arg) : 0 ≤ argNum a := by
  unfold argNum
  split <;> omega

theorem prePost_sum {eff : Eff} (hs : Sane eff) (i : Instr) (j : Bool) :
    (prePost eff i j).1 + (prePost eff i j).2 = eff i.name i.arg j := by
  unfold prePost
  simp only
  split
  · omega
  split
  · omega
  split
  · omega
  split
  · rename_i h
    simp only [Bool.and_eq_true, beq_iff_eq, Bool.not_eq_true'] at h
    have := hs.forIter i.arg
    rw [h.1, h.2, this]; omega
  split
  · rename_i h; simp only [beq_iff_eq] at h
    rw [h, hs.rotN]; omega
  split
  · rename_i h; simp only [beq_iff_eq] at h
    rw [h, hs.rotTwo]; omega
  split
  · rename_i h; simp only [beq_iff_eq] at h
    rw [h, hs.rotThree]; omega
  split
  · rename_i h; simp only [beq_iff_eq] at h
    rw [h, hs.rotFour]; omega
  · omega

theorem prePost_nonneg {eff : Eff} (hs : Sane eff) (i : Instr) (j : Bool) : 0 ≤ (prePost eff i j).2 := by
  unfold prePost
  simp only
  split
  · rename_i h; have := hs.dup i.name i.arg j h; simp only; omega
  split
  · simp
  split
  · rename_i h; have := hs.unpack i.name i.arg j h; simp only; omega
  split
  · simp
  split
  · exact argNum_nonneg _
  split
  · simp
  split
  · simp
  split
  · simp
  · simp

theorem update_some {s s' : Sizes} {eff : Eff} (hs : Sane eff) {i : Instr} {j : Bool} {size size' : Int}
    (h : s.update (prePost eff i j) size = some (size', s')) :
    size' = size + eff i.name i.arg j ∧ 0 ≤ size' ∧ s'.start = s.start ∧ s.max ≤ s'.max ∧ size' ≤ s'.max ∧
      (s'.max = s.max ∨ s'.max = size') := by
  have h1 := prePost_sum hs i j
  have h2 := prePost_nonneg hs i j
  unfold Sizes.update at h
  split at h
  · cases h
  · rename_i hn
    simp only [Option.some.injEq, Prod.mk.injEq] at h
    obtain ⟨h3, h4⟩ := h
    subst h4
    refine ⟨by omega, by omega, rfl, ?_, ?_, ?_⟩
    · simp only; split <;> omega
    · simp only; split <;> omega
    · simp only; split
      · right; exact h3
      · left; trivial

/-! ### Going through a block -/

/-- the depth after an instruction, if the next one is reached -/
def afterInstr (eff : Eff) (i : Instr) (d : Int) : Option Int := if isFinal i then none else some (d + eff i.name i.arg false)

def out (eff : Eff) : List Instr → Option Int → Option Int
  | [], d => d
  | _ :: rest, none => out eff rest none
  | i :: rest, some d => out eff rest (afterInstr eff i d)

/-- the jumps of a block go where `J` allows, and the depths after its instructions are as `B` allows -/
def Flow (eff : Eff) (J : Lab → Int → Prop) (B : Int → Prop) : List Instr → Option Int → Prop
  | [], _ => True
  | _ :: rest, none => Flow eff J B rest none
  | i :: rest, some d =>
    (∀ l, target? i = some l → J l (d + eff i.name i.arg true)) ∧ (isUncond i = false → B (d + eff i.name i.arg false)) ∧
      Flow eff J B rest (afterInstr eff i d)

theorem flow_none {eff : Eff} {J : Lab → Int → Prop} {B : Int → Prop} (is : List Instr) : Flow eff J B is none := by
  induction is with
  | nil => trivial
  | cons i is ih => exact ih

theorem out_none {eff : Eff} (is : List Instr) : out eff is none = none := by
  induction is with
  | nil => rfl
  | cons i is ih => exact ih

theorem flow_mono {eff : Eff} {J J' : Lab → Int → Prop} {B B' : Int → Prop} (hJ : ∀ l x, J l x → J' l x) (hB : ∀ x, B x → B' x)
    (is : List Instr) : ∀ d, Flow eff J B is d → Flow eff J' B' is d := by
  induction is with
  | nil => intro d _; trivial
  | cons i is ih =>
    intro d h
    cases d with
    | none => exact ih _ h
    | some d => exact ⟨fun l hl => hJ _ _ (h.1 l hl), fun hu => hB _ (h.2.1 hu), ih _ h.2.2⟩

theorem flow_append {eff : Eff} {J : Lab → Int → Prop} {B : Int → Prop} (js is : List Instr) :
    ∀ d, Flow eff J B (is ++ js) d ↔ Flow eff J B is d ∧ Flow eff J B js (out eff is d) := by
  induction is with
  | nil => intro d; simp [out, Flow]
  | cons j is ih =>
    intro d
    cases d with
    | none => simp only [List.cons_append, Flow, out]; exact ih none
    | some d => simp only [List.cons_append, Flow, out, ih]; exact ⟨fun ⟨a, b, c, e⟩ => ⟨⟨a, b, c⟩, e⟩, fun ⟨⟨a, b, c⟩, e⟩ => ⟨a, b, c, e⟩⟩

theorem out_append {eff : Eff} (js is : List Instr) : ∀ d, out eff (is ++ js) d = out eff js (out eff is d) := by
  induction is with
  | nil => intro d; simp [out]
  | cons j is ih =>
    intro d
    cases d with
    | none => simp only [List.cons_append, out]; exact ih none
    | some d => simp only [List.cons_append, out, ih]

/-- only the last instruction of a block jumps or leaves -/
def Straight (is : List Instr) : Prop := ∀ i ∈ is.dropLast, isFinal i = false ∧ target? i = none

theorem straight_cons {i j : Instr} {is : List Instr} (h : Straight (i :: j :: is)) :
    isFinal i = false ∧ target? i = none ∧ Straight (j :: is) := by
  unfold Straight at *
  simp only [List.dropLast_cons₂, List.mem_cons] at h
  exact ⟨(h i (.inl rfl)).1, (h i (.inl rfl)).2, fun k hk => h k (.inr hk)⟩

/-! ### The graph -/

structure Shape (g : Cfg) : Prop where
  straight : ∀ (b : Nat) (blk : Block), g.blocks[b]? = some blk → Straight blk.instrs
  next : ∀ (b : Nat) (blk : Block) (m : Nat), g.blocks[b]? = some blk → blk.next = some m → ∀ i, blk.instrs.getLast? = some i → isFinal i = false

/-- depths for the blocks, as `Balanced` gives -/
structure Heights (eff : Eff) (g : Cfg) (HB : Nat → Option Int) : Prop where
  jump : ∀ (b : Nat) (blk : Block), g.blocks[b]? = some blk →
    Flow eff (fun l x => ∀ t, Dict.get g.labels l = some t → Within (some x) (HB t)) (fun _ => True) blk.instrs (HB b)
  next : ∀ (b : Nat) (blk : Block) (m : Nat), g.blocks[b]? = some blk → blk.next = some m → Within (out eff blk.instrs (HB b)) (HB m)

/-- the sizes of the blocks a block leads to are large enough -/
def Closed (eff : Eff) (g : Cfg) (s : Sizes) (b : Nat) : Prop :=
  ∀ blk, g.blocks[b]? = some blk →
    Flow eff (fun l x => x ≤ s.max ∧ ∃ t, Dict.get g.labels l = some t ∧ 0 ≤ s.start t ∧ x ≤ s.start t) (· ≤ s.max) blk.instrs (some (s.start b)) ∧
      ∀ e m, out eff blk.instrs (some (s.start b)) = some e → blk.next = some m → 0 ≤ s.start m ∧ e ≤ s.start m

/-- sizes only grow -/
structure Grows (seen : List Nat) (s s' : Sizes) : Prop where
  start : ∀ c, s.start c ≤ s'.start c
  max : s.max ≤ s'.max
  fixed : ∀ y ∈ seen, s'.start y = s.start y

theorem Grows.refl (seen : List Nat) (s : Sizes) : Grows seen s s := ⟨fun _ => by omega, by omega, fun _ _ => rfl⟩

theorem Grows.trans {seen : List Nat} {s s' s'' : Sizes} (h : Grows seen s s') (h' : Grows seen s' s'') : Grows seen s s'' :=
  ⟨fun c => by have := h.start c; have := h'.start c; omega, by have := h.max; have := h'.max; omega,
   fun y hy => (h'.fixed y hy).trans (h.fixed y hy)⟩

theorem closed_grows {eff : Eff} {g : Cfg} {s s' : Sizes} {b : Nat} (h : Closed eff g s b) (hg : ∀ c, s.start c ≤ s'.start c)
    (hm : s.max ≤ s'.max) (hb : s'.start b = s.start b) : Closed eff g s' b := by
  intro blk hblk
  obtain ⟨h1, h2⟩ := h blk hblk
  rw [hb]
  refine ⟨flow_mono ?_ ?_ _ _ h1, ?_⟩
  · rintro l x ⟨h3, t, h4, h5, h6⟩
    have := hg t
    exact ⟨by omega, t, h4, by omega, by omega⟩
  · intro x hx; exact Int.le_trans hx hm
  · intro e m he hm'
    have := h2 e m he hm'
    have := hg m
    omega

/-- what is known of the blocks under way -/
def Under (HB : Nat → Option Int) (s : Sizes) (off : Int) (seen : List Nat) : Prop :=
  ∀ y ∈ seen, 0 ≤ s.start y ∧ ∃ k, HB y = some k ∧ off ≤ s.start y - k

def AllClosed (eff : Eff) (g : Cfg) (seen : List Nat) (s : Sizes) : Prop := ∀ c, 0 ≤ s.start c → c ∉ seen → Closed eff g s c

/-- what visiting a block is to do -/
def VisitSpec (eff : Eff) (g : Cfg) (HB : Nat → Option Int) (seen : List Nat) (V : Nat → Int → Sizes → Option Sizes) : Prop :=
  ∀ b size s s' h, V b size s = some s' → HB b = some h → 0 ≤ size → Under HB s (size - h) seen → AllClosed eff g seen s →
    Grows seen s s' ∧ size ≤ s'.start b ∧ AllClosed eff g seen s'

theorem under_grows {HB : Nat → Option Int} {s s' : Sizes} {off off' : Int} {seen : List Nat} (h : Under HB s off seen)
    (hf : ∀ y ∈ seen, s'.start y = s.start y) (ho : off' ≤ off) : Under HB s' off' seen := by
  intro y hy
  obtain ⟨h1, k, h2, h3⟩ := h y hy
  rw [hf y hy]
  exact ⟨h1, k, h2, by omega⟩

theorem allClosed_max {eff : Eff} {g : Cfg} {s s' : Sizes} {seen : List Nat} (h : AllClosed eff g seen s) (hs : s'.start = s.start)
    (hm : s.max ≤ s'.max) : AllClosed eff g seen s' := by
  intro c hc hcs
  rw [hs] at hc
  exact closed_grows (h c hc hcs) (fun c => by rw [hs]; omega) hm (by rw [hs])

/-- the jump of an instruction -/
theorem scan_jump {eff : Eff} (hsane : Sane eff) {g : Cfg} {HB : Nat → Option Int} {seen : List Nat} {V : Nat → Int → Sizes → Option Sizes}
    (hV : VisitSpec eff g HB seen V) {i : Instr} {l : Lab} {size d : Int} {s s1 s2 : Sizes} {taken : Int} {b : Nat}
    (hb : Dict.get g.labels l = some b) (hJ : ∀ t, Dict.get g.labels l = some t → Within (some (d + eff i.name i.arg true)) (HB t))
    (hu : s.update (prePost eff i true) size = some (taken, s1)) (hv : V b taken s1 = some s2)
    (hun : Under HB s (size - d) seen) (hc : AllClosed eff g seen s) :
    Grows seen s s2 ∧ AllClosed eff g seen s2 ∧ size + eff i.name i.arg true ≤ s2.max ∧ 0 ≤ s2.start b ∧
      size + eff i.name i.arg true ≤ s2.start b := by
  obtain ⟨u1, u2, u3, u4, u5, _⟩ := update_some hsane hu
  have hw := hJ b hb
  cases hk : HB b with
  | none => rw [hk] at hw; exact hw.elim
  | some k =>
    rw [hk] at hw
    have hw : d + eff i.name i.arg true ≤ k := hw
    obtain ⟨v1, v2, v3⟩ := hV b taken s1 s2 k hv hk u2
      (under_grows hun (fun y _ => by rw [u3]) (by omega)) (allClosed_max hc u3 u4)
    refine ⟨⟨fun c => by have := v1.start c; rw [u3] at this; exact this, by have := v1.max; omega, fun y hy => ?_⟩, v3, ?_, by omega, by omega⟩
    · rw [v1.fixed y hy, u3]
    · have := v1.max; omega

theorem isFinal_uncond {i : Instr} (h : isFinal i = false) : isUncond i = false := by
  unfold isFinal at h
  simp only [Bool.or_eq_false_iff] at h
  exact h.2

theorem scan_spec {eff : Eff} (hsane : Sane eff) {g : Cfg} {HB : Nat → Option Int} {seen : List Nat} {V : Nat → Int → Sizes → Option Sizes}
    (hV : VisitSpec eff g HB seen V) (is : List Instr) : ∀ (size d : Int) (s s' : Sizes) (r : Option Int), Straight is →
    Flow eff (fun l x => ∀ t, Dict.get g.labels l = some t → Within (some x) (HB t)) (fun _ => True) is (some d) →
    scan eff g.labels V is size s = some (r, s') → 0 ≤ size → Under HB s (size - d) seen → AllClosed eff g seen s →
    Grows seen s s' ∧ AllClosed eff g seen s' ∧
      Flow eff (fun l x => x ≤ s'.max ∧ ∃ t, Dict.get g.labels l = some t ∧ 0 ≤ s'.start t ∧ x ≤ s'.start t) (· ≤ s'.max) is (some size) ∧
      ∀ e, out eff is (some size) = some e → r = some e ∧ 0 ≤ e ∧ out eff is (some d) = some (e - size + d) := by
  induction is with
  | nil =>
    intro size d s s' r _ _ h h0 hun hc
    simp only [scan, Option.some.injEq, Prod.mk.injEq] at h
    obtain ⟨h1, h2⟩ := h
    subst h2
    refine ⟨Grows.refl _ _, hc, trivial, ?_⟩
    intro e he
    simp only [out, Option.some.injEq] at he ⊢
    subst he
    exact ⟨h1.symm, h0, by omega⟩
  | cons i rest ih =>
    intro size d s s' r hst hfl h h0 hun hc
    cases rest with
    | cons j rest =>
      obtain ⟨hf, ht, hst'⟩ := straight_cons hst
      simp only [scan, ht] at h
      split at h
      · cases h
      · rename_i size1 s1 hu
        obtain ⟨u1, u2, u3, u4, u5, _⟩ := update_some hsane hu
        simp only [Flow, afterInstr, hf, Bool.false_eq_true, if_false] at hfl
        have hsub : size1 - (d + eff i.name i.arg false) = size - d := by omega
        obtain ⟨g1, g2, g3, g4⟩ := ih size1 (d + eff i.name i.arg false) s1 s' r hst' hfl.2.2
          (by simp only [scan]; exact h) u2 (under_grows hun (fun y _ => by rw [u3]) (by omega)) (allClosed_max hc u3 u4)
        refine ⟨⟨fun c => by have := g1.start c; rw [u3] at this; exact this, by have := g1.max; omega, fun y hy => by rw [g1.fixed y hy, u3]⟩, g2, ?_, ?_⟩
        · refine ⟨fun l hl => (by rw [ht] at hl; cases hl), fun _ => (by have := g1.max; rw [← u1]; show size1 ≤ s'.max; omega), ?_⟩
          simp only [afterInstr, hf, Bool.false_eq_true, if_false]
          rw [← u1]; exact g3
        · intro e he
          simp only [out, afterInstr, hf, Bool.false_eq_true, if_false] at he ⊢
          rw [← u1] at he
          obtain ⟨k1, k2, k3⟩ := g4 e (by simp only [out, afterInstr]; exact he)
          refine ⟨k1, k2, ?_⟩
          simp only [out, afterInstr] at k3
          rw [k3]; congr 1; omega
    | nil =>
      simp only [Flow] at hfl
      cases ht : target? i with
      | none =>
        simp only [scan, ht] at h
        split at h
        · cases h
        · rename_i size1 s1 hu
          obtain ⟨u1, u2, u3, u4, u5, _⟩ := update_some hsane hu
          simp only [Option.some.injEq, Prod.mk.injEq] at h
          obtain ⟨h1, h2⟩ := h
          subst h2
          refine ⟨⟨fun c => by rw [u3]; omega, u4, fun y _ => by rw [u3]⟩, allClosed_max hc u3 u4, ?_, ?_⟩
          · exact ⟨fun l hl => (by rw [ht] at hl; cases hl), fun _ => (by rw [← u1]; exact u5), trivial⟩
          · intro e he
            simp only [out, afterInstr] at he ⊢
            split at he
            · cases he
            · rename_i hf
              simp only [Option.some.injEq] at he
              subst he
              refine ⟨by rw [← h1, u1], by omega, ?_⟩
              simp only [hf, Bool.false_eq_true, if_false, Option.some.injEq]
              omega
      | some l =>
        simp only [scan, ht] at h
        split at h
        · rename_i taken s1 b hu hb
          split at h
          · cases h
          · rename_i s2 hv
            obtain ⟨j1, j2, j3, j4, j5⟩ := scan_jump hsane hV hb (hfl.1 l ht) hu hv hun hc
            split at h
            · rename_i hunc
              simp only [Option.some.injEq, Prod.mk.injEq] at h
              obtain ⟨h1, h2⟩ := h
              subst h2
              have hf : isFinal i = true := by unfold isFinal; simp [hunc]
              refine ⟨j1, j2, ⟨?_, ?_, ?_⟩, ?_⟩
              · intro l' hl'
                rw [ht] at hl'; cases hl'
                exact ⟨j3, b, hb, j4, j5⟩
              · intro hn; rw [hunc] at hn; cases hn
              · trivial
              · intro e he
                simp [out, afterInstr, hf] at he
            · rename_i hunc
              split at h
              · cases h
              · rename_i size1 s3 hu2
                obtain ⟨u1, u2, u3, u4, u5, _⟩ := update_some hsane hu2
                simp only [Option.some.injEq, Prod.mk.injEq] at h
                obtain ⟨h1, h2⟩ := h
                subst h2
                refine ⟨⟨fun c => by rw [u3]; exact j1.start c, by have := j1.max; omega, fun y hy => by rw [u3]; exact j1.fixed y hy⟩,
                  allClosed_max j2 u3 u4, ⟨?_, ?_, ?_⟩, ?_⟩
                · intro l' hl'
                  rw [ht] at hl'; cases hl'
                  exact ⟨by omega, b, hb, by rw [u3]; exact j4, by rw [u3]; exact j5⟩
                · intro _; rw [← u1]; exact u5
                · trivial
                · intro e he
                  simp only [out, afterInstr] at he ⊢
                  split at he
                  · cases he
                  · rename_i hf
                    simp only [Option.some.injEq] at he
                    subst he
                    refine ⟨by rw [← h1, u1], by omega, ?_⟩
                    simp only [hf, Bool.false_eq_true, if_false, Option.some.injEq]
                    omega
        · cases h

theorem visit_spec {eff : Eff} (hsane : Sane eff) {g : Cfg} (hg : Shape g) {HB : Nat → Option Int} (hH : Heights eff g HB) (fuel : Nat) :
    ∀ seen, VisitSpec eff g HB seen (visit eff g fuel seen) := by
  induction fuel with
  | zero => intro seen b size s s' h hv; cases hv
  | succ fuel ih =>
    intro seen b size s s' h hv hb h0 hun hc
    simp only [visit] at hv
    split at hv
    · rename_i hskip
      cases hv
      refine ⟨Grows.refl _ _, ?_, hc⟩
      simp only [Bool.or_eq_true, List.contains_iff_mem, decide_eq_true_eq] at hskip
      rcases hskip with hm | hm
      · obtain ⟨_, k, h2, h3⟩ := hun b hm
        rw [hb] at h2; cases h2
        omega
      · omega
    · rename_i hskip
      simp only [Bool.or_eq_true, List.contains_iff_mem, decide_eq_true_eq, not_or] at hskip
      obtain ⟨hns, hlt⟩ := hskip
      split at hv
      · cases hv
      rename_i blk hblk
      generalize hs1 : ({ s with start := fun c => if c = b then size else s.start c } : Sizes) = s1 at hv
      have hstart : ∀ c, s.start c ≤ s1.start c := by
        intro c; rw [← hs1]; simp only; split
        · rename_i e; subst e; omega
        · omega
      have hsb : s1.start b = size := by rw [← hs1]; simp
      have hmax : s1.max = s.max := by rw [← hs1]
      have hother : ∀ c, c ≠ b → s1.start c = s.start c := by intro c hcb; rw [← hs1]; simp [hcb]
      have hun1 : Under HB s1 (size - h) (b :: seen) := by
        intro y hy
        rcases List.mem_cons.1 hy with e | hy
        · subst e; exact ⟨by omega, h, hb, by omega⟩
        · obtain ⟨a1, k, a2, a3⟩ := hun y hy
          have : y ≠ b := fun e => hns (e ▸ hy)
          rw [hother y this]
          exact ⟨a1, k, a2, a3⟩
      have hc1 : AllClosed eff g (b :: seen) s1 := by
        intro c hc0 hcs
        simp only [List.mem_cons, not_or] at hcs
        rw [hother c hcs.1] at hc0
        exact closed_grows (hc c hc0 hcs.2) hstart (by omega) (hother c hcs.1)
      have hfl := hH.jump b blk hblk
      rw [hb] at hfl
      have back : ∀ s2 : Sizes, Grows (b :: seen) s1 s2 → AllClosed eff g (b :: seen) s2 → Closed eff g s2 b →
          Grows seen s s2 ∧ size ≤ s2.start b ∧ AllClosed eff g seen s2 := by
        intro s2 gr cl cb
        refine ⟨⟨fun c => ?_, by have := gr.max; omega, fun y hy => ?_⟩, ?_, ?_⟩
        · have := hstart c; have := gr.start c; omega
        · rw [gr.fixed y (by simp [hy]), hother y (fun e => hns (e ▸ hy))]
        · rw [gr.fixed b (by simp), hsb]; omega
        · intro c hc0 hcs
          by_cases hcb : c = b
          · subst hcb; exact cb
          · exact cl c hc0 (by simp [hcb, hcs])
      split at hv
      · cases hv
      · rename_i s2 hscan
        cases hv
        obtain ⟨g1, g2, g3, g4⟩ := scan_spec hsane (ih (b :: seen)) blk.instrs size h s1 s' none (hg.straight b blk hblk) hfl hscan h0 hun1 hc1
        refine back s' g1 g2 ?_
        intro blk' hblk'
        rw [hblk] at hblk'; cases hblk'
        rw [g1.fixed b (by simp), hsb]
        refine ⟨g3, ?_⟩
        intro e m he _
        have := (g4 e he).1; cases this
      · rename_i size2 s2 hscan
        obtain ⟨g1, g2, g3, g4⟩ := scan_spec hsane (ih (b :: seen)) blk.instrs size h s1 s2 (some size2) (hg.straight b blk hblk) hfl hscan h0 hun1 hc1
        split at hv
        · rename_i hnext
          cases hv
          refine back s' g1 g2 ?_
          intro blk' hblk'
          rw [hblk] at hblk'; cases hblk'
          rw [g1.fixed b (by simp), hsb]
          refine ⟨g3, ?_⟩
          intro e m he hm
          rw [hnext] at hm; cases hm
        · rename_i n hnext
          cases hout : out eff blk.instrs (some size) with
          | none =>
            -- a block with a next one does not end with an instruction that leaves
            exfalso
            have hl := hg.next b blk n hblk hnext
            have hst := hg.straight b blk hblk
            have key : ∀ (is : List Instr) (x : Int), Straight is → (∀ i, is.getLast? = some i → isFinal i = false) →
                ∃ e, out eff is (some x) = some e := by
              intro is
              induction is with
              | nil => intro x _ _; exact ⟨x, rfl⟩
              | cons i rest ihr =>
                intro x hst hl
                cases rest with
                | nil => have := hl i rfl; exact ⟨x + eff i.name i.arg false, by simp [out, afterInstr, this]⟩
                | cons j rest =>
                  obtain ⟨q1, q2, q3⟩ := straight_cons hst
                  obtain ⟨e, he⟩ := ihr (x + eff i.name i.arg false) q3 (fun k hk => hl k (by rw [List.getLast?_cons_cons]; exact hk))
                  refine ⟨e, ?_⟩
                  rw [← he]
                  simp only [out, afterInstr, q1, Bool.false_eq_true, if_false]
            obtain ⟨e, he⟩ := key blk.instrs size hst hl
            rw [hout] at he; cases he
          | some e =>
            obtain ⟨k1, k2, k3⟩ := g4 e hout
            obtain rfl := Option.some.inj k1
            have hw := hH.next b blk n hblk hnext
            rw [hb, k3] at hw
            cases hk : HB n with
            | none => rw [hk] at hw; exact hw.elim
            | some k =>
              rw [hk] at hw
              have hw : size2 - size + h ≤ k := hw
              obtain ⟨v1, v2, v3⟩ := ih (b :: seen) n size2 s2 s' k hv hk k2 (under_grows hun1 g1.fixed (by omega)) g2
              refine back s' (g1.trans v1) v3 ?_
              intro blk' hblk'
              rw [hblk] at hblk'; cases hblk'
              rw [v1.fixed b (by simp), g1.fixed b (by simp), hsb]
              refine ⟨flow_mono ?_ ?_ _ _ g3, ?_⟩
              · rintro l x ⟨q1, t, q2, q3, q4⟩
                have := v1.start t; have := v1.max
                exact ⟨by omega, t, q2, by omega, by omega⟩
              · intro x hx; exact Int.le_trans hx v1.max
              · intro e' m he' hm
                rw [hout] at he'; cases he'
                rw [hnext] at hm; cases hm
                exact ⟨by omega, v2⟩

end StackSize
