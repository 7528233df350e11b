import Verif.StackSize.Graph
/-! Lemmas for C92: runs of the code stay within the sizes of the blocks. -/

namespace StackSize

open Bytecode (Lab Arg Instr Item)
open Py (Dict.get Dict.set)

theorem used_of {items : List Item} {p : Nat} {i : Instr} {l : Lab} (h : items[p]? = some (.instr i)) (hl : i.arg = .lab l) :
    used items l = true := by
  unfold used
  rw [List.any_eq_true]
  exact ⟨.instr i, List.mem_of_getElem? h, by simp [target_some.2 hl]⟩

/-- splitting a list at a position -/
theorem split_at {α : Type} {l : List α} {p : Nat} {x : α} (h : l[p]? = some x) : ∃ pre rest, l = pre ++ x :: rest ∧ pre.length = p := by
  have hlt : p < l.length := by
    false_or_by_contra
    rw [List.getElem?_eq_none (by omega)] at h
    cases h
  refine ⟨l.take p, l.drop (p + 1), ?_, by simp; omega⟩
  rw [List.getElem?_eq_getElem hlt, Option.some.injEq] at h
  rw [← h, ← List.drop_eq_getElem_cons hlt, List.take_append_drop]

/-- what the computation has found out about the code -/
structure Found (eff : Eff) (items : List Item) (t : Build) (S : Nat → Int) (n : Int) : Prop where
  loop : buildLoop (used items) {} items = some t
  labels : ∀ pre rest l, items = pre ++ .label l :: rest → .label l ∉ rest
  closed : ∀ c, 0 ≤ S c → Closed eff ⟨t.all, t.labels⟩ ⟨S, n⟩ c

variable {eff : Eff} {items : List Item} {t : Build} {S : Nat → Int} {n : Int}

/-- a run has come to the block under way, and got through its instructions so far -/
def Fall (eff : Eff) (S : Nat → Int) (s : Build) (d : Int) : Prop :=
  0 ≤ S s.done.length ∧ ∃ e, out eff s.cur (some (S s.done.length)) = some e ∧ d ≤ e

theorem fall_close (hf : Found eff items t S n) {s : Build} {d : Int} (h : Fall eff S s d) {b : Bool}
    (he : Ext (s.close b) t) (hb : b = false → ∃ j, s.cur.getLast? = some j ∧ isFinal j = true) : Fall eff S (s.close b) d := by
  obtain ⟨h0, e, h1, h2⟩ := h
  cases b with
  | false =>
    obtain ⟨j, hj, hfin⟩ := hb rfl
    exfalso
    obtain ⟨a, ha⟩ := List.getLast?_eq_some_iff.1 hj
    rw [ha, out_append] at h1
    cases ho : out eff a (some (S s.done.length)) with
    | none => rw [ho] at h1; cases h1
    | some z => rw [ho] at h1; simp [out, afterInstr, hfin] at h1
  | true =>
    obtain ⟨r, hr⟩ := he.done
    have hblk : t.all[s.done.length]? = some ⟨s.cur, some (s.done.length + 1)⟩ := by
      rw [Build.all, ← hr]
      simp [Build.close, List.getElem?_append]
    obtain ⟨_, h4⟩ := hf.closed _ h0 _ hblk
    obtain ⟨h5, h6⟩ := h4 e (s.done.length + 1) h1 rfl
    have hlen : (s.close true).done.length = s.done.length + 1 := by simp [Build.close]
    refine ⟨by rw [hlen]; exact h5, S (s.done.length + 1), by rw [hlen]; rfl, ?_⟩
    exact Int.le_trans h2 h6

theorem fall_settle (hf : Found eff items t S n) {s : Build} {d : Int} (h : Fall eff S s d) (he : Ext s.settle t) : Fall eff S s.settle d := by
  rcases settle_cases s with ⟨hs, ho⟩ | ⟨j, hj, hfin, hs⟩ | ⟨j, hj, hfin, hs⟩
  · rw [hs]; exact h
  · rw [hs] at he ⊢; exact fall_close hf h he (fun _ => ⟨j, hj, hfin⟩)
  · rw [hs] at he ⊢; exact fall_close hf h he (by simp)

/-- a jump arrives at a label -/
def Lands (items : List Item) (t : Build) (S : Nat → Int) (l : Lab) (d : Int) : Prop :=
  used items l = true ∧ ∃ b, Dict.get t.labels l = some b ∧ 0 ≤ S b ∧ d ≤ S b

/-- what is known of a frame during a run -/
structure Sim (eff : Eff) (items : List Item) (t : Build) (S : Nat → Int) (m : Int) (c : Config) : Prop where
  depth : c.depth ≤ m
  blocks : ∀ b ∈ c.blocks, b.2 ≤ m ∧ (∀ (q : Nat), items[q]? = some (Item.label b.1) → Lands items t S b.1 b.2)
  pc : ∀ p, c.pc = some p → ∃ pre rest s, items = pre ++ rest ∧ pre.length = p ∧ buildLoop (used items) {} pre = some s ∧
    (Fall eff S s c.depth ∨ ∃ l rest', rest = .label l :: rest' ∧ Lands items t S l c.depth)

/-- the item at the position, the state of the graph before and after it -/
theorem at_item (hf : Found eff items t S n) {p : Nat} {x : Item} (hx : items[p]? = some x) {pre rest : List Item} {s : Build}
    (h1 : items = pre ++ rest) (h2 : pre.length = p) (h3 : buildLoop (used items) {} pre = some s) :
    ∃ rest' s', rest = x :: rest' ∧ s.item (used items) x = some s' ∧ buildLoop (used items) {} (pre ++ [x]) = some s' ∧
      Ext s' t ∧ items = (pre ++ [x]) ++ rest' := by
  rw [h1, List.getElem?_append_right (by omega), h2, Nat.sub_self] at hx
  cases rest with
  | nil => cases hx
  | cons y rest' =>
    simp only [List.getElem?_cons_zero, Option.some.injEq] at hx
    subst hx
    have hl := hf.loop
    rw [h1, loop_append, ← h1, h3] at hl
    simp only [Option.bind_some, buildLoop] at hl
    cases hi : s.item (used items) y with
    | none => rw [hi] at hl; cases hl
    | some s' =>
      rw [hi] at hl
      refine ⟨rest', s', rfl, rfl, ?_, ext_loop _ _ _ hl, by rw [h1]; simp⟩
      rw [loop_append, h3]
      simp [buildLoop, hi]

theorem lands_at (hf : Found eff items t S n) {l : Lab} {d : Int} (h : Lands items t S l d) {pre rest : List Item} {s s' : Build}
    (h1 : items = pre ++ .label l :: rest) (h3 : buildLoop (used items) {} pre = some s) (h4 : s.item (used items) (.label l) = some s') :
    Fall eff S s' d := by
  obtain ⟨hu, b, hb, h0, hd⟩ := h
  have hl := hf.loop
  rw [h1, loop_append, ← h1, h3] at hl
  simp only [Option.bind_some, buildLoop, h4] at hl
  have := loop_labels rest l (hf.labels pre rest l h1) _ _ hl
  rw [item_label hu h4, hb] at this
  cases this
  have hcur : s'.cur = [] := by
    have h5 := h4
    simp only [Build.item, hu, if_true] at h5
    split at h5
    · -- at the beginning of the code
      rename_i hfst
      cases h5
      simp only
      cases pre with
      | nil => simp only [buildLoop, Option.some.injEq] at h3; rw [← h3]
      | cons y pre =>
        exfalso
        have key : ∀ (xs : List Item) (a b : Build), a.first = false → buildLoop (used items) a xs = some b → b.first = false := by
          intro xs
          induction xs with
          | nil => intro a b ha hb; simp only [buildLoop, Option.some.injEq] at hb; rw [← hb]; exact ha
          | cons z xs ih =>
            intro a b ha hb
            simp only [buildLoop] at hb
            split at hb
            · cases hb
            · rename_i c hc
              refine ih c b ?_ hb
              cases z with
              | instr i => simp only [Build.item, Option.some.injEq] at hc; rw [← hc]
              | label l' =>
                simp only [Build.item] at hc
                split at hc
                · split at hc
                  · cases hc; rfl
                  · split at hc
                    · cases hc
                    · cases hc; exact ha
                · cases hc; rfl
        simp only [buildLoop] at h3
        split at h3
        · cases h3
        · rename_i c hc
          have hcf : c.first = false := by
            cases y with
            | instr i => simp only [Build.item, Option.some.injEq] at hc; rw [← hc]
            | label l' =>
              simp only [Build.item] at hc
              split at hc
              · simp only [if_true] at hc
                cases hc; rfl
              · cases hc; rfl
          have := key pre c s hcf h3
          rw [this] at hfst; cases hfst
    · split at h5
      · cases h5
      · cases h5; rfl
  exact ⟨h0, S s'.done.length, by rw [hcur]; rfl, hd⟩

/-- before an instruction, its block and the conditions its jump and its end meet -/
theorem at_instr (hf : Found eff items t S n) {i : Instr} {s s' : Build} {d : Int} (h : Fall eff S s d)
    (hi : s.item (used items) (.instr i) = some s') (he : Ext s' t) :
    0 ≤ S s'.done.length ∧ ∃ e, d ≤ e ∧ out eff s'.cur (some (S s'.done.length)) = afterInstr eff i e ∧
      (∀ l, i.arg = .lab l → e + eff i.name i.arg true ≤ n ∧ ∃ b, Dict.get t.labels l = some b ∧ 0 ≤ S b ∧ e + eff i.name i.arg true ≤ S b) ∧
      (isUncond i = false → e + eff i.name i.arg false ≤ n) := by
  simp only [Build.item, Option.some.injEq] at hi
  subst hi
  have hse : Ext s.settle t := (ext_of_same rfl (List.prefix_append _ _) : Ext s.settle { s.settle with cur := s.settle.cur ++ [i], first := false }).trans he
  obtain ⟨h0, e, h1, h2⟩ := fall_settle hf h hse
  obtain ⟨_, blk, hblk, suf, hpre⟩ := he
  simp only at hblk hpre h0 ⊢
  obtain ⟨hfl, _⟩ := hf.closed _ h0 blk hblk
  simp only [← hpre] at hfl
  rw [List.append_assoc, flow_append, h1] at hfl
  obtain ⟨_, hj, hB, _⟩ := hfl
  refine ⟨h0, e, h2, ?_, fun l hl => hj l (target_some.2 hl), hB⟩
  rw [out_append, h1]
  rfl

theorem sim_step (hf : Found eff items t S n) {m : Int} (hm : n ≤ m) {c c' : Config} (h : Sim eff items t S m c) (hs : Step eff items c c') :
    Sim eff items t S m c' := by
  obtain ⟨hd, hbl, hpc⟩ := h
  cases hs with
  | @label p l d bs hx =>
    obtain ⟨pre, rest, s, h1, h2, h3, h4⟩ := hpc p rfl
    obtain ⟨rest', s', r1, r2, r3, r4, r5⟩ := at_item hf hx h1 h2 h3
    refine ⟨hd, hbl, ?_⟩
    intro p' hp'
    cases hp'
    refine ⟨_, rest', s', r5, by simp [h2], r3, .inl ?_⟩
    rcases h4 with h4 | ⟨l', rest'', e, h4⟩
    · have r2' := r2
      simp only [Build.item] at r2
      split at r2
      · split at r2
        · cases r2; exact h4
        · split at r2
          · cases r2
          · rename_i j hj
            cases r2
            have : Ext (s.close (!isFinal j)) t :=
              (ext_of_same (s := s.close (!isFinal j)) (t := { s.close (!isFinal j) with labels := Py.Dict.set (s.close (!isFinal j)).labels l (s.close (!isFinal j)).done.length })
                rfl (List.prefix_refl _)).trans r4
            exact fall_close hf h4 this (fun hb => ⟨j, hj, by simpa using hb⟩)
      · cases r2
        have : Ext s.settle t := (ext_of_same rfl (List.prefix_refl _) : Ext s.settle { s.settle with first := false }).trans r4
        exact fall_settle hf h4 this
    · rw [r1] at e
      cases e
      rw [r1] at h1
      exact lands_at hf h4 h1 h3 r2
  | @next p i d bs hx hfin =>
    rw [leaves_eq] at hfin
    obtain ⟨pre, rest, s, h1, h2, h3, h4⟩ := hpc p rfl
    obtain ⟨rest', s', r1, r2, r3, r4, r5⟩ := at_item hf hx h1 h2 h3
    rcases h4 with h4 | ⟨l', rest'', e, h4⟩
    · obtain ⟨q0, e, q1, q2, q3, q4⟩ := at_instr hf h4 r2 r4
      have q4 := q4 (isFinal_uncond hfin)
      have q1 : d ≤ e := q1
      refine ⟨by show d + _ ≤ m; omega, hbl, ?_⟩
      intro p' hp'
      cases hp'
      refine ⟨_, rest', s', r5, by simp [h2], r3, .inl ⟨q0, e + eff i.name i.arg false, by rw [q2]; simp [afterInstr, hfin], ?_⟩⟩
      show d + _ ≤ e + _
      omega
    · rw [r1] at e; cases e
  | @jump p i d bs l q hx hl hns hq =>
    obtain ⟨pre, rest, s, h1, h2, h3, h4⟩ := hpc p rfl
    obtain ⟨rest', s', r1, r2, r3, r4, r5⟩ := at_item hf hx h1 h2 h3
    rcases h4 with h4 | ⟨l', rest'', e, h4⟩
    · obtain ⟨q0, e, q1, q2, q3, q4⟩ := at_instr hf h4 r2 r4
      obtain ⟨q5, b, q6, q7, q8⟩ := q3 l hl
      have q1 : d ≤ e := q1
      refine ⟨by show d + _ ≤ m; omega, hbl, ?_⟩
      intro p' hp'
      cases hp'
      obtain ⟨pre', rest'', h6, h7⟩ := split_at hq
      have : ∃ s'', buildLoop (used items) {} pre' = some s'' := by
        have hlp := hf.loop
        rw [h6, loop_append, ← h6] at hlp
        cases hb : buildLoop (used items) {} pre' with
        | none => rw [hb] at hlp; cases hlp
        | some s'' => exact ⟨s'', rfl⟩
      obtain ⟨s'', h8⟩ := this
      refine ⟨pre', _, s'', h6, h7, h8, .inr ⟨l, rest'', rfl, used_of hx hl, b, q6, q7, ?_⟩⟩
      show d + _ ≤ _
      omega
    · rw [r1] at e; cases e
  | @setup p i d bs l hx hl hset =>
    obtain ⟨pre, rest, s, h1, h2, h3, h4⟩ := hpc p rfl
    obtain ⟨rest', s', r1, r2, r3, r4, r5⟩ := at_item hf hx h1 h2 h3
    rcases h4 with h4 | ⟨l', rest'', e, h4⟩
    · obtain ⟨q0, e, q1, q2, q3, q4⟩ := at_instr hf h4 r2 r4
      obtain ⟨q5, b, q6, q7, q8⟩ := q3 l hl
      have hfin : isFinal i = false := by
        -- none of the instructions that leave is called `SETUP_...`
        cases hfi : isFinal i with
        | false => rfl
        | true =>
          exfalso
          unfold Setup at hset
          simp only [isFinal, isUncond, Bool.or_eq_true, List.contains_iff_mem, List.mem_cons, List.not_mem_nil, or_false, beq_iff_eq] at hfi
          rcases hfi with (e | e | e | e | e) | e | e <;> rw [e] at hset <;> revert hset <;> decide +kernel
      have q4 := q4 (isFinal_uncond hfin)
      have q1 : d ≤ e := q1
      refine ⟨by show d + _ ≤ m; omega, ?_, ?_⟩
      · intro x hx'
        rcases List.mem_cons.1 hx' with e' | hx'
        · subst e'
          refine ⟨by show d + _ ≤ m; omega, fun q _ => ⟨used_of hx hl, b, q6, q7, ?_⟩⟩
          show d + _ ≤ _
          omega
        · exact hbl x hx'
      · intro p' hp'
        cases hp'
        refine ⟨_, rest', s', r5, by simp [h2], r3, .inl ⟨q0, e + eff i.name i.arg false, by rw [q2]; simp [afterInstr, hfin], ?_⟩⟩
        show d + _ ≤ e + _
        omega
    · rw [r1] at e; cases e
  | @unwind p d inner l e outer q hq =>
    obtain ⟨b1, b2⟩ := hbl (l, e) (by simp)
    refine ⟨b1, fun x hx => hbl x (by simp [hx]), ?_⟩
    intro p' hp'
    cases hp'
    obtain ⟨pre', rest'', h6, h7⟩ := split_at hq
    have : ∃ s'', buildLoop (used items) {} pre' = some s'' := by
      have hlp := hf.loop
      rw [h6, loop_append, ← h6] at hlp
      cases hb : buildLoop (used items) {} pre' with
      | none => rw [hb] at hlp; cases hlp
      | some s'' => exact ⟨s'', rfl⟩
    obtain ⟨s'', h8⟩ := this
    exact ⟨pre', _, s'', h6, h7, h8, .inr ⟨l, rest'', rfl, b2 q hq⟩⟩
  | @popBlock p d b bs => exact ⟨hd, fun x hx => hbl x (by simp [hx]), fun p' hp' => hpc p' hp'⟩
  | @leave p i d bs hx hfin hunc =>
    rw [leaves_eq] at hfin
    rw [away_eq] at hunc
    obtain ⟨pre, rest, s, h1, h2, h3, h4⟩ := hpc p rfl
    obtain ⟨rest', s', r1, r2, r3, r4, r5⟩ := at_item hf hx h1 h2 h3
    rcases h4 with h4 | ⟨l', rest'', e, h4⟩
    · obtain ⟨q0, e, q1, q2, q3, q4⟩ := at_instr hf h4 r2 r4
      have q4 := q4 hunc
      have q1 : d ≤ e := q1
      refine ⟨by show d + _ ≤ m; omega, hbl, ?_⟩
      intro p' hp'; cases hp'
    · rw [r1] at e; cases e

/-- what the computation has found, when it has ended -/
theorem found {D : Lab → Option Int} {initial : Int} (hsane : Sane eff) (hn : (labelsOf items).Nodup)
    (hb : Balanced eff D (some initial) items) (h0 : 0 ≤ initial) (h : stackSize eff initial items = some n) :
    ∃ t S, Found eff items t S n ∧ initial ≤ S 0 := by
  unfold stackSize at h
  split at h
  · cases h
  rename_i g hg
  obtain ⟨hsh, HB, hH, k, hk⟩ := graph_heights hb hg
  cases hv : visit eff g (g.blocks.length + 1) [] 0 initial ⟨fun _ => -32768, 0⟩ with
  | none => rw [hv] at h; cases h
  | some s' =>
    rw [hv] at h
    simp only [Option.map_some, Option.some.injEq] at h
    obtain ⟨v1, v2, v3⟩ := visit_spec hsane hsh hH _ [] 0 initial _ s' k hv hk h0 (by intro y hy; cases hy)
      (by intro c hc; simp only at hc; omega)
    unfold fromBytecode at hg
    split at hg
    · cases hg
    cases hl : buildLoop (used items) {} items with
    | none => rw [hl] at hg; cases hg
    | some t =>
      rw [hl] at hg
      simp only [Option.map_some, Option.some.injEq] at hg
      subst hg
      refine ⟨t, s'.start, ⟨hl, ?_, ?_⟩, v2⟩
      · intro pre rest l e hmem
        rw [e, labelsOf, List.filterMap_append, List.nodup_append] at hn
        simp only [List.filterMap_cons, List.nodup_cons] at hn
        exact hn.2.1.1 (List.mem_filterMap.2 ⟨_, hmem, rfl⟩)
      · intro c hc
        have := v3 c hc (by simp)
        rw [← h]
        exact this

theorem sim_reach {initial : Int} (hf : Found eff items t S n) (h0 : 0 ≤ initial) (hi : initial ≤ S 0) {c : Config}
    (h : Reach eff items initial c) : Sim eff items t S (max n initial) c := by
  induction h with
  | start =>
    refine ⟨(by show initial ≤ _; omega), (by intro b hb; cases hb), ?_⟩
    intro p hp
    cases hp
    exact ⟨[], items, {}, rfl, rfl, rfl, .inl ⟨by show 0 ≤ S 0; omega, S 0, rfl, hi⟩⟩
  | step _ hs ih => exact sim_step hf (by omega) ih hs

end StackSize
