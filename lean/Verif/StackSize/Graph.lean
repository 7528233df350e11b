import Verif.StackSize.Lemmas
/-! Lemmas for C92: the graph corresponds to the code. -/

namespace StackSize

open Bytecode (Lab Arg Instr Item)
open Py (Dict.get Dict.set)

/-- a last instruction that neither jumps nor leaves -/
def Open (is : List Instr) : Prop := ∀ j, is.getLast? = some j → isFinal j = false ∧ target? j = none

/-- the three things that may happen at the end of a block -/
theorem settle_cases (s : Build) :
    (s.settle = s ∧ Open s.cur) ∨
    (∃ j, s.cur.getLast? = some j ∧ isFinal j = true ∧ s.settle = s.close false) ∨
    (∃ j, s.cur.getLast? = some j ∧ isFinal j = false ∧ s.settle = s.close true) := by
  unfold Build.settle
  cases h : s.cur.getLast? with
  | none => left; exact ⟨rfl, fun j hj => by rw [h] at hj; cases hj⟩
  | some j =>
    simp only
    cases hf : isFinal j with
    | true => right; left; exact ⟨j, rfl, hf, by simp⟩
    | false =>
      cases ht : target? j with
      | none => left; exact ⟨by simp, fun k hk => by rw [h] at hk; cases hk; exact ⟨hf, ht⟩⟩
      | some l => right; right; exact ⟨j, rfl, hf, by simp⟩

theorem straight_snoc {is : List Instr} {i : Instr} (h : Straight is) (ho : Open is) : Straight (is ++ [i]) := by
  intro k hk
  rw [List.dropLast_concat] at hk
  rcases List.eq_nil_or_concat is with e | ⟨a, b, e⟩
  · subst e; cases hk
  · rw [List.concat_eq_append] at e
    subst e
    rcases List.mem_append.1 hk with hk | hk
    · exact h k (by rw [List.dropLast_concat]; exact hk)
    · simp only [List.mem_singleton] at hk
      subst hk
      exact ho k (by simp)

/-! ### Later blocks come after, and instructions are added at the end -/

/-- the blocks, the last one included -/
def Build.all (s : Build) : List Block := s.done ++ [⟨s.cur, none⟩]

structure Ext (s t : Build) : Prop where
  done : s.done <+: t.done
  cur : ∃ blk, t.all[s.done.length]? = some blk ∧ s.cur <+: blk.instrs

theorem Ext.refl (s : Build) : Ext s s := ⟨List.prefix_refl _, ⟨⟨s.cur, none⟩, by simp [Build.all], List.prefix_refl _⟩⟩

theorem ext_of_done {s t : Build} (x : Block) (h : s.done ++ [x] <+: t.done) (hx : s.cur <+: x.instrs) : Ext s t := by
  obtain ⟨r, hr⟩ := h
  refine ⟨⟨[x] ++ r, by rw [← hr]; simp⟩, x, ?_, hx⟩
  rw [Build.all, ← hr]
  simp [List.getElem?_append]

theorem ext_of_same {s t : Build} (h : t.done = s.done) (hc : s.cur <+: t.cur) : Ext s t :=
  ⟨by rw [h]; exact List.prefix_refl _, ⟨t.cur, none⟩, by simp [Build.all, h], hc⟩

theorem Ext.trans {s t u : Build} (h : Ext s t) (h' : Ext t u) : Ext s u := by
  obtain ⟨h1, blk, h2, h3⟩ := h
  obtain ⟨h4, blk', h5, h6⟩ := h'
  refine ⟨h1.trans h4, ?_⟩
  obtain ⟨r, hr⟩ := h4
  by_cases hlt : s.done.length < t.done.length
  · refine ⟨blk, ?_, h3⟩
    rw [Build.all, List.getElem?_append_left hlt] at h2
    rw [Build.all, ← hr, List.append_assoc, List.getElem?_append_left hlt, h2]
  · have hle : t.done.length = s.done.length := by
      have := h1.length_le; omega
    rw [← hle] at h2 ⊢
    refine ⟨blk', h5, ?_⟩
    simp only [Build.all, List.getElem?_append_right (Nat.le_refl _), Nat.sub_self, List.getElem?_cons_zero, Option.some.injEq] at h2
    rw [← h2] at h3
    exact h3.trans h6

theorem ext_close (s : Build) (b : Bool) : Ext s (s.close b) :=
  ext_of_done ⟨s.cur, if b then some (s.done.length + 1) else none⟩ (List.prefix_refl _) (List.prefix_refl _)

theorem ext_settle (s : Build) : Ext s s.settle := by
  rcases settle_cases s with ⟨h, _⟩ | ⟨j, _, _, h⟩ | ⟨j, _, _, h⟩
  · rw [h]; exact Ext.refl s
  · rw [h]; exact ext_close s _
  · rw [h]; exact ext_close s _

theorem ext_item {u : Lab → Bool} {s t : Build} {x : Item} (h : s.item u x = some t) : Ext s t := by
  cases x with
  | label l =>
    simp only [Build.item] at h
    split at h
    · split at h
      · cases h; exact ext_of_same rfl (List.prefix_refl _)
      · split at h
        · cases h
        · cases h
          exact (ext_close s _).trans (ext_of_same rfl (List.prefix_refl _))
    · cases h
      exact (ext_settle s).trans (ext_of_same rfl (List.prefix_refl _))
  | instr i =>
    simp only [Build.item, Option.some.injEq] at h
    subst h
    exact (ext_settle s).trans (ext_of_same rfl (List.prefix_append _ _))

theorem ext_loop {u : Lab → Bool} (items : List Item) : ∀ s t, buildLoop u s items = some t → Ext s t := by
  induction items with
  | nil => intro s t h; simp only [buildLoop, Option.some.injEq] at h; subst h; exact Ext.refl _
  | cons x items ih =>
    intro s t h
    simp only [buildLoop] at h
    split at h
    · cases h
    · rename_i s1 h1; exact (ext_item h1).trans (ih _ _ h)

theorem loop_append {u : Lab → Bool} (a b : List Item) : ∀ s, buildLoop u s (a ++ b) = (buildLoop u s a).bind (buildLoop u · b) := by
  induction a with
  | nil => intro s; rfl
  | cons x a ih =>
    intro s
    simp only [List.cons_append, buildLoop]
    cases h : s.item u x with
    | none => rfl
    | some t => exact ih t

/-! ### Labels -/

theorem item_labels {u : Lab → Bool} {s t : Build} {x : Item} (h : s.item u x = some t) (l : Lab) (hl : x ≠ .label l) :
    Dict.get t.labels l = Dict.get s.labels l := by
  have hset : s.settle.labels = s.labels := by
    rcases settle_cases s with ⟨h, _⟩ | ⟨j, _, _, h⟩ | ⟨j, _, _, h⟩ <;> rw [h] <;> rfl
  cases x with
  | label l' =>
    have hne : l ≠ l' := fun e => hl (by rw [e])
    simp only [Build.item] at h
    split at h
    · split at h
      · cases h; simp [Py.Dict.get_set, hne, hne.symm]
      · split at h
        · cases h
        · cases h; simp [Py.Dict.get_set, hne, hne.symm, Build.close]
    · cases h; simp [hset]
  | instr i =>
    simp only [Build.item, Option.some.injEq] at h
    subst h; simp [hset]

theorem loop_labels {u : Lab → Bool} (items : List Item) (l : Lab) (hl : Item.label l ∉ items) : ∀ s t, buildLoop u s items = some t →
    Dict.get t.labels l = Dict.get s.labels l := by
  induction items with
  | nil => intro s t h; simp only [buildLoop, Option.some.injEq] at h; subst h; rfl
  | cons x items ih =>
    intro s t h
    simp only [List.mem_cons, not_or] at hl
    simp only [buildLoop] at h
    split at h
    · cases h
    · rename_i s1 h1
      rw [ih hl.2 _ _ h, item_labels h1 l (fun e => hl.1 e.symm)]

theorem item_label {u : Lab → Bool} {s t : Build} {l : Lab} (hu : u l = true) (h : s.item u (.label l) = some t) :
    Dict.get t.labels l = some t.done.length := by
  simp only [Build.item, hu, if_true] at h
  split at h
  · cases h; simp [Py.Dict.get_set]
  · split at h
    · cases h
    · cases h; simp [Py.Dict.get_set]

/-! ### Where the depths of a balanced piece of code put the blocks -/

theorem Within.trans {a b c : Option Int} (h : Within a b) (h' : Within b c) : Within a c := by
  cases a <;> cases b <;> cases c <;> simp_all [Within]
  omega

theorem Within.refl (a : Option Int) : Within a a := by cases a <;> simp [Within]

/-- jumps go to labels with enough room -/
abbrev JD (D : Lab → Option Int) : Lab → Int → Prop := fun l x => Within (some x) (D l)

structure Tall (eff : Eff) (D : Lab → Option Int) (s : Build) (hs : List (Option Int)) (d : Option Int) : Prop where
  len : hs.length = s.done.length + 1
  zero : ∃ h, hs[0]? = some (some h)
  first : s.first = true → s.done = [] ∧ s.cur = [] ∧ s.labels = []
  straight : ∀ (b : Nat) (blk : Block), s.done[b]? = some blk → Straight blk.instrs
  next : ∀ (b : Nat) (blk : Block) (m : Nat), s.done[b]? = some blk → blk.next = some m →
    m ≤ s.done.length ∧ (∀ i, blk.instrs.getLast? = some i → isFinal i = false) ∧ ∀ h h', hs[b]? = some h → hs[m]? = some h' → Within (out eff blk.instrs h) h'
  flow : ∀ (b : Nat) (blk : Block), s.done[b]? = some blk → ∀ h, hs[b]? = some h → Flow eff (JD D) (fun _ => True) blk.instrs h
  cur : Straight s.cur
  last : ∀ h, hs[s.done.length]? = some h → Flow eff (JD D) (fun _ => True) s.cur h ∧ Within (out eff s.cur h) d
  labels : ∀ l t, Dict.get s.labels l = some t → hs[t]? = some (D l)

/-- a new block is begun, with a depth that is enough if the old one leads to it -/
theorem tall_close {eff : Eff} {D : Lab → Option Int} {s : Build} {hs : List (Option Int)} {d d' : Option Int} (h : Tall eff D s hs d)
    (b : Bool) (hb : b = true → ∀ i, s.cur.getLast? = some i → isFinal i = false) (hw : Within d d') (hf : s.first = false) :
    Tall eff D (s.close b) (hs ++ [d']) d' := by
  have hl := h.len
  have hlen : (s.close b).done.length = s.done.length + 1 := by simp [Build.close]
  have hget : ∀ k (y : Option Int), (hs ++ [d'])[k]? = some y → k ≤ s.done.length → hs[k]? = some y := by
    intro k y hk hle
    rwa [List.getElem?_append_left (by omega)] at hk
  have hdone : ∀ (k : Nat) (blk : Block), (s.close b).done[k]? = some blk →
      (k < s.done.length ∧ s.done[k]? = some blk) ∨ (k = s.done.length ∧ blk = ⟨s.cur, if b then some (s.done.length + 1) else none⟩) := by
    intro k blk hk
    simp only [Build.close] at hk
    rw [List.getElem?_append] at hk
    split at hk
    · rename_i hlt; exact .inl ⟨hlt, hk⟩
    · rename_i hge
      right
      have : k - s.done.length = 0 := by
        false_or_by_contra
        rename_i hne
        rw [List.getElem?_eq_none (by simp; omega)] at hk
        cases hk
      rw [this] at hk
      simp only [List.getElem?_cons_zero, Option.some.injEq] at hk
      exact ⟨by omega, hk.symm⟩
  refine ⟨?_, ?_, ?_, ?_, ?_, ?_, ?_, ?_, ?_⟩
  · simp [hl, hlen]
  · obtain ⟨x, hx⟩ := h.zero
    exact ⟨x, by rw [List.getElem?_append_left (by omega)]; exact hx⟩
  · intro hf'; rw [show (s.close b).first = s.first from rfl, hf] at hf'; cases hf'
  · intro k blk hk
    rcases hdone k blk hk with ⟨_, hk⟩ | ⟨_, hk⟩
    · exact h.straight k blk hk
    · subst hk; exact h.cur
  · intro k blk m hk hm
    rcases hdone k blk hk with ⟨hlt, hk⟩ | ⟨hk1, hk2⟩
    · obtain ⟨a1, a2, a3⟩ := h.next k blk m hk hm
      refine ⟨by omega, a2, ?_⟩
      intro x y hx hy
      exact a3 x y (hget k x hx (by omega)) (hget m y hy a1)
    · subst hk2
      simp only at hm
      split at hm
      · rename_i hbt
        cases hm
        refine ⟨by omega, hb hbt, ?_⟩
        intro x y hx hy
        subst hk1
        rw [List.getElem?_append_right (by omega), hl] at hy
        simp only [Nat.sub_self, List.getElem?_cons_zero, Option.some.injEq] at hy
        subst hy
        exact (h.last x (hget _ x hx (by omega))).2.trans hw
      · cases hm
  · intro k blk hk x hx
    rcases hdone k blk hk with ⟨hlt, hk⟩ | ⟨hk1, hk2⟩
    · exact h.flow k blk hk x (hget k x hx (by omega))
    · subst hk2; subst hk1
      exact (h.last x (hget _ x hx (by omega))).1
  · intro i hi; cases hi
  · intro x hx
    rw [hlen, List.getElem?_append_right (by omega), hl] at hx
    simp only [Nat.sub_self, List.getElem?_cons_zero, Option.some.injEq] at hx
    subst hx
    exact ⟨trivial, Within.refl _⟩
  · intro l t ht
    have := h.labels l t ht
    have hlt : t < hs.length := by
      false_or_by_contra
      rw [List.getElem?_eq_none (by omega)] at this
      cases this
    rw [List.getElem?_append_left hlt]
    exact this

theorem tall_weaken {eff : Eff} {D : Lab → Option Int} {s : Build} {hs : List (Option Int)} {d d' : Option Int} (h : Tall eff D s hs d)
    (hw : Within d d') : Tall eff D s hs d' :=
  ⟨h.len, h.zero, h.first, h.straight, h.next, h.flow, h.cur, fun x hx => ⟨(h.last x hx).1, (h.last x hx).2.trans hw⟩, h.labels⟩

theorem tall_notFirst {eff : Eff} {D : Lab → Option Int} {s : Build} {hs : List (Option Int)} {d : Option Int} (h : Tall eff D s hs d) :
    Tall eff D { s with first := false } hs d :=
  ⟨h.len, h.zero, fun e => (by cases e), h.straight, h.next, h.flow, h.cur, h.last, h.labels⟩

theorem settle_first (s : Build) : s.settle.first = s.first := by
  rcases settle_cases s with ⟨h, _⟩ | ⟨j, _, _, h⟩ | ⟨j, _, _, h⟩ <;> rw [h] <;> rfl

theorem tall_settle {eff : Eff} {D : Lab → Option Int} {s : Build} {hs : List (Option Int)} {d : Option Int} (h : Tall eff D s hs d) :
    ∃ hs', Tall eff D s.settle hs' d ∧ Open s.settle.cur := by
  have notFirst : ∀ j, s.cur.getLast? = some j → s.first = false := by
    intro j hj
    cases hf : s.first with
    | false => rfl
    | true => rw [(h.first hf).2.1] at hj; cases hj
  rcases settle_cases s with ⟨he, ho⟩ | ⟨j, hj, hf, he⟩ | ⟨j, hj, hf, he⟩
  · rw [he]; exact ⟨hs, h, ho⟩
  · rw [he]
    exact ⟨_, tall_close h false (by simp) (Within.refl d) (notFirst j hj), fun k hk => by simp [Build.close] at hk⟩
  · rw [he]
    exact ⟨_, tall_close h true (fun _ i hi => by rw [hj] at hi; cases hi; exact hf) (Within.refl d) (notFirst j hj), fun k hk => by simp [Build.close] at hk⟩

/-- the depth after an item of balanced code -/
def itemOut (eff : Eff) (D : Lab → Option Int) : Option Int → Item → Option Int
  | _, .label l => D l
  | none, .instr _ => none
  | some d, .instr i => if isFinal i then none else some (d + eff i.name i.arg false)

theorem tall_item {eff : Eff} {D : Lab → Option Int} {u : Lab → Bool} {s t : Build} {hs : List (Option Int)} {d : Option Int} {x : Item}
    {rest : List Item} (h : Tall eff D s hs d) (hb : Balanced eff D d (x :: rest)) (ht : s.item u x = some t) :
    ∃ hs', Tall eff D t hs' (itemOut eff D d x) ∧ Balanced eff D (itemOut eff D d x) rest := by
  cases x with
  | label l =>
    simp only [Balanced] at hb
    obtain ⟨hb1, hb2⟩ := hb
    simp only [itemOut]
    refine (fun ⟨hs', q⟩ => ⟨hs', q, hb2⟩ : (∃ hs', Tall eff D t hs' (D l)) → _) ?_
    simp only [Build.item] at ht
    split at ht
    · split at ht
      · rename_i hu hf
        cases ht
        obtain ⟨f1, f2, f3⟩ := h.first hf
        refine ⟨[D l], ?_, ?_, ?_, ?_, ?_, ?_, ?_, ?_, ?_⟩
        · simp [f1]
        · -- the depth at the beginning is known, and the label has enough room for it
          obtain ⟨x, hx⟩ := h.zero
          have := (h.last (some x) (by rw [f1]; exact hx)).2
          rw [f2] at this
          have := this.trans hb1
          cases hD : D l with
          | none => rw [hD] at this; exact this.elim
          | some y => exact ⟨y, rfl⟩
        · intro e; cases e
        · intro b blk hk; rw [show s.done = [] from f1] at hk; cases hk
        · intro b blk m hk; rw [show s.done = [] from f1] at hk; cases hk
        · intro b blk hk; rw [show s.done = [] from f1] at hk; cases hk
        · exact h.cur
        · intro y hy
          simp only [f1, List.length_nil, List.getElem?_cons_zero, Option.some.injEq] at hy
          subst hy
          simp only [f2]
          exact ⟨trivial, Within.refl _⟩
        · intro l' t' hl'
          simp only [f3, Py.Dict.get_set] at hl'
          split at hl'
          · rename_i e
            cases hl'
            simp [f1, e]
          · cases hl'
      · rename_i hu hf
        split at ht
        · cases ht
        · rename_i j hj
          cases ht
          have hf : s.first = false := by simpa using hf
          have hc := tall_close h (!isFinal j) (by
            intro hn i hi
            rw [hj] at hi; cases hi
            simpa using hn) hb1 hf
          refine ⟨_, hc.len, hc.zero, (fun e => by rw [show (s.close (!isFinal j)).first = s.first from rfl, hf] at e; cases e), hc.straight, hc.next, hc.flow, hc.cur, hc.last, ?_⟩
          intro l' t' hl'
          simp only [Py.Dict.get_set] at hl'
          split at hl'
          · rename_i e
            cases hl'
            rw [List.getElem?_append_right (by simp [h.len, Build.close])]
            simp [h.len, Build.close, e]
          · exact hc.labels l' t' hl'
    · cases ht
      obtain ⟨hs', q, _⟩ := tall_settle h
      exact ⟨hs', tall_notFirst (tall_weaken q hb1)⟩
  | instr i =>
    simp only [Build.item, Option.some.injEq] at ht
    subst ht
    obtain ⟨hs', q, ho⟩ := tall_settle h
    refine ⟨hs', ⟨q.len, q.zero, ?_, q.straight, q.next, q.flow, straight_snoc q.cur ho, ?_, q.labels⟩, ?_⟩
    · intro e; cases e
    · intro y hy
      obtain ⟨q1, q2⟩ := q.last y hy
      rw [flow_append, out_append]
      cases ho' : out eff s.settle.cur y with
      | none => exact ⟨⟨q1, flow_none _⟩, by rw [out_none]; trivial⟩
      | some z =>
        rw [ho'] at q2
        cases d with
        | none => exact q2.elim
        | some w =>
          have q2 : z ≤ w := q2
          simp only [Balanced] at hb
          refine ⟨⟨q1, ⟨?_, fun _ => trivial, trivial⟩⟩, ?_⟩
          · intro l hl
            have := hb.1 l (target_some.1 hl)
            refine Within.trans ?_ this
            show z + _ ≤ w + _
            omega
          · simp only [out, afterInstr, itemOut]
            split
            · trivial
            · show z + _ ≤ w + _
              omega
    · cases d with
      | none => exact hb
      | some w => exact (by have := hb.2; rw [leaves_eq] at this; exact this)

theorem tall_loop {eff : Eff} {D : Lab → Option Int} {u : Lab → Bool} (items : List Item) : ∀ (s t : Build) (hs : List (Option Int)) (d : Option Int),
    Tall eff D s hs d → Balanced eff D d items → buildLoop u s items = some t → ∃ hs' d', Tall eff D t hs' d' := by
  induction items with
  | nil =>
    intro s t hs d h _ ht
    simp only [buildLoop, Option.some.injEq] at ht
    subst ht; exact ⟨hs, d, h⟩
  | cons x items ih =>
    intro s t hs d h hb ht
    simp only [buildLoop] at ht
    split at ht
    · cases ht
    · rename_i s1 h1
      obtain ⟨hs', q1, q2⟩ := tall_item h hb h1
      exact ih s1 t hs' _ q1 q2 ht

theorem graph_heights {eff : Eff} {D : Lab → Option Int} {items : List Item} {initial : Int} {g : Cfg}
    (hb : Balanced eff D (some initial) items) (hg : fromBytecode items = some g) :
    Shape g ∧ ∃ HB, Heights eff g HB ∧ ∃ h, HB 0 = some h := by
  unfold fromBytecode at hg
  split at hg
  · cases hg
  cases hl : buildLoop (used items) {} items with
  | none => rw [hl] at hg; cases hg
  | some t =>
    rw [hl] at hg
    simp only [Option.map_some, Option.some.injEq] at hg
    subst hg
    have h0 : Tall eff D {} [some initial] (some initial) := by
      refine ⟨rfl, ⟨initial, rfl⟩, fun _ => ⟨rfl, rfl, rfl⟩, ?_, ?_, ?_, ?_, ?_, ?_⟩
      · intro b blk h; cases h
      · intro b blk m h; cases h
      · intro b blk h; cases h
      · intro i hi; cases hi
      · intro h hh
        simp only [List.length_nil, List.getElem?_cons_zero, Option.some.injEq] at hh
        subst hh
        exact ⟨trivial, Within.refl _⟩
      · intro l t h; cases h
    obtain ⟨hs, d, q⟩ := tall_loop items _ _ _ _ h0 hb hl
    have cases' : ∀ (b : Nat) (blk : Block), (t.done ++ [⟨t.cur, none⟩])[b]? = some blk →
        t.done[b]? = some blk ∨ (b = t.done.length ∧ blk = ⟨t.cur, none⟩) := by
      intro b blk hk
      rw [List.getElem?_append] at hk
      split at hk
      · exact .inl hk
      · right
        have : b - t.done.length = 0 := by
          false_or_by_contra
          rw [List.getElem?_eq_none (by simp; omega)] at hk
          cases hk
        rw [this] at hk
        simp only [List.getElem?_cons_zero, Option.some.injEq] at hk
        exact ⟨by omega, hk.symm⟩
    have hidx : ∀ b : Nat, b ≤ t.done.length → ∃ h, hs[b]? = some h := by
      intro b hb
      have := q.len
      exact ⟨hs[b], List.getElem?_eq_getElem (by omega)⟩
    have hlt : ∀ (b : Nat) (blk : Block), t.done[b]? = some blk → b < t.done.length := by
      intro b blk h
      false_or_by_contra
      rw [List.getElem?_eq_none (by omega)] at h
      cases h
    refine ⟨⟨?_, ?_⟩, fun b => hs[b]?.getD none, ⟨?_, ?_⟩, ?_⟩
    · intro b blk hk
      rcases cases' b blk hk with hk | ⟨_, hk⟩
      · exact q.straight b blk hk
      · subst hk; exact q.cur
    · intro b blk m hk hm
      rcases cases' b blk hk with hk | ⟨_, hk⟩
      · exact (q.next b blk m hk hm).2.1
      · subst hk; cases hm
    · intro b blk hk
      have hmono : ∀ l x, JD D l x → ∀ t', Dict.get t.labels l = some t' → Within (some x) (hs[t']?.getD none) := by
        intro l x hx t' ht'
        rw [q.labels l t' ht']
        exact hx
      rcases cases' b blk hk with hk | ⟨hk1, hk2⟩
      · obtain ⟨h, hh⟩ := hidx b (Nat.le_of_lt (hlt b blk hk))
        rw [hh]
        exact flow_mono hmono (fun _ h => h) _ _ (q.flow b blk hk h hh)
      · subst hk2
        obtain ⟨h, hh⟩ := hidx b (by omega)
        rw [hh]
        rw [hk1] at hh
        exact flow_mono hmono (fun _ h => h) _ _ (q.last h hh).1
    · intro b blk m hk hm
      rcases cases' b blk hk with hk | ⟨_, hk⟩
      · obtain ⟨h, hh⟩ := hidx b (Nat.le_of_lt (hlt b blk hk))
        obtain ⟨n1, _, n3⟩ := q.next b blk m hk hm
        obtain ⟨h', hh'⟩ := hidx m n1
        rw [hh, hh']
        exact n3 h h' hh hh'
      · subst hk; cases hm
    · obtain ⟨h, hh⟩ := q.zero
      exact ⟨h, by simp only [hh]; rfl⟩

end StackSize
