import Verif.PluginBreaks.Spec
/-!
C137: templates stop at the breakpoints that are set in them, of all kinds and in all files.
-/

namespace PluginBreaks

open Spec Py

/-! ### The history -/

theorem live_snoc (h : List Op) (o : Op) (k : Kind) (f i l : Nat) :
    Live (h ++ [o]) k f i l ↔ o = .add k f i l ∨ (Live h k f i l ∧ ¬ Touches f i o) := by
  constructor
  · rintro ⟨pre, post, e, hp⟩
    rcases List.eq_nil_or_concat post with rfl | ⟨post', o', rfl⟩
    · have := List.append_inj' e rfl
      exact Or.inl (by simpa using this.2)
    · rw [List.concat_eq_append, ← List.cons_append, ← List.append_assoc] at e
      have := List.append_inj' e rfl
      obtain ⟨e1, e2⟩ := this
      have e2 : o = o' := by simpa using e2
      subst e2
      exact Or.inr ⟨⟨pre, post', e1, fun x hx => hp x (by simp [hx])⟩, hp o (by simp)⟩
  · rintro (rfl | ⟨⟨pre, post, rfl, hp⟩, ho⟩)
    · exact ⟨h, [], rfl, by simp⟩
    · refine ⟨pre, post ++ [o], by simp, ?_⟩
      intro x hx
      rcases List.mem_append.mp hx with hx | hx
      · exact hp x hx
      · rw [List.mem_singleton.mp hx]; exact ho

theorem live_kind {kindOf : Nat → Kind} {h : List Op} (hk : ∀ o ∈ h, OneKind kindOf o) {k : Kind} {f i l : Nat} (hl : Live h k f i l) : k = kindOf f := by
  obtain ⟨pre, post, rfl, _⟩ := hl
  exact hk (.add k f i l) (by simp)

/-! ### The tables -/

theorem table_setTable (s : St) (t : Table) (k k' : Kind) : (s.setTable t k).table k' = if k' = k then some t else s.table k' := by
  cases k <;> cases k' <;> rfl

theorem setTable_ids (s : St) (t : Table) (k : Kind) : (s.setTable t k).ids = s.ids := by cases k <;> rfl
theorem setTable_received (s : St) (t : Table) (k : Kind) : (s.setTable t k).received = s.received := by cases k <;> rfl
theorem setTable_active (s : St) (t : Table) (k : Kind) : (s.setTable t k).active = s.active := by cases k <;> rfl

def inner (s : St) (f : Nat) : List (Nat × Bp) := (Dict.get s.ids f).getD []
def tab (s : St) (k : Kind) (f : Nat) : List (Nat × Bp) := (Dict.get ((s.table k).getD []) f).getD []

theorem pluginGet_eq (s : St) (k : Kind) (f l : Nat) : pluginGet s k f l = Dict.get (tab s k f) l := by
  unfold pluginGet tab
  show (Dict.get ((s.table k).getD []) f).bind (Dict.get · l) = _
  cases Dict.get ((s.table k).getD []) f <;> rfl

theorem breakDict_get (d : List (Nat × Bp)) (l : Nat) :
    (∀ b, Dict.get (breakDict d) l = some b → ∃ i, (i, b) ∈ d ∧ b.line = l) ∧
    (∀ i b, (i, b) ∈ d → b.line = l → ∃ b', Dict.get (breakDict d) l = some b') := by
  suffices ∀ (d acc : List (Nat × Bp)),
      (∀ b, Dict.get (d.foldl (fun acc e => Dict.set acc e.2.line e.2) acc) l = some b → Dict.get acc l = some b ∨ ∃ i, (i, b) ∈ d ∧ b.line = l) ∧
      (((∃ b', Dict.get acc l = some b') ∨ ∃ i b, (i, b) ∈ d ∧ b.line = l) → ∃ b', Dict.get (d.foldl (fun acc e => Dict.set acc e.2.line e.2) acc) l = some b') by
    obtain ⟨h1, h2⟩ := this d []
    exact ⟨fun b hb => (h1 b hb).resolve_left (by simp [Dict.get_nil]), fun i b hm hl => h2 (Or.inr ⟨i, b, hm, hl⟩)⟩
  intro d
  induction d with
  | nil => intro acc; simp
  | cons e d ih =>
    intro acc
    obtain ⟨h1, h2⟩ := ih (Dict.set acc e.2.line e.2)
    rw [List.foldl_cons]
    constructor
    · intro b hb
      rcases h1 b hb with h | ⟨i, hm, hl⟩
      · rw [Dict.get_set] at h
        split at h
        · rename_i hc
          refine Or.inr ⟨e.1, ?_, ?_⟩
          · have := Option.some.inj h
            subst this
            simp
          · have := Option.some.inj h
            subst this
            exact hc.symm
        · exact Or.inl h
      · exact Or.inr ⟨i, by simp [hm], hl⟩
    · intro h
      apply h2
      rcases h with ⟨b', hb⟩ | ⟨i, b, hm, hl⟩
      · left
        rw [Dict.get_set]
        split
        · exact ⟨_, rfl⟩
        · exact ⟨b', hb⟩
      · rcases List.mem_cons.mp hm with rfl | hm
        · left
          rw [Dict.get_set, if_pos hl.symm]
          exact ⟨_, rfl⟩
        · exact Or.inr ⟨i, b, hm, hl⟩

theorem breakDict_ne {d : List (Nat × Bp)} (h : d ≠ []) : breakDict d ≠ [] := by
  obtain ⟨e, d', rfl⟩ := List.exists_cons_of_ne_nil h
  obtain ⟨b, hb⟩ := (breakDict_get (e :: d') e.2.line).2 e.1 e.2 (by simp) rfl
  intro h0
  rw [h0, Dict.get_nil] at hb
  exact absurd hb (by simp)

/-! ### What each request does -/

theorem managerAdd_spec (s : St) (k : Kind) : ∃ s', managerAdd s k [.django, .jinja2] = some s' ∧ s'.ids = s.ids ∧ s'.received = s.received ∧
    (∀ k', s'.table k' = if k' = k then some ((s.table k).getD []) else s.table k') ∧ (∀ p ∈ s.active, p ∈ s'.active) ∧ k ∈ s'.active := by
  have key : ∀ s : St, (activate s k).ids = s.ids ∧ (activate s k).received = s.received ∧ (∀ k', (activate s k).table k' = s.table k') ∧
      (∀ p ∈ s.active, p ∈ (activate s k).active) ∧ k ∈ (activate s k).active := by
    intro s
    unfold activate
    by_cases hk : k ∈ s.active
    · rw [if_pos hk]; exact ⟨rfl, rfl, fun _ => rfl, fun _ h => h, hk⟩
    · rw [if_neg hk]; exact ⟨rfl, rfl, fun k' => by cases k' <;> rfl, fun p h => by simp [h], by simp⟩
  have hm : managerAdd s k [.django, .jinja2] = some (activate (if (s.table k).isSome then s else init s k) k) := by
    cases k <;> simp [managerAdd, pluginAdd]
  obtain ⟨h1, h2, h3, h4, h5⟩ := key (if (s.table k).isSome then s else init s k)
  refine ⟨_, hm, ?_, ?_, ?_, ?_, h5⟩
  · rw [h1]; split
    · rfl
    · exact setTable_ids _ _ _
  · rw [h2]; split
    · rfl
    · exact setTable_received _ _ _
  · intro k'
    rw [h3]
    cases ht : s.table k with
    | some t =>
      simp only [Option.isSome_some, if_true, Option.getD_some]
      split
      · rename_i e; rw [e, ht]
      · rfl
    | none =>
      simp only [Option.isSome_none, Bool.false_eq_true, if_false, Option.getD_none, init]
      exact table_setTable _ _ _ _
  · intro p hp
    apply h4
    split
    · exact hp
    · rw [init, setTable_active]; exact hp

/-- a file is written -/
structure Written (s s' : St) (k : Kind) (f : Nat) (d : List (Nat × Bp)) : Prop where
  inner : ∀ f', inner s' f' = if f' = f then d else inner s f'
  tab : ∀ k' f', tab s' k' f' = if k' = k ∧ f' = f then breakDict d else tab s k' f'
  act : ∀ k', s'.table k' ≠ none → k' = k ∨ s.table k' ≠ none
  active : ∀ p ∈ s.active, p ∈ s'.active
  flag : s'.flag = hasLineBreaks s'

theorem hasLineBreaks_flag (s : St) (b : Bool) : hasLineBreaks { s with flag := b } = hasLineBreaks s := by
  have : ∀ p, ({ s with flag := b } : St).table p = s.table p := fun p => by cases p <;> rfl
  unfold hasLineBreaks
  simp only [this]

theorem written (s0 s : St) (k : Kind) (f : Nat) (d : List (Nat × Bp)) (hids : s.ids = s0.ids)
    (ht : ∀ k', s.table k' = if k' = k then some ((s0.table k).getD []) else s0.table k') (ha : ∀ p ∈ s0.active, p ∈ s.active) :
    Written s0 { consolidate { s with ids := Dict.set s.ids f d } k f d with flag := hasLineBreaks (consolidate { s with ids := Dict.set s.ids f d } k f d) } k f d := by
  have htab : ∀ k', ({ consolidate { s with ids := Dict.set s.ids f d } k f d with
      flag := hasLineBreaks (consolidate { s with ids := Dict.set s.ids f d } k f d) } : St).table k' =
      if k' = k then some (Dict.set ((s0.table k).getD []) f (breakDict d)) else s0.table k' := by
    intro k'
    have e : ({ consolidate { s with ids := Dict.set s.ids f d } k f d with
      flag := hasLineBreaks (consolidate { s with ids := Dict.set s.ids f d } k f d) } : St).table k' =
      (consolidate { s with ids := Dict.set s.ids f d } k f d).table k' := by cases k' <;> rfl
    have e2 : ∀ k', ({ s with ids := Dict.set s.ids f d } : St).table k' = s.table k' := by intro k'; cases k' <;> rfl
    rw [e, consolidate, table_setTable, e2, e2, ht, ht]
    simp only [if_true]
    split <;> simp
  constructor
  · intro f'
    unfold inner
    show (Dict.get (consolidate { s with ids := Dict.set s.ids f d } k f d).ids f').getD [] = _
    rw [consolidate, setTable_ids]
    show (Dict.get (Dict.set s.ids f d) f').getD [] = _
    rw [Dict.get_set, hids]
    split <;> simp
  · intro k' f'
    unfold tab
    rw [htab]
    by_cases hk : k' = k
    · subst hk
      simp only [if_true, Option.getD_some, true_and]
      rw [Dict.get_set]
      split <;> simp
    · simp [hk]
  · intro k' h
    rw [htab] at h
    by_cases hk : k' = k
    · exact Or.inl hk
    · rw [if_neg hk] at h; exact Or.inr h
  · intro p hp
    show p ∈ (consolidate { s with ids := Dict.set s.ids f d } k f d).active
    rw [consolidate, setTable_active]
    exact ha p hp
  · exact (hasLineBreaks_flag _ _).symm

/-! ### The invariant -/

structure Inv (kindOf : Nat → Kind) (h : List Op) (s : St) : Prop where
  ok : ∀ f, Dict.Ok (inner s f)
  live : ∀ f i b, Dict.get (inner s f) i = some b ↔ b.id = i ∧ Live h b.kind f i b.line
  tab : ∀ k f, tab s k f = if k = kindOf f then breakDict (inner s f) else []
  got : ∀ f i b, Dict.get (inner s f) i = some b → (f, i) ∈ s.received
  act : ∀ k, s.table k ≠ none → k ∈ s.active
  flg : ∀ f, inner s f ≠ [] → s.flag = true

theorem tab_some {s : St} {k : Kind} {f : Nat} (h : tab s k f ≠ []) : s.table k ≠ none ∧ ∃ d, (f, d) ∈ (s.table k).getD [] ∧ d ≠ [] := by
  unfold tab at h
  cases ht : Dict.get ((s.table k).getD []) f with
  | none => rw [ht] at h; exact absurd rfl h
  | some d =>
    rw [ht] at h
    refine ⟨?_, d, Dict.mem_of_get ht, h⟩
    intro hn
    rw [hn] at ht
    simp [Dict.get_nil] at ht

theorem flag_of {kindOf : Nat → Kind} {s : St} (htab : ∀ k f, tab s k f = if k = kindOf f then breakDict (inner s f) else [])
    (hact : ∀ k, s.table k ≠ none → k ∈ s.active) (f : Nat) (h : inner s f ≠ []) : hasLineBreaks s = true := by
  have ht : tab s (kindOf f) f ≠ [] := by
    rw [htab, if_pos rfl]; exact breakDict_ne h
  obtain ⟨h1, d, hm, hd⟩ := tab_some ht
  unfold hasLineBreaks
  rw [List.any_eq_true]
  refine ⟨_, hact _ h1, ?_⟩
  rw [List.any_eq_true]
  exact ⟨_, hm, by simpa using hd⟩

theorem inv_written {kindOf : Nat → Kind} {h : List Op} {s s' : St} (inv : Inv kindOf h s) {k : Kind} {f : Nat} {d : List (Nat × Bp)} (hk : k = kindOf f)
    (w : Written s s' k f d) (h' : List Op) (hok : Dict.Ok d) (ha : k ∈ s'.active)
    (hlive : ∀ i b, Dict.get d i = some b ↔ b.id = i ∧ Live h' b.kind f i b.line)
    (hother : ∀ f', f' ≠ f → ∀ k i l, Live h' k f' i l ↔ Live h k f' i l)
    (hrec : ∀ i b, Dict.get d i = some b → (f, i) ∈ s'.received) (hrec' : ∀ f' i, f' ≠ f → (f', i) ∈ s.received → (f', i) ∈ s'.received) :
    Inv kindOf h' s' := by
  have htab : ∀ k f, tab s' k f = if k = kindOf f then breakDict (inner s' f) else [] := by
    intro k' f'
    rw [w.tab, w.inner, inv.tab]
    by_cases hf : f' = f
    · subst hf
      by_cases hk' : k' = k
      · simp [hk', hk]
      · have : k' ≠ kindOf f' := fun e => hk' (e.trans hk.symm)
        simp [hk', this]
    · simp [hf]
  have hact : ∀ k, s'.table k ≠ none → k ∈ s'.active := by
    intro k' ht
    rcases w.act k' ht with rfl | ht
    · exact ha
    · exact w.active _ (inv.act k' ht)
  refine ⟨?_, ?_, htab, ?_, hact, ?_⟩
  · intro f'
    rw [w.inner]
    split
    · exact hok
    · exact inv.ok f'
  · intro f' i b
    rw [w.inner]
    by_cases hf : f' = f
    · subst hf; rw [if_pos rfl]; exact hlive i b
    · rw [if_neg hf, hother f' hf]; exact inv.live f' i b
  · intro f' i b hb
    rw [w.inner] at hb
    by_cases hf : f' = f
    · subst hf; rw [if_pos rfl] at hb; exact hrec i b hb
    · rw [if_neg hf] at hb; exact hrec' f' i hf (inv.got f' i b hb)
  · intro f' hne
    rw [w.flag]
    exact flag_of htab hact f' hne

theorem inv_add {kindOf : Nat → Kind} {h : List Op} {s : St} (inv : Inv kindOf h s) {k : Kind} {f i l : Nat} (hk : k = kindOf f) :
    Inv kindOf (h ++ [.add k f i l]) (add s k f i l) := by
  obtain ⟨s1, hm, hids, hrec, htab, hact, hka⟩ := managerAdd_spec { s with received := (f, i) :: s.received.filter (· != (f, i)) } k
  have e0 : ∀ k', ({ s with received := (f, i) :: s.received.filter (· != (f, i)) } : St).table k' = s.table k' := by intro k'; cases k' <;> rfl
  simp only [e0] at htab
  have w := written s s1 k f (Dict.set (inner s f) i ⟨k, i, l⟩) hids htab hact
  have eadd : add s k f i l = { consolidate { s1 with ids := Dict.set s1.ids f (Dict.set (inner s f) i ⟨k, i, l⟩) } k f (Dict.set (inner s f) i ⟨k, i, l⟩) with
      flag := hasLineBreaks (consolidate { s1 with ids := Dict.set s1.ids f (Dict.set (inner s f) i ⟨k, i, l⟩) } k f (Dict.set (inner s f) i ⟨k, i, l⟩)) } := by
    unfold add
    simp only [hm]
    unfold inner
    rw [hids]
  rw [eadd]
  have hreceived : ∀ x : Nat × Nat, x ∈ ({ consolidate { s1 with ids := Dict.set s1.ids f (Dict.set (inner s f) i ⟨k, i, l⟩) } k f (Dict.set (inner s f) i ⟨k, i, l⟩) with
      flag := hasLineBreaks (consolidate { s1 with ids := Dict.set s1.ids f (Dict.set (inner s f) i ⟨k, i, l⟩) } k f (Dict.set (inner s f) i ⟨k, i, l⟩)) } : St).received ↔
      x = (f, i) ∨ x ∈ s.received := by
    intro x
    show x ∈ (consolidate { s1 with ids := Dict.set s1.ids f (Dict.set (inner s f) i ⟨k, i, l⟩) } k f (Dict.set (inner s f) i ⟨k, i, l⟩)).received ↔ _
    rw [consolidate, setTable_received]
    show x ∈ s1.received ↔ _
    rw [hrec]
    simp only [List.mem_cons, List.mem_filter, bne_iff_ne, ne_eq]
    by_cases hx : x = (f, i) <;> simp [hx]
  refine inv_written inv hk w _ (Dict.ok_set (inv.ok f) _ _) ?_ ?_ ?_ ?_ ?_
  · show k ∈ (consolidate { s1 with ids := Dict.set s1.ids f (Dict.set (inner s f) i ⟨k, i, l⟩) } k f (Dict.set (inner s f) i ⟨k, i, l⟩)).active
    rw [consolidate, setTable_active]
    exact hka
  · intro i' b
    rw [Dict.get_set, live_snoc]
    by_cases hi : i' = i
    · subst hi
      simp only [if_true, Option.some.injEq, Touches, and_self, not_true_eq_false, and_false, or_false, Op.add.injEq, true_and]
      constructor
      · rintro rfl; simp
      · rintro ⟨rfl, rfl, rfl⟩; rfl
    · rw [if_neg hi, inv.live]
      have h1 : (Op.add k f i l = Op.add b.kind f i' b.line) ↔ False := by
        simp only [Op.add.injEq, iff_false]
        exact fun h => hi h.2.2.1.symm
      rw [h1, false_or]
      have h2 : ¬ i = i' := fun h => hi h.symm
      simp [Touches, h2]
  · intro f' hf k' i' l'
    rw [live_snoc]
    have h2 : ¬ f = f' := fun h => hf h.symm
    simp [Touches, h2]
  · intro i' b hb
    rw [hreceived]
    rw [Dict.get_set] at hb
    by_cases hi : i' = i
    · exact Or.inl (by rw [hi])
    · rw [if_neg hi] at hb
      exact Or.inr (inv.got f i' b hb)
  · intro f' i' _ hm'
    rw [hreceived]
    exact Or.inr hm'

theorem getBreakpoints_true (s : St) (k : Kind) (l : List Kind) (hk : k ∈ l) (hne : (s.table k).getD [] ≠ []) : getBreakpoints s k l = true := by
  induction l with
  | nil => simp at hk
  | cons p ps ih =>
    rw [getBreakpoints]
    by_cases hp : p = k
    · subst hp
      rw [if_pos ⟨rfl, by simpa using hne⟩]
    · rw [if_neg (fun h => hp h.1)]
      rcases List.mem_cons.mp hk with h | h
      · exact absurd h.symm hp
      · exact ih h

theorem inner_nil_of {s : St} {f : Nat} (h : ∀ i b, Dict.get (inner s f) i ≠ some b) (ok : Dict.Ok (inner s f)) : inner s f = [] := by
  cases hi : inner s f with
  | nil => rfl
  | cons e d =>
    refine absurd (Dict.get_of_mem ok (k := e.1) (v := e.2) ?_) (h e.1 e.2)
    rw [hi]
    simp

theorem remove_none {s : St} {k : Kind} {f i : Nat} (h : Dict.get (inner s f) i = none) :
    remove s k f i = { s with received := s.received.filter (· != (f, i)) } := by
  unfold remove
  simp only
  split
  · unfold inner at h
    cases hd : Dict.get s.ids f with
    | none => rfl
    | some d =>
      rw [hd] at h
      have : Dict.has d i = false := by rw [Dict.has_iff_get]; simpa using h
      simp [this]
  · rfl

theorem inv_remove {kindOf : Nat → Kind} {h : List Op} {s : St} (inv : Inv kindOf h s) {k : Kind} {f i : Nat} (hk : k = kindOf f) :
    Inv kindOf (h ++ [.remove k f i]) (remove s k f i) := by
  cases hg : Dict.get (inner s f) i with
  | none =>
    rw [remove_none hg]
    have et : ∀ k', ({ s with received := s.received.filter (· != (f, i)) } : St).table k' = s.table k' := by intro k'; cases k' <;> rfl
    refine ⟨inv.ok, ?_, ?_, ?_, ?_, inv.flg⟩
    · intro f' i' b
      rw [live_snoc]
      simp only [reduceCtorEq, false_or, Touches]
      refine (inv.live f' i' b).trans ⟨fun hl => ⟨hl.1, hl.2, ?_⟩, fun hl => ⟨hl.1, hl.2.1⟩⟩
      rintro ⟨rfl, rfl⟩
      have := (inv.live f i b).mpr hl
      rw [hg] at this
      exact absurd this (by simp)
    · intro k' f'
      show (Dict.get ((St.table _ k').getD []) f').getD [] = _
      rw [et]
      exact inv.tab k' f'
    · intro f' i' b hb
      change Dict.get (inner s f') i' = some b at hb
      refine List.mem_filter.mpr ⟨inv.got f' i' b hb, ?_⟩
      simp only [bne_iff_ne, ne_eq, Prod.mk.injEq, not_and]
      rintro rfl rfl
      rw [hg] at hb
      exact absurd hb (by simp)
    · intro k' ht
      rw [et] at ht
      exact inv.act k' ht
  | some b0 =>
    have hne : inner s f ≠ [] := by
      intro e
      rw [e, Dict.get_nil] at hg
      exact absurd hg (by simp)
    have htne : tab s k f ≠ [] := by
      rw [inv.tab, if_pos hk]; exact breakDict_ne hne
    obtain ⟨ht, d0, hm, _⟩ := tab_some htne
    have hact := inv.act k ht
    have et : ∀ k', ({ s with received := s.received.filter (· != (f, i)) } : St).table k' = s.table k' := by intro k'; cases k' <;> rfl
    have hgb : getBreakpoints { s with received := s.received.filter (· != (f, i)) } k s.active = true := by
      apply getBreakpoints_true _ _ _ hact
      rw [et]
      intro e
      rw [e] at hm
      simp at hm
    have hids : Dict.get s.ids f = some (inner s f) := by
      unfold inner at hne ⊢
      cases hd : Dict.get s.ids f with
      | none => rw [hd] at hne; exact absurd rfl hne
      | some d => rfl
    have hhas : Dict.has (inner s f) i = true := by rw [Dict.has_iff_get, hg]; rfl
    have w := written s { s with received := s.received.filter (· != (f, i)) } k f (Dict.erase (inner s f) i) rfl (by
      intro k'
      rw [et]
      split
      · rename_i e
        rw [e]
        cases hq : s.table k with
        | none => exact absurd hq ht
        | some t => rfl
      · rfl) (fun _ hp => hp)
    have er : remove s k f i = { consolidate { s with received := s.received.filter (· != (f, i)), ids := Dict.set s.ids f (Dict.erase (inner s f) i) } k f (Dict.erase (inner s f) i) with
        flag := hasLineBreaks (consolidate { s with received := s.received.filter (· != (f, i)), ids := Dict.set s.ids f (Dict.erase (inner s f) i) } k f (Dict.erase (inner s f) i)) } := by
      unfold remove
      simp only [hgb, if_true, hids, hhas]
    rw [er]
    have hrec : ∀ x : Nat × Nat, x ∈ s.received → x ≠ (f, i) → x ∈ (consolidate { s with received := s.received.filter (· != (f, i)), ids := Dict.set s.ids f (Dict.erase (inner s f) i) } k f (Dict.erase (inner s f) i)).received := by
      intro x hx hx'
      rw [consolidate, setTable_received]
      exact List.mem_filter.mpr ⟨hx, by simpa using hx'⟩
    refine inv_written inv hk w _ (Dict.ok_erase (inv.ok f) _) (w.active k hact) ?_ ?_ ?_ ?_
    · intro i' b
      rw [Dict.get_erase, live_snoc]
      by_cases hi : i' = i
      · subst hi
        simp [Touches]
      · have h2 : ¬ i = i' := fun h => hi h.symm
        rw [if_neg hi, inv.live]
        simp [Touches, h2]
    · intro f' hf k' i' l'
      rw [live_snoc]
      have h2 : ¬ f = f' := fun h => hf h.symm
      simp [Touches, h2]
    · intro i' b hb
      rw [Dict.get_erase] at hb
      by_cases hi : i' = i
      · rw [if_pos hi] at hb; exact absurd hb (by simp)
      · rw [if_neg hi] at hb
        exact hrec _ (inv.got f i' b hb) (by simp [hi])
    · intro f' i' hf hm'
      exact hrec _ hm' (by simp [hf])

theorem inv_removeAll {kindOf : Nat → Kind} {h : List Op} {s : St} (inv : Inv kindOf h s) (f : Nat) :
    Inv kindOf (h ++ [.removeAll f]) (removeAll s f) := by
  have hl : ∀ f' i k l, Live (h ++ [.removeAll f]) k f' i l ↔ Live h k f' i l ∧ f' ≠ f := by
    intro f' i k l
    rw [live_snoc]
    simp [Touches, eq_comm]
  unfold removeAll
  by_cases hr : s.received.any (·.1 == f) = true
  · rw [if_pos hr]
    generalize hs' : ({ s with
      received := s.received.filter (·.1 != f), ids := Dict.erase s.ids f,
      django := s.django.map (Dict.erase · f), jinja2 := s.jinja2.map (Dict.erase · f) } : St) = s'
    have ht : ∀ k, s'.table k = (s.table k).map (Dict.erase · f) := by
      intro k; subst hs'; cases k <;> rfl
    have hin : ∀ f', inner s' f' = if f' = f then [] else inner s f' := by
      intro f'
      subst hs'
      unfold inner
      rw [Dict.get_erase]
      split <;> rfl
    have htab : ∀ k f', tab s' k f' = if f' = f then [] else tab s k f' := by
      intro k f'
      unfold tab
      rw [ht]
      cases s.table k with
      | none => simp [Dict.get_nil]
      | some t =>
        simp only [Option.map_some, Option.getD_some]
        rw [Dict.get_erase]
        split <;> rfl
    refine ⟨?_, ?_, ?_, ?_, ?_, ?_⟩
    · intro f'
      rw [hin]
      split
      · exact Dict.ok_nil
      · exact inv.ok f'
    · intro f' i b
      rw [hin, hl]
      by_cases hf : f' = f
      · simp [hf, Dict.get_nil]
      · rw [if_neg hf, inv.live]; simp [hf]
    · intro k f'
      rw [hin, htab, inv.tab]
      by_cases hf : f' = f
      · simp [hf, breakDict]
      · simp [hf]
    · intro f' i b hb
      rw [hin] at hb
      by_cases hf : f' = f
      · rw [if_pos hf, Dict.get_nil] at hb; exact absurd hb (by simp)
      · rw [if_neg hf] at hb
        subst hs'
        exact List.mem_filter.mpr ⟨inv.got f' i b hb, by simpa using hf⟩
    · intro k hk
      rw [ht] at hk
      have := inv.act k (by intro e; rw [e] at hk; exact hk rfl)
      subst hs'
      exact this
    · intro f' hne
      rw [hin] at hne
      by_cases hf : f' = f
      · rw [if_pos hf] at hne; exact absurd rfl hne
      · rw [if_neg hf] at hne
        have := inv.flg f' hne
        subst hs'
        exact this
  · rw [if_neg hr]
    have hnone : ∀ i b, Dict.get (inner s f) i ≠ some b := by
      intro i b hb
      apply hr
      rw [List.any_eq_true]
      exact ⟨_, inv.got f i b hb, by simp⟩
    refine ⟨inv.ok, ?_, inv.tab, inv.got, inv.act, inv.flg⟩
    intro f' i b
    rw [hl]
    refine (inv.live f' i b).trans ⟨fun hx => ⟨hx.1, hx.2, ?_⟩, fun hx => ⟨hx.1, hx.2.1⟩⟩
    rintro rfl
    exact hnone i b ((inv.live f' i b).mpr hx)

theorem inv_clear {kindOf : Nat → Kind} {h : List Op} {s : St} (inv : Inv kindOf h s) : Inv kindOf (h ++ [.clear]) (clear s) := by
  have ht : ∀ k, (clear s).table k = (s.table k).map fun _ => [] := by intro k; cases k <;> rfl
  have hin : ∀ f, inner (clear s) f = [] := fun f => rfl
  have htab : ∀ k f, tab (clear s) k f = [] := by
    intro k f
    unfold tab
    rw [ht]
    cases s.table k <;> rfl
  refine ⟨?_, ?_, ?_, ?_, ?_, ?_⟩
  · intro f; rw [hin]; exact Dict.ok_nil
  · intro f i b
    rw [hin, live_snoc]
    simp [Dict.get_nil, Touches]
  · intro k f
    rw [htab, hin]
    simp [breakDict]
  · intro f i b hb
    rw [hin, Dict.get_nil] at hb
    exact absurd hb (by simp)
  · intro k hk
    rw [ht] at hk
    exact inv.act k (by intro e; rw [e] at hk; exact hk rfl)
  · intro f hne
    exact absurd (hin f) hne

theorem inv_run (kindOf : Nat → Kind) (h : List Op) (hk : ∀ o ∈ h, OneKind kindOf o) : Inv kindOf h (run h) := by
  suffices ∀ (rest pre : List Op) (s : St), (∀ o ∈ rest, OneKind kindOf o) → Inv kindOf pre s → Inv kindOf (pre ++ rest) (rest.foldl step s) by
    refine this h [] {} hk ⟨fun _ => Dict.ok_nil, ?_, ?_, ?_, ?_, ?_⟩
    · intro f i b
      constructor
      · intro hb; exact absurd hb (by simp [inner, Dict.get_nil])
      · rintro ⟨_, pre, post, e, _⟩; simp at e
    · intro k f
      cases k <;> simp [tab, inner, St.table, Dict.get_nil, breakDict]
    · intro f i b hb; exact absurd hb (by simp [inner, Dict.get_nil])
    · intro k ht; cases k <;> exact absurd rfl ht
    · intro f hne; exact absurd (by simp [inner, Dict.get_nil]) hne
  intro rest
  induction rest with
  | nil => intro pre s _ inv; simpa using inv
  | cons o rest ih =>
    intro pre s hk inv
    rw [List.foldl_cons, show pre ++ o :: rest = (pre ++ [o]) ++ rest by simp]
    refine ih _ _ (fun x hx => hk x (by simp [hx])) ?_
    have ho := hk o (by simp)
    cases o with
    | add k f i l => exact inv_add inv ho
    | remove k f i => exact inv_remove inv ho
    | removeAll f => exact inv_removeAll inv f
    | clear => exact inv_clear inv

/-- C137. A template stops at a line exactly if a breakpoint is set there: at one that was set for that line and not touched since. -/
theorem c137_stops (kindOf : Nat → Kind) (h : List Op) (hk : ∀ o ∈ h, OneKind kindOf o) (k : Kind) (file line : Nat) :
    (∀ b, stopsAt (run h) k file line = some b → b.kind = k ∧ b.line = line ∧ Live h k file b.id line) ∧
    (∀ id, Live h k file id line → ∃ b, stopsAt (run h) k file line = some b) := by
  have inv := inv_run kindOf h hk
  constructor
  · intro b hb
    unfold stopsAt at hb
    split at hb
    · rw [pluginGet_eq, inv.tab] at hb
      by_cases hkf : k = kindOf file
      · rw [if_pos hkf] at hb
        obtain ⟨i, hm, hl⟩ := (breakDict_get _ line).1 b hb
        obtain ⟨hid, hlive⟩ := (inv.live file i b).mp (Dict.get_of_mem (inv.ok file) hm)
        have hkind : b.kind = k := (live_kind hk hlive).trans hkf.symm
        rw [hkind, hl, ← hid] at hlive
        exact ⟨hkind, hl, hlive⟩
      · rw [if_neg hkf, Dict.get_nil] at hb
        exact absurd hb (by simp)
    · exact absurd hb (by simp)
  · intro id hlive
    have hkf := live_kind hk hlive
    have hg : Dict.get (inner (run h) file) id = some ⟨k, id, line⟩ := (inv.live file id ⟨k, id, line⟩).mpr ⟨rfl, hlive⟩
    have hne : inner (run h) file ≠ [] := by
      intro e
      rw [e, Dict.get_nil] at hg
      exact absurd hg (by simp)
    have htne : tab (run h) k file ≠ [] := by
      rw [inv.tab, if_pos hkf]; exact breakDict_ne hne
    unfold stopsAt
    rw [if_pos ⟨inv.flg file hne, inv.act k (tab_some htne).1⟩, pluginGet_eq, inv.tab, if_pos hkf]
    exact (breakDict_get _ line).2 id _ (Dict.mem_of_get hg) rfl

/-! ### A case, and what is wrong -/

def history : List Op :=
  [.add .django 1 10 5, .add .jinja2 2 11 5, .add .django 1 12 7, .remove .django 1 10, .add .jinja2 2 13 8, .removeAll 3, .add .django 4 14 1, .removeAll 4]

def kinds : Nat → Kind := fun f => if f = 2 then .jinja2 else .django

/-- Two files of different kinds. -/
theorem c137_example : (∀ o ∈ history, OneKind kinds o) ∧
    stopsAt (run history) .django 1 7 = some ⟨.django, 12, 7⟩ ∧ stopsAt (run history) .django 1 5 = none ∧
    stopsAt (run history) .jinja2 2 5 = some ⟨.jinja2, 11, 5⟩ ∧ stopsAt (run history) .jinja2 2 8 = some ⟨.jinja2, 13, 8⟩ ∧
    stopsAt (run history) .django 4 1 = none := by
  refine ⟨?_, by decide +kernel, by decide +kernel, by decide +kernel, by decide +kernel, by decide +kernel⟩
  intro o ho
  simp only [history, List.mem_cons, List.not_mem_nil, or_false] at ho
  rcases ho with rfl | rfl | rfl | rfl | rfl | rfl | rfl | rfl <;> first | trivial | rfl

/-- Breakpoints of two kinds in one file share one table of numbers: a breakpoint that was removed still stops templates of the other kind, and
one of the other kind stops templates it was not set for. -/
theorem c137_mixed_witness :
    let s := run [.add .django 1 10 5, .add .jinja2 1 11 6, .remove .django 1 10]
    stopsAt s .jinja2 1 5 = some ⟨.django, 10, 5⟩ ∧ stopsAt s .django 1 6 = some ⟨.jinja2, 11, 6⟩ := by
  constructor <;> decide +kernel

end PluginBreaks
