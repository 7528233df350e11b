import Verif.Template.Model
/-!
# C83: breakpoints in templates
-/
namespace Template

open Py

/-- The lines of a template, in order. -/
def Sorted (valid : List Nat) : Prop := valid.Pairwise (· < ·)

/-! ## The nearest line before -/

theorem takeWhile_lt (v : List Nat) (l b : Nat) (h : b ∈ v.takeWhile (· < l)) : b < l := by
  induction v with
  | nil => simp at h
  | cons a v ih =>
    rw [List.takeWhile_cons] at h
    split at h
    · rename_i ha
      rcases List.mem_cons.1 h with h | h
      · simp at ha; omega
      · exact ih h
    · simp at h

theorem pred_some (valid : List Nat) (hs : Sorted valid) (l p : Nat) :
    pred valid l = some p ↔ p ∈ valid ∧ p < l ∧ ∀ q ∈ valid, q < l → q ≤ p := by
  unfold pred
  induction valid with
  | nil => simp
  | cons a v ih =>
    unfold Sorted at hs
    rw [List.pairwise_cons] at hs
    rw [List.takeWhile_cons]
    by_cases ha : a < l
    · simp only [ha, decide_true, if_true]
      rw [List.getLast?_cons]
      have ih := ih hs.2
      cases hl : (v.takeWhile (· < l)).getLast? with
      | none =>
        simp only [Option.getD_none, Option.some.injEq]
        have hno : ∀ q ∈ v, ¬ q < l := by
          intro q hq hql
          rw [List.getLast?_eq_none_iff] at hl
          cases v with
          | nil => simp at hq
          | cons b v =>
            rw [List.takeWhile_cons] at hl
            split at hl
            · simp at hl
            · rename_i hb
              simp at hb
              rcases List.mem_cons.1 hq with h | h
              · omega
              · have := (List.pairwise_cons.1 hs.2).1 q h; omega
        constructor
        · rintro rfl
          refine ⟨by simp, ha, ?_⟩
          intro q hq hql
          rcases List.mem_cons.1 hq with h | h
          · omega
          · exact absurd hql (hno q h)
        · rintro ⟨hp, hpl, _⟩
          rcases List.mem_cons.1 hp with h | h
          · exact h.symm
          · exact absurd hpl (hno p h)
      | some b =>
        simp only [Option.getD_some, Option.some.injEq]
        rw [hl] at ih
        simp only [Option.some.injEq] at ih
        rw [ih]
        constructor
        · rintro ⟨h1, h2, h3⟩
          refine ⟨by simp [h1], h2, ?_⟩
          intro q hq hql
          rcases List.mem_cons.1 hq with h | h
          · have := hs.1 p h1; omega
          · exact h3 q h hql
        · rintro ⟨h1, h2, h3⟩
          refine ⟨?_, h2, fun q hq hql => h3 q (by simp [hq]) hql⟩
          rcases List.mem_cons.1 h1 with h | h
          · exfalso
            have hb : b ∈ v ∧ b < l := by
              have := List.mem_of_getLast? hl
              exact ⟨(List.takeWhile_sublist _).subset this, takeWhile_lt v l b this⟩
            have := h3 b (by simp [hb.1]) hb.2
            have := hs.1 b hb.1
            omega
          · exact h
    · simp only [ha, decide_false, Bool.false_eq_true, if_false]
      constructor
      · simp
      · rintro ⟨h1, h2, _⟩
        rcases List.mem_cons.1 h1 with h | h
        · omega
        · have := hs.1 p h; omega

/-! ## One verification -/

/-- How a breakpoint stands after a verification of the state `s0`. -/
def Good (valid : List Nat) (s0 s : State) (l id : Nat) : Prop :=
  (s.bps id).key = some valid ∧ (s.bps id).shown = l ∧ ∃ l0, (l0, id) ∈ s0.lines ∧
    (((s.bps id).err = .ok ∧ l0 ∈ valid ∧ l = l0) ∨
     ((s.bps id).err = .ok ∧ l0 ∉ valid ∧ pred valid l0 = some l ∧ (s0.bps id).err ≠ .ok) ∨
     ((s.bps id).err = .invalid ∧ l0 ∉ valid ∧ l = l0 ∧ ∀ p, pred valid l0 = some p → ∃ i, i ≠ id ∧ (p, i) ∈ s.lines) ∨
     ((s.bps id).err = .ok ∧ l0 ∉ valid ∧ l = l0 ∧ (s0.bps id).err = .ok))

structure Inv (valid : List Nat) (s0 : State) (rest : List (Nat × Nat)) (s : State) : Prop where
  ok : Dict.Ok s.lines
  ids : ∀ l l' i, (l, i) ∈ s.lines → (l', i) ∈ s.lines → l = l'
  sub : ∀ e ∈ rest, e ∈ s.lines ∧ e ∈ s0.lines
  same : ∀ e ∈ rest, s.bps e.2 = s0.bps e.2
  line : ∀ i, (s.bps i).line = (s0.bps i).line
  done : ∀ l i, (l, i) ∈ s.lines → (l, i) ∉ rest → Good valid s0 s l i
  kept : ∀ l i, (l, i) ∈ s0.lines → ∃ l', (l', i) ∈ s.lines
  back : ∀ l i, (l, i) ∈ s.lines → ∃ l', (l', i) ∈ s0.lines
  order : s.order = s0.order
  last : s.last = s0.last
  out : ∀ i, (∀ l, (l, i) ∉ s0.lines) → s.bps i = s0.bps i

theorem mem_erase (d : List (Nat × Nat)) (k : Nat) (e : Nat × Nat) : e ∈ Dict.erase d k ↔ e ∈ d ∧ e.1 ≠ k := by
  simp [Dict.erase]

theorem mem_has (d : List (Nat × Nat)) (k : Nat) : Dict.has d k = true ↔ ∃ i, (k, i) ∈ d := by
  rw [Dict.has_iff]
  simp

/-- Changing a breakpoint and telling it changes nothing else. -/
theorem inv_change (valid : List Nat) (s0 s t : State) (l id : Nat) (r : List (Nat × Nat))
    (h : Inv valid s0 ((l, id) :: r) s) (hnd : ∀ e ∈ r, e.2 ≠ id)
    (hl : t.lines = s.lines) (ho : t.order = s.order) (hla : t.last = s.last)
    (hb : ∀ i, i ≠ id → t.bps i = s.bps i) (hline : (t.bps id).line = (s.bps id).line) (hg : Good valid s0 t l id) :
    Inv valid s0 r t where
  ok := by rw [hl]; exact h.ok
  ids := by rw [hl]; exact h.ids
  sub := by rw [hl]; exact fun e he => h.sub e (by simp [he])
  same := by intro e he; rw [hb e.2 (hnd e he)]; exact h.same e (by simp [he])
  line := by
    intro i
    by_cases e : i = id
    · rw [e, hline]; exact h.line id
    · rw [hb i e]; exact h.line i
  done := by
    intro l' i hi hr
    rw [hl] at hi
    by_cases e : i = id
    · have hm := (h.sub (l, id) (by simp)).1
      subst e
      have := h.ids l' l i hi hm
      rw [this]; exact hg
    · have g := h.done l' i hi (by simp [e, hr])
      unfold Good at g ⊢
      rw [hb i e, hl]
      exact g
  kept := by rw [hl]; exact h.kept
  back := by rw [hl]; exact h.back
  order := by rw [ho]; exact h.order
  last := by rw [hla]; exact h.last
  out := by
    intro i hi
    have : i ≠ id := by
      rintro rfl
      exact hi l (h.sub (l, i) (by simp)).2
    rw [hb i this]; exact h.out i hi

theorem verifyOne_inv (valid : List Nat) (hs : Sorted valid) (s0 s : State) (l id : Nat) (r : List (Nat × Nat))
    (h : Inv valid s0 ((l, id) :: r) s) (hnd : ∀ e ∈ r, e.2 ≠ id) (hk : (s0.bps id).key ≠ some valid)
    (hsh : (s0.bps id).shown = l) : Inv valid s0 r (verifyOne valid s (l, id)) := by
  have hm := (h.sub (l, id) (by simp)).1
  have hm0 := (h.sub (l, id) (by simp)).2
  have hsame : s.bps id = s0.bps id := h.same (l, id) (by simp)
  unfold verifyOne
  simp only [hsame, hk, if_false, State.update, if_true]
  by_cases hv : l ∈ valid
  · rw [if_pos hv]
    by_cases he : (s0.bps id).err = .ok
    · simp only [he, if_true]
      refine inv_change valid s0 s _ l id r h hnd rfl rfl rfl (fun i hi => by simp [hi]) (by simp [hsame]) ?_
      refine ⟨by simp, by simp [hsame, hsh], l, hm0, Or.inl ⟨by simp [hsame, he], hv, rfl⟩⟩
    · simp only [he, if_false]
      refine inv_change valid s0 s _ l id r h hnd rfl rfl rfl (fun i hi => by simp [State.tell, hi]) (by simp [State.tell, hsame]) ?_
      refine ⟨by simp [State.tell], by simp [State.tell, hsame, hsh], l, hm0, Or.inl ⟨by simp [State.tell], hv, rfl⟩⟩
  · rw [if_neg hv]
    have blocked : (∀ p, pred valid l = some p → ∃ i, i ≠ id ∧ (p, i) ∈ s.lines) → Inv valid s0 r
        (if (s0.bps id).err = .invalid then
          { s with bps := fun i => if i = id then { s.bps i with key := some valid } else s.bps i }
        else
          ({ s with bps := fun i => if i = id then { (if i = id then { s.bps i with key := some valid } else s.bps i) with err := .invalid }
              else if i = id then { s.bps i with key := some valid } else s.bps i } : State).tell id) := by
      intro hp
      by_cases he : (s0.bps id).err = .invalid
      · simp only [he, if_true]
        refine inv_change valid s0 s _ l id r h hnd rfl rfl rfl (fun i hi => by simp [hi]) (by simp [hsame]) ?_
        exact ⟨by simp, by simp [hsame, hsh], l, hm0, Or.inr (Or.inr (Or.inl ⟨by simp [hsame, he], hv, rfl, hp⟩))⟩
      · simp only [he, if_false]
        refine inv_change valid s0 s _ l id r h hnd rfl rfl rfl (fun i hi => by simp [State.tell, hi]) (by simp [State.tell, hsame]) ?_
        exact ⟨by simp [State.tell], by simp [State.tell, hsame, hsh], l, hm0, Or.inr (Or.inr (Or.inl ⟨by simp [State.tell], hv, rfl, hp⟩))⟩
    cases hp : pred valid l with
    | none => exact blocked (by simp [hp])
    | some p =>
      obtain ⟨hpv, hpl, _⟩ := (pred_some valid hs l p).1 hp
      simp only
      by_cases hhas : Dict.has s.lines p = true
      · rw [if_pos hhas]
        apply blocked
        intro q hq
        rw [hp] at hq
        simp only [Option.some.injEq] at hq
        subst hq
        obtain ⟨i, hi⟩ := (mem_has _ _).1 hhas
        refine ⟨i, ?_, hi⟩
        rintro rfl
        have := h.ids _ _ _ hi hm
        omega
      · rw [if_neg hhas]
        by_cases he : (s0.bps id).err = .ok
        · simp only [he, ne_eq, not_true_eq_false, false_and, if_false]
          refine inv_change valid s0 s _ l id r h hnd rfl rfl rfl (fun i hi => by simp [hi]) (by simp [hsame]) ?_
          exact ⟨by simp, by simp [hsame, hsh], l, hm0, Or.inr (Or.inr (Or.inr ⟨by simp [hsame, he], hv, rfl, he⟩))⟩
        · have hne : (s0.bps id).shown ≠ p := by omega
          simp only [ne_eq, he, not_false_eq_true, hne, and_self, if_true]
          have hnp : ∀ i, (p, i) ∉ s.lines := fun i hi => hhas ((mem_has _ _).2 ⟨i, hi⟩)
          have hok := Dict.ok_erase h.ok l
          have hmem : ∀ e, e ∈ Dict.set (Dict.erase s.lines l) p id ↔ e = (p, id) ∨ (e ∈ s.lines ∧ e.1 ≠ l ∧ e.1 ≠ p) := by
            intro e
            rw [Dict.mem_set hok, mem_erase]; simp [and_assoc]
          have hbps : ∀ i, i ≠ id → (({ s with
              lines := Dict.set (Dict.erase s.lines l) p id
              bps := fun i => if i = id then { (if i = id then { s.bps i with key := some valid } else s.bps i) with err := .ok, shown := p }
                else if i = id then { s.bps i with key := some valid } else s.bps i } : State).tell id).bps i = s.bps i := by
            intro i hi; simp [State.tell, hi]
          constructor
          · exact Dict.ok_set hok p id
          · intro a b i ha hb
            simp only [State.tell] at ha hb
            rw [hmem] at ha hb
            rcases ha with ha | ⟨ha, ha1, ha2⟩ <;> rcases hb with hb | ⟨hb, hb1, hb2⟩
            · simp only [Prod.mk.injEq] at ha hb; rw [ha.1, hb.1]
            · simp only [Prod.mk.injEq] at ha; rw [ha.2] at hb; exact absurd (h.ids _ _ _ hb hm) hb1
            · simp only [Prod.mk.injEq] at hb; rw [hb.2] at ha; exact absurd (h.ids _ _ _ ha hm) ha1
            · exact h.ids _ _ _ ha hb
          · intro e he'
            obtain ⟨h1, h2⟩ := h.sub e (by simp [he'])
            refine ⟨?_, h2⟩
            simp only [State.tell]
            rw [hmem]
            right
            refine ⟨h1, ?_, ?_⟩
            · intro hel
              have := Dict.get_of_mem h.ok h1
              rw [hel, Dict.get_of_mem h.ok hm] at this
              simp only [Option.some.injEq] at this
              exact hnd e he' this.symm
            · intro hep
              exact hnp e.2 (by rw [← hep]; exact h1)
          · intro e he'
            rw [hbps e.2 (hnd e he')]
            exact h.same e (by simp [he'])
          · intro i
            by_cases e : i = id
            · subst e; simp [State.tell]; exact h.line i
            · rw [hbps i e]; exact h.line i
          · intro a i ha hr
            simp only [State.tell] at ha
            rw [hmem] at ha
            rcases ha with ha | ⟨ha, ha1, ha2⟩
            · simp only [Prod.mk.injEq] at ha
              obtain ⟨rfl, rfl⟩ := ha
              exact ⟨by simp [State.tell], by simp [State.tell], l, hm0, Or.inr (Or.inl ⟨by simp [State.tell], hv, hp, he⟩)⟩
            · have hid : i ≠ id := by
                rintro rfl
                exact ha1 (h.ids _ _ _ ha hm)
              have g := h.done a i ha (by simp [hid, hr])
              unfold Good at g ⊢
              rw [hbps i hid]
              obtain ⟨g1, g2, l0, g3, g4⟩ := g
              refine ⟨g1, g2, l0, g3, ?_⟩
              rcases g4 with g4 | g4 | ⟨g4, g5, g6, g7⟩ | g4
              · exact Or.inl g4
              · exact Or.inr (Or.inl g4)
              · refine Or.inr (Or.inr (Or.inl ⟨g4, g5, g6, ?_⟩))
                intro q hq
                obtain ⟨j, hj1, hj⟩ := g7 q hq
                refine ⟨j, hj1, ?_⟩
                simp only [State.tell]
                rw [hmem]
                right
                refine ⟨hj, ?_, ?_⟩
                · have hqv := ((pred_some valid hs l0 q).1 hq).1
                  intro e
                  simp only at e
                  rw [e] at hqv; exact hv hqv
                · intro e
                  simp only at e
                  exact hnp j (by rw [← e]; exact hj)
              · exact Or.inr (Or.inr (Or.inr g4))
          · intro a i ha
            obtain ⟨b, hb⟩ := h.kept a i ha
            by_cases e : i = id
            · exact ⟨p, by simp only [State.tell]; rw [hmem]; left; rw [e]⟩
            · refine ⟨b, ?_⟩
              simp only [State.tell]
              rw [hmem]
              right
              refine ⟨hb, ?_, ?_⟩
              · rintro rfl
                have := Dict.get_of_mem h.ok hb
                rw [Dict.get_of_mem h.ok hm] at this
                simp only [Option.some.injEq] at this
                exact e this.symm
              · rintro rfl; exact hnp i hb
          · intro a i ha
            simp only [State.tell] at ha
            rw [hmem] at ha
            rcases ha with ha | ⟨ha, _, _⟩
            · simp only [Prod.mk.injEq] at ha
              rw [ha.2]; exact ⟨l, hm0⟩
            · exact h.back a i ha
          · exact h.order
          · exact h.last
          · intro i hi
            have : i ≠ id := by
              rintro rfl
              exact hi l hm0
            rw [hbps i this]; exact h.out i hi

/-- A state whose breakpoints are where the client was told they are, none checked against these lines. -/
structure Fresh (valid : List Nat) (s : State) : Prop where
  ok : Dict.Ok s.lines
  ids : ∀ l l' i, (l, i) ∈ s.lines → (l', i) ∈ s.lines → l = l'
  key : ∀ l i, (l, i) ∈ s.lines → (s.bps i).key ≠ some valid
  shown : ∀ l i, (l, i) ∈ s.lines → (s.bps i).shown = l

theorem verify_inv (valid : List Nat) (hs : Sorted valid) (s : State) (h : Fresh valid s) : Inv valid s [] (verify valid s) := by
  have key : ∀ (rest : List (Nat × Nat)) (t : State), Inv valid s rest t → (rest.map (·.2)).Nodup →
      Inv valid s [] (rest.foldl (verifyOne valid) t) := by
    intro rest
    induction rest with
    | nil => intro t ht _; exact ht
    | cons e r ih =>
      intro t ht hn
      obtain ⟨l, id⟩ := e
      rw [List.map_cons, List.nodup_cons] at hn
      rw [List.foldl_cons]
      refine ih _ (verifyOne_inv valid hs s t l id r ht ?_ ?_ ?_) hn.2
      · intro e he heq
        exact hn.1 (List.mem_map.2 ⟨e, he, heq⟩)
      · exact h.key l id (ht.sub (l, id) (by simp)).2
      · exact h.shown l id (ht.sub (l, id) (by simp)).2
  refine key s.lines s ⟨h.ok, h.ids, fun e he => ⟨he, he⟩, fun _ _ => rfl, fun _ => rfl, fun l i hi hn => absurd hi hn,
    fun l i hi => ⟨l, hi⟩, fun l i hi => ⟨l, hi⟩, rfl, rfl, fun _ _ => rfl⟩ ?_
  have h1 := h.ok
  unfold Dict.Ok at h1
  have h2 := h.ids
  clear key h hs
  generalize s.lines = d at h1 h2
  induction d with
  | nil => simp
  | cons e d ih =>
    rw [List.map_cons, List.nodup_cons] at h1 ⊢
    refine ⟨?_, ih h1.2 (fun l l' i a b => h2 l l' i (by simp [a]) (by simp [b]))⟩
    intro hm
    obtain ⟨e', he', heq⟩ := List.mem_map.1 hm
    have := h2 e.1 e'.1 e.2 (by simp) (by rw [← heq]; simp [he'])
    exact h1.1 (List.mem_map.2 ⟨e', he', this.symm⟩)

/-! ## Before the template is loaded -/

def Op.isRender : Op → Bool
  | .render _ => true
  | _ => false

/-- No line is taken by two breakpoints; each breakpoint which has a line has its own. -/
structure Unloaded (s : State) : Prop where
  last : s.last = none
  ok : Dict.Ok s.lines
  mem : ∀ l i, (l, i) ∈ s.lines → i ∈ s.order ∧ (s.bps i).line = l
  bps : ∀ i ∈ s.order, s.bps i = ⟨(s.bps i).line, .lazy, (s.bps i).line, none⟩

theorem consolidate_ok (s : State) : Dict.Ok (consolidate s).lines ∧
    ∀ l i, (l, i) ∈ (consolidate s).lines → i ∈ s.order ∧ (s.bps i).line = l := by
  unfold consolidate
  simp only
  generalize hR : s.order = R
  have key : ∀ (ids : List Nat) (d : List (Nat × Nat)), (∀ i ∈ ids, i ∈ R) → Dict.Ok d →
      (∀ l i, (l, i) ∈ d → i ∈ R ∧ (s.bps i).line = l) →
      Dict.Ok (ids.foldl (fun d id => Dict.set d (s.bps id).line id) d) ∧
      ∀ l i, (l, i) ∈ ids.foldl (fun d id => Dict.set d (s.bps id).line id) d → i ∈ R ∧ (s.bps i).line = l := by
    intro ids
    induction ids with
    | nil => intro d _ h1 h2; exact ⟨h1, h2⟩
    | cons a ids ih =>
      intro d h0 h1 h2
      rw [List.foldl_cons]
      refine ih _ (fun i hi => h0 i (by simp [hi])) (Dict.ok_set h1 _ _) ?_
      intro l i hm
      rw [Dict.mem_set h1] at hm
      rcases hm with hm | ⟨hm, _⟩
      · simp only [Prod.mk.injEq] at hm
        rw [hm.2]; exact ⟨h0 a (by simp), hm.1.symm⟩
      · exact h2 l i hm
  exact key R [] (fun i hi => hi) Dict.ok_nil (by simp)

theorem step_unloaded (s : State) (h : Unloaded s) (op : Op) (ho : op.isRender = false) : Unloaded (step s op) := by
  cases op with
  | render v => simp [Op.isRender] at ho
  | clear => exact ⟨h.last, Dict.ok_nil, by simp [step], by simp [step]⟩
  | add id line =>
    have : ∀ t : State, t.last = none → (afterConsolidated (consolidate t)).tell id = (consolidate t).tell id := by
      intro t ht
      unfold afterConsolidated
      have : (consolidate t).last = none := ht
      rw [this]
    simp only [step]
    generalize hT : (State.update { s with order := if id ∈ s.order then s.order else s.order ++ [id] } id fun _ => ⟨line, .lazy, line, none⟩) = T
    rw [this T (by rw [← hT]; exact h.last)]
    have hord : ∀ i, i ∈ T.order ↔ i ∈ s.order ∨ i = id := by
      intro i
      rw [← hT]
      simp only [State.update]
      split <;> simp
      rintro rfl; assumption
    have hc := consolidate_ok T
    refine ⟨?_, hc.1, hc.2, ?_⟩
    · show T.last = none
      rw [← hT]; exact h.last
    · intro i hi
      have hi' : i ∈ T.order := hi
      show T.bps i = ⟨(T.bps i).line, .lazy, (T.bps i).line, none⟩
      by_cases e : i = id
      · rw [← hT]; simp [State.update, e]
      · have : T.bps i = s.bps i := by rw [← hT]; simp [State.update, e]
        rw [this]
        exact h.bps i (((hord i).1 hi').resolve_right e)
  | remove id =>
    simp only [step]
    split
    · have hc := consolidate_ok { s with order := s.order.filter (· ≠ id) }
      unfold afterConsolidated
      have : (consolidate { s with order := s.order.filter (· ≠ id) }).last = none := h.last
      rw [this]
      refine ⟨h.last, hc.1, hc.2, ?_⟩
      intro i hi
      have : i ∈ s.order.filter (· ≠ id) := hi
      exact h.bps i (List.mem_filter.1 this).1
    · exact h

theorem run_unloaded (ops : List Op) (ho : ∀ op ∈ ops, op.isRender = false) : Unloaded (run init ops) := by
  have : Unloaded init := ⟨rfl, Dict.ok_nil, by simp [init], by simp [init]⟩
  unfold run
  exact List.foldlRecOn (motive := Unloaded) _ _ this (fun s hs op hop => step_unloaded s hs op (ho op hop))

/-! ## The first time a template is rendered -/

/-- After any requests for breakpoints in a template not rendered yet, when it is first rendered, each
breakpoint which has a line is either on its own line, if that is valid, or on the nearest valid line before
it, and the client is told this line (`c83_told`); or it is told that it is invalid, there is no valid line
before or another breakpoint is on the nearest one, and rendering no line stops at it. -/
theorem c83_first (ops : List Op) (ho : ∀ op ∈ ops, op.isRender = false) (valid : List Nat) (hs : Sorted valid)
    (id line : Nat) (hid : hit (run init ops) line = some id) :
    let t := run init (ops ++ [.render valid])
    ((t.bps id).err = .ok ∧ hit t (t.bps id).shown = some id ∧
      ((line ∈ valid ∧ (t.bps id).shown = line) ∨ (line ∉ valid ∧ pred valid line = some (t.bps id).shown))) ∨
    ((t.bps id).err = .invalid ∧ line ∉ valid ∧ (∀ l ∈ valid, hit t l ≠ some id) ∧
      ∀ p, pred valid line = some p → ∃ i, i ≠ id ∧ hit t p = some i) := by
  intro t
  have hu := run_unloaded ops ho
  have hmem := Dict.mem_of_get hid
  generalize hS : run init ops = S at hu hid hmem
  have ht : t = verify valid { S with last := some valid } := by
    show run init (ops ++ [.render valid]) = _
    unfold run
    rw [List.foldl_append]
    show step (run init ops) (.render valid) = _
    rw [hS]
    simp only [step]
    rw [if_neg]
    intro he
    rw [List.isEmpty_iff] at he
    rw [he] at hmem
    simp at hmem
  have hf : Fresh valid { S with last := some valid } := by
    refine ⟨hu.ok, ?_, ?_, ?_⟩
    · intro l l' i h1 h2
      rw [← (hu.mem l i h1).2, ← (hu.mem l' i h2).2]
    · intro l i h1
      have := hu.bps i (hu.mem l i h1).1
      show (S.bps i).key ≠ _
      rw [this]; simp
    · intro l i h1
      have := hu.bps i (hu.mem l i h1).1
      show (S.bps i).shown = _
      rw [this]; exact (hu.mem l i h1).2
  have hi := verify_inv valid hs _ hf
  rw [← ht] at hi
  have hlz : (S.bps id).err = .lazy := by rw [hu.bps id (hu.mem line id hmem).1]
  obtain ⟨l', hl'⟩ := hi.kept line id hmem
  obtain ⟨g1, g2, l0, g3, g4⟩ := hi.done l' id hl' (by simp)
  have hl0 : l0 = line := hf.ids l0 line id g3 hmem
  subst hl0
  have hget : hit t l' = some id := Dict.get_of_mem hi.ok hl'
  rcases g4 with ⟨a, b, c⟩ | ⟨a, b, c, _⟩ | ⟨a, b, c, d⟩ | ⟨_, _, _, d⟩
  · left; refine ⟨a, by rw [g2]; exact hget, Or.inl ⟨b, by rw [g2, c]⟩⟩
  · left; refine ⟨a, by rw [g2]; exact hget, Or.inr ⟨b, by rw [g2, c]⟩⟩
  · right
    refine ⟨a, b, ?_, ?_⟩
    · intro l hl hh
      have := hi.ids l l' id (Dict.mem_of_get hh) hl'
      rw [this, c] at hl
      exact b hl
    · intro p hp
      obtain ⟨i, hi1, hi2⟩ := d p hp
      exact ⟨i, hi1, Dict.get_of_mem hi.ok hi2⟩
  · rw [show ({ S with last := some valid } : State).bps id = S.bps id from rfl, hlz] at d
    simp at d

/-! ## Rendering again -/

theorem verifyOne_skip (valid : List Nat) (s : State) (e : Nat × Nat) (h : (s.bps e.2).key = some valid) :
    verifyOne valid s e = s := by
  unfold verifyOne
  simp [h]

/-- Rendering more nodes of the same template changes nothing and tells the client nothing. -/
theorem c83_again (ops : List Op) (ho : ∀ op ∈ ops, op.isRender = false) (valid : List Nat) (hs : Sorted valid) :
    run init (ops ++ [.render valid, .render valid]) = run init (ops ++ [.render valid]) := by
  have hu := run_unloaded ops ho
  unfold run at hu ⊢
  rw [List.foldl_append, List.foldl_append]
  generalize ops.foldl step init = S at hu
  simp only [List.foldl_cons, List.foldl_nil]
  by_cases he : S.lines.isEmpty = true
  · simp only [step, he, if_true]
  · have hst : step S (.render valid) = verify valid { S with last := some valid } := by simp [step, he]
    have hf : Fresh valid { S with last := some valid } := by
      refine ⟨hu.ok, ?_, ?_, ?_⟩
      · intro l l' i h1 h2
        rw [← (hu.mem l i h1).2, ← (hu.mem l' i h2).2]
      · intro l i h1
        have := hu.bps i (hu.mem l i h1).1
        show (S.bps i).key ≠ _
        rw [this]; simp
      · intro l i h1
        have := hu.bps i (hu.mem l i h1).1
        show (S.bps i).shown = _
        rw [this]; exact (hu.mem l i h1).2
    have hi := verify_inv valid hs _ hf
    rw [← hst] at hi
    generalize step S (.render valid) = T at hi
    have hl : T.last = some valid := hi.last
    simp only [step]
    split
    · rfl
    · have : ({ T with last := some valid } : State) = T := by rw [← hl]
      rw [this]
      unfold verify
      have key : ∀ d : List (Nat × Nat), (∀ e ∈ d, (T.bps e.2).key = some valid) → d.foldl (verifyOne valid) T = T := by
        intro d
        induction d with
        | nil => intro _; rfl
        | cons e d ih =>
          intro h
          rw [List.foldl_cons, verifyOne_skip valid T e (h e (by simp))]
          exact ih (fun e he => h e (by simp [he]))
      exact key _ (fun e he => (hi.done e.1 e.2 he (by simp)).1)

/-! ## What the client knows -/

/-- The last thing the client was told about a breakpoint. -/
def lastTold (s : State) (id : Nat) : Option (Err × Nat) := ((s.told.filter (·.1 = id)).getLast?).map (·.2)

def Knows (s : State) (i : Nat) : Prop := lastTold s i = some ((s.bps i).err, (s.bps i).shown)

theorem knows_tell (s : State) (id : Nat) : Knows (s.tell id) id := by
  simp [Knows, lastTold, State.tell]

theorem knows_tell_other (s : State) (id i : Nat) (h : Knows s i) (hi : i ≠ id) : Knows (s.tell id) i := by
  unfold Knows lastTold at *
  have : ¬ id = i := fun e => hi e.symm
  simpa [State.tell, List.filter_append, this] using h

theorem knows_congr (s t : State) (i : Nat) (h : Knows s i) (ht : t.told = s.told) (he : (t.bps i).err = (s.bps i).err)
    (hsh : (t.bps i).shown = (s.bps i).shown) : Knows t i := by
  unfold Knows lastTold at *
  rw [ht, he, hsh]; exact h

theorem verifyOne_knows (valid : List Nat) (s : State) (e : Nat × Nat) (i : Nat) (h : Knows s i) : Knows (verifyOne valid s e) i := by
  obtain ⟨l, id⟩ := e
  have hkey : Knows (s.update id fun b => { b with key := some valid }) i := by
    refine knows_congr _ _ i h rfl ?_ ?_ <;> (simp only [State.update]; split <;> rfl)
  have htell : ∀ (t : State), t.told = s.told → (∀ j, j ≠ id → t.bps j = s.bps j) → Knows (t.tell id) i := by
    intro t h1 h2
    by_cases hi : i = id
    · rw [hi]; exact knows_tell t id
    · apply knows_tell_other _ _ _ _ hi
      exact knows_congr s t i h h1 (by rw [h2 i hi]) (by rw [h2 i hi])
  unfold verifyOne
  simp only
  split
  · exact h
  · split
    · split
      · exact hkey
      · exact htell _ rfl (fun j hj => by simp [State.update, hj])
    · split
      · split
        · exact hkey
        · exact htell _ rfl (fun j hj => by simp [State.update, hj])
      · split
        · split
          · exact hkey
          · exact htell _ rfl (fun j hj => by simp [State.update, hj])
        · split
          · exact htell _ rfl (fun j hj => by simp [State.update, hj])
          · exact hkey

theorem verify_knows (valid : List Nat) (s : State) (i : Nat) (h : Knows s i) : Knows (verify valid s) i := by
  unfold verify
  exact List.foldlRecOn (motive := fun t => Knows t i) _ _ h (fun t ht e _ => verifyOne_knows valid t e i ht)

theorem after_knows (s : State) (i : Nat) (h : Knows s i) : Knows (afterConsolidated s) i := by
  unfold afterConsolidated
  split
  · exact h
  · exact verify_knows _ s i h

theorem verify_order (valid : List Nat) (s : State) : (verify valid s).order = s.order := by
  unfold verify
  refine List.foldlRecOn (motive := fun t : State => t.order = s.order) _ _ rfl (fun t ht e _ => ?_)
  rw [← ht]
  unfold verifyOne
  simp only
  repeat' split
  all_goals rfl

theorem after_order (s : State) : (afterConsolidated s).order = s.order := by
  unfold afterConsolidated
  split
  · rfl
  · exact verify_order _ s

theorem step_knows (s : State) (op : Op) (h : ∀ i ∈ s.order, Knows s i) : ∀ i ∈ (step s op).order, Knows (step s op) i := by
  cases op with
  | clear => simp [step]
  | add id line =>
    intro i hi
    simp only [step] at hi ⊢
    by_cases e : i = id
    · rw [e]; exact knows_tell _ id
    · apply knows_tell_other _ _ _ _ e
      apply after_knows
      have hi2 : i ∈ s.order := by
        have h1 := hi
        simp only [State.tell, after_order, consolidate, State.update] at h1
        split at h1
        · exact h1
        · simp [e] at h1; exact h1
      exact knows_congr s _ i (h i hi2) rfl (by simp [consolidate, State.update, e]) (by simp [consolidate, State.update, e])
  | remove id =>
    simp only [step]
    split
    · intro i hi
      apply after_knows
      rw [after_order] at hi
      have : i ∈ s.order.filter (· ≠ id) := hi
      exact knows_congr s _ i (h i (List.mem_filter.1 this).1) rfl rfl rfl
    · exact h
  | render valid =>
    simp only [step]
    split
    · exact h
    · intro i hi
      apply verify_knows
      rw [verify_order] at hi
      exact knows_congr s _ i (h i hi) rfl rfl rfl

/-- In any history the last thing the client was told about a breakpoint is how it stands. -/
theorem c83_told (ops : List Op) (id : Nat) (h : id ∈ (run init ops).order) :
    lastTold (run init ops) id = some (((run init ops).bps id).err, ((run init ops).bps id).shown) := by
  have : ∀ i ∈ (run init ops).order, Knows (run init ops) i := by
    unfold run
    exact List.foldlRecOn (motive := fun t : State => ∀ i ∈ t.order, Knows t i) _ _ (by simp [init])
      (fun t ht op _ => step_knows t op ht)
  exact this id h

/-! ## Breakpoints on valid lines -/

/-- How the breakpoint set last for a valid line stands. -/
structure Sound (line id : Nat) (s : State) : Prop where
  ok : Dict.Ok s.lines
  get : Dict.get s.lines line = some id
  only : ∀ l, (l, id) ∈ s.lines → l = line
  attr : (s.bps id).line = line
  shown : (s.bps id).shown = line
  err : (s.bps id).key ≠ none → (s.bps id).err = .ok

theorem verifyOne_sound (valid : List Nat) (line id : Nat) (hv : line ∈ valid) (s : State) (h : Sound line id s) (e : Nat × Nat)
    (h1 : e.2 = id → e.1 = line) (h2 : e.1 = line → e.2 = id) :
    Sound line id (verifyOne valid s e) ∧ (e.2 = id → ((verifyOne valid s e).bps id).key = some valid) ∧
    ((s.bps id).key = some valid → ((verifyOne valid s e).bps id).key = some valid) := by
  obtain ⟨l, i⟩ := e
  simp only at h1 h2
  unfold verifyOne
  simp only
  by_cases hk : (s.bps i).key = some valid
  · rw [if_pos hk]
    exact ⟨h, fun e => by rw [← e]; exact hk, fun e => e⟩
  · rw [if_neg hk]
    by_cases hi : i = id
    · have hl := h1 hi
      subst hi
      rw [hl, if_pos hv]
      split
      · rename_i he
        refine ⟨⟨h.ok, h.get, h.only, by simp [State.update, h.attr], by simp [State.update, h.shown], fun _ => ?_⟩, fun _ => by simp [State.update], fun _ => by simp [State.update]⟩
        simpa [State.update] using he
      · refine ⟨⟨h.ok, h.get, h.only, by simp [State.tell, State.update, h.attr], by simp [State.tell, State.update, h.shown], fun _ => by simp [State.tell, State.update]⟩, fun _ => by simp [State.tell, State.update], fun _ => by simp [State.tell, State.update]⟩
    · have hl : l ≠ line := fun e => hi (h2 e)
      have same : ∀ t : State, t.lines = s.lines → t.bps id = s.bps id → Sound line id t ∧ (i = id → (t.bps id).key = some valid) ∧
          ((s.bps id).key = some valid → (t.bps id).key = some valid) := by
        intro t t1 t2
        refine ⟨⟨by rw [t1]; exact h.ok, by rw [t1]; exact h.get, by rw [t1]; exact h.only, by rw [t2]; exact h.attr, by rw [t2]; exact h.shown, by rw [t2]; exact h.err⟩, fun e => absurd e hi, fun e => by rw [t2]; exact e⟩
      have hi' : ¬ id = i := fun e => hi e.symm
      split
      · split
        · exact same _ rfl (by simp [State.update, hi'])
        · exact same _ rfl (by simp [State.tell, State.update, hi'])
      · split
        · split
          · exact same _ rfl (by simp [State.update, hi'])
          · exact same _ rfl (by simp [State.tell, State.update, hi'])
        · rename_i p hp
          by_cases hhas : Dict.has s.lines p = true
          · have : Dict.has (s.update i fun b => { b with key := some valid }).lines p = true := hhas
            rw [if_pos this]
            split
            · exact same _ rfl (by simp [State.update, hi'])
            · exact same _ rfl (by simp [State.tell, State.update, hi'])
          · have : ¬ Dict.has (s.update i fun b => { b with key := some valid }).lines p = true := hhas
            rw [if_neg this]
            have hp : ¬ line = p := by
              rintro rfl
              rw [Dict.has_iff_get, h.get] at hhas
              simp at hhas
            split
            · refine ⟨⟨?_, ?_, ?_, ?_, ?_, ?_⟩, fun e => absurd e hi, ?_⟩
              · exact Dict.ok_set (Dict.ok_erase h.ok l) p i
              · show Dict.get (Dict.set (Dict.erase s.lines l) p i) line = some id
                rw [Dict.get_set, if_neg hp, Dict.get_erase, if_neg (fun e => hl e.symm)]
                exact h.get
              · intro l' hm
                have hm' : (l', id) ∈ Dict.set (Dict.erase s.lines l) p i := hm
                rw [Dict.mem_set (Dict.ok_erase h.ok l), mem_erase] at hm'
                rcases hm' with hm' | ⟨hm', _⟩
                · simp only [Prod.mk.injEq] at hm'; exact absurd hm'.2 hi'
                · exact h.only l' hm'.1
              · simp [State.tell, State.update, hi', h.attr]
              · simp [State.tell, State.update, hi', h.shown]
              · simpa [State.tell, State.update, hi'] using h.err
              · simp [State.tell, State.update, hi']
            · exact same _ rfl (by simp [State.update, hi'])

theorem verify_sound (valid : List Nat) (line id : Nat) (hv : line ∈ valid) (s : State) (h : Sound line id s) :
    Sound line id (verify valid s) ∧ ((verify valid s).bps id).key = some valid := by
  have key : ∀ (d : List (Nat × Nat)) (t : State), Sound line id t → (∀ e ∈ d, (e.2 = id → e.1 = line) ∧ (e.1 = line → e.2 = id)) →
      Sound line id (d.foldl (verifyOne valid) t) ∧
      ((∃ e ∈ d, e.2 = id) ∨ (t.bps id).key = some valid → ((d.foldl (verifyOne valid) t).bps id).key = some valid) := by
    intro d
    induction d with
    | nil => intro t ht _; exact ⟨ht, fun hh => hh.elim (by simp) (fun e => e)⟩
    | cons e d ih =>
      intro t ht hd
      obtain ⟨a, b, c⟩ := verifyOne_sound valid line id hv t ht e (hd e (by simp)).1 (hd e (by simp)).2
      obtain ⟨a', b'⟩ := ih _ a (fun e he => hd e (by simp [he]))
      refine ⟨a', fun hh => b' ?_⟩
      rcases hh with ⟨x, hx, hx2⟩ | hh
      · rcases List.mem_cons.1 hx with rfl | hx
        · exact Or.inr (b hx2)
        · exact Or.inl ⟨x, hx, hx2⟩
      · exact Or.inr (c hh)
  have hm := Dict.mem_of_get h.get
  obtain ⟨a, b⟩ := key s.lines s h (by
    intro e he
    refine ⟨fun h1 => h.only e.1 (by rw [← h1]; exact he), fun h1 => ?_⟩
    have := Dict.get_of_mem h.ok (k := e.1) (v := e.2) he
    rw [h1, h.get] at this
    simpa using this.symm)
  exact ⟨a, b (Or.inl ⟨_, hm, rfl⟩)⟩

/-- The breakpoint set last for a line. -/
def lastAt (s : State) (line : Nat) : Option Nat := (s.order.filter fun i => (s.bps i).line = line).getLast?

theorem consolidate_get (s : State) (line : Nat) : Dict.get (consolidate s).lines line = lastAt s line := by
  unfold consolidate lastAt
  simp only
  rcases List.eq_nil_or_concat s.order with h | h
  · rw [h]; rfl
  · clear h
    have key : ∀ (ids : List Nat) (d : List (Nat × Nat)),
        Dict.get (ids.foldl (fun d id => Dict.set d (s.bps id).line id) d) line =
          ((ids.filter fun i => (s.bps i).line = line).getLast?).or (Dict.get d line) := by
      intro ids
      induction ids with
      | nil => intro d; simp
      | cons a ids ih =>
        intro d
        rw [List.foldl_cons, ih, Dict.get_set, List.filter_cons]
        by_cases e : (s.bps a).line = line
        · simp only [e, if_true, decide_true, List.getLast?_cons]
          cases (ids.filter fun i => (s.bps i).line = line).getLast? <;> simp
        · have e' : ¬ line = (s.bps a).line := fun h => e h.symm
          simp [e, e']
    rw [key]
    simp [Dict.get]

theorem verifyOne_frame (valid : List Nat) (s : State) (e : Nat × Nat) (i : Nat) (h : i ≠ e.2) :
    (verifyOne valid s e).bps i = s.bps i := by
  unfold verifyOne
  simp only
  repeat' split
  all_goals simp [State.tell, State.update, h]

theorem verifyOne_line (valid : List Nat) (s : State) (e : Nat × Nat) (i : Nat) :
    ((verifyOne valid s e).bps i).line = (s.bps i).line := by
  by_cases h : i = e.2
  · subst h
    unfold verifyOne
    simp only
    repeat' split
    all_goals simp [State.tell, State.update]
  · rw [verifyOne_frame valid s e i h]

theorem verifyOne_values (valid : List Nat) (s : State) (e : Nat × Nat) (l i : Nat) (ok : Dict.Ok s.lines) (hi : i ≠ e.2)
    (h : (l, i) ∈ (verifyOne valid s e).lines) : (l, i) ∈ s.lines := by
  unfold verifyOne at h
  simp only at h
  repeat' split at h
  all_goals first | exact h | skip
  simp only [State.tell, State.update] at h
  rw [Dict.mem_set (Dict.ok_erase ok e.1), mem_erase] at h
  rcases h with h | h
  · simp only [Prod.mk.injEq] at h; exact absurd h.2 hi
  · exact h.1.1

theorem verifyOne_ok (valid : List Nat) (s : State) (e : Nat × Nat) (ok : Dict.Ok s.lines) : Dict.Ok (verifyOne valid s e).lines := by
  unfold verifyOne
  simp only
  repeat' split
  all_goals first | exact ok | exact Dict.ok_set (Dict.ok_erase ok _) _ _

theorem verify_line (valid : List Nat) (s : State) (i : Nat) : ((verify valid s).bps i).line = (s.bps i).line := by
  unfold verify
  exact List.foldlRecOn (motive := fun t : State => (t.bps i).line = (s.bps i).line) _ _ rfl
    (fun t ht e _ => by rw [verifyOne_line]; exact ht)

theorem verify_ok (valid : List Nat) (s : State) (ok : Dict.Ok s.lines) : Dict.Ok (verify valid s).lines := by
  unfold verify
  exact List.foldlRecOn (motive := fun t : State => Dict.Ok t.lines) _ _ ok (fun t ht e _ => verifyOne_ok valid t e ht)

theorem verify_frame (valid : List Nat) (s : State) (ok : Dict.Ok s.lines) (i : Nat) (h : ∀ l, (l, i) ∉ s.lines) :
    (verify valid s).bps i = s.bps i ∧ ∀ l, (l, i) ∉ (verify valid s).lines := by
  unfold verify
  have := List.foldlRecOn (motive := fun t : State => Dict.Ok t.lines ∧ t.bps i = s.bps i ∧ ∀ l, (l, i) ∉ t.lines) s.lines (verifyOne valid)
    ⟨ok, rfl, h⟩ (fun t ht e he => by
      have hne : i ≠ e.2 := by rintro rfl; exact h e.1 he
      refine ⟨verifyOne_ok valid t e ht.1, by rw [verifyOne_frame valid t e i hne]; exact ht.2.1, ?_⟩
      intro l hl
      exact ht.2.2 l (verifyOne_values valid t e l i ht.1 hne hl))
  exact this.2

/-- The history invariant for a line which is valid in all templates rendered. -/
structure Held (line : Nat) (s : State) : Prop where
  ok : Dict.Ok s.lines
  sound : ∀ id, lastAt s line = some id → Sound line id s ∧ ∀ v, s.last = some v → (s.bps id).key = some v
  attr : ∀ i ∈ s.order, (s.bps i).line = line → (s.bps i).shown = line ∧ ((s.bps i).key ≠ none → (s.bps i).err = .ok)
  only : ∀ i ∈ s.order, (s.bps i).line = line → lastAt s line ≠ some i → ∀ l, (l, i) ∉ s.lines
  last : ∀ v, s.last = some v → line ∈ v

theorem lastAt_mem (s : State) (line id : Nat) (h : lastAt s line = some id) : id ∈ s.order ∧ (s.bps id).line = line := by
  have := List.mem_of_getLast? h
  simpa using List.mem_filter.1 this

theorem lastAt_verify (valid : List Nat) (s : State) (line : Nat) : lastAt (verify valid s) line = lastAt s line := by
  unfold lastAt
  rw [verify_order]
  simp only [verify_line]

/-- Verifying with lines among which the line is. -/
theorem verify_held (valid : List Nat) (line : Nat) (hv : line ∈ valid) (s : State)
    (ok : Dict.Ok s.lines) (hl : s.last = some valid)
    (sound : ∀ id, lastAt s line = some id → Sound line id s)
    (attr : ∀ i ∈ s.order, (s.bps i).line = line → (s.bps i).shown = line ∧ ((s.bps i).key ≠ none → (s.bps i).err = .ok))
    (only : ∀ i ∈ s.order, (s.bps i).line = line → lastAt s line ≠ some i → ∀ l, (l, i) ∉ s.lines) :
    Held line (verify valid s) := by
  have hlast : (verify valid s).last = some valid := by
    unfold verify
    refine List.foldlRecOn (motive := fun t : State => t.last = some valid) _ _ hl (fun t ht e _ => ?_)
    rw [← ht]
    unfold verifyOne
    simp only
    repeat' split
    all_goals rfl
  refine ⟨verify_ok valid s ok, ?_, ?_, ?_, ?_⟩
  · intro id h
    rw [lastAt_verify] at h
    obtain ⟨a, b⟩ := verify_sound valid line id hv s (sound id h)
    refine ⟨a, fun v h2 => ?_⟩
    rw [hlast] at h2
    rw [b]; exact h2
  · intro i hi hli
    rw [verify_order] at hi
    rw [verify_line] at hli
    by_cases h : lastAt s line = some i
    · obtain ⟨a, b⟩ := verify_sound valid line i hv s (sound i h)
      exact ⟨a.shown, a.err⟩
    · rw [(verify_frame valid s ok i (only i hi hli h)).1]
      exact attr i hi hli
  · intro i hi hli h
    rw [verify_order] at hi
    rw [verify_line] at hli
    rw [lastAt_verify] at h
    exact (verify_frame valid s ok i (only i hi hli h)).2
  · intro v h
    rw [hlast] at h
    simp only [Option.some.injEq] at h
    rw [← h]; exact hv

/-- Consolidating and verifying, from any table. -/
theorem consolidate_held (line : Nat) (s : State) (hl : ∀ v, s.last = some v → line ∈ v)
    (attr : ∀ i ∈ s.order, (s.bps i).line = line → (s.bps i).shown = line ∧ ((s.bps i).key ≠ none → (s.bps i).err = .ok)) :
    Held line (afterConsolidated (consolidate s)) := by
  obtain ⟨c1, c2⟩ := consolidate_ok s
  have hsound : ∀ id, lastAt (consolidate s) line = some id → Sound line id (consolidate s) := by
    intro id h
    have h' : lastAt s line = some id := h
    obtain ⟨m1, m2⟩ := lastAt_mem s line id h'
    refine ⟨c1, by rw [consolidate_get]; exact h', ?_, m2, (attr id m1 m2).1, (attr id m1 m2).2⟩
    intro l hm
    rw [← (c2 l id hm).2]; exact m2
  have honly : ∀ i ∈ (consolidate s).order, ((consolidate s).bps i).line = line → lastAt (consolidate s) line ≠ some i →
      ∀ l, (l, i) ∉ (consolidate s).lines := by
    intro i _ hli hn l hm
    have := Dict.get_of_mem c1 hm
    have hll : l = line := by rw [← (c2 l i hm).2]; exact hli
    rw [hll, consolidate_get] at this
    exact hn this
  unfold afterConsolidated
  cases hs : s.last with
  | none =>
    have : (consolidate s).last = none := hs
    rw [this]
    refine ⟨c1, fun id h => ⟨hsound id h, ?_⟩, attr, honly, ?_⟩
    · intro v h; rw [this] at h; simp at h
    · intro v h; rw [this] at h; simp at h
  | some v =>
    have : (consolidate s).last = some v := hs
    rw [this]
    exact verify_held v line (hl v hs) _ c1 this hsound attr honly

theorem held_tell (line id : Nat) (s : State) (h : Held line s) : Held line (s.tell id) := by
  refine ⟨h.ok, ?_, h.attr, h.only, h.last⟩
  intro i hi
  obtain ⟨a, b⟩ := h.sound i hi
  exact ⟨⟨a.ok, a.get, a.only, a.attr, a.shown, a.err⟩, b⟩

theorem step_held (line : Nat) (s : State) (op : Op) (h : Held line s) (hop : ∀ v, op = .render v → line ∈ v) :
    Held line (step s op) := by
  cases op with
  | clear => exact ⟨Dict.ok_nil, by simp [step, lastAt], by simp [step], by simp [step], h.last⟩
  | add id l =>
    simp only [step]
    apply held_tell
    apply consolidate_held
    · exact h.last
    · intro i hi hli
      by_cases e : i = id
      · subst e
        simp [State.update] at hli ⊢
        exact hli
      · simp only [State.update, e, if_false] at hli ⊢
        refine h.attr i ?_ hli
        simp only [State.update] at hi
        split at hi
        · exact hi
        · simpa [e] using hi
  | remove id =>
    simp only [step]
    split
    · apply consolidate_held
      · exact h.last
      · intro i hi hli
        exact h.attr i (List.mem_filter.1 hi).1 hli
    · exact h
  | render v =>
    simp only [step]
    split
    · exact h
    · refine verify_held v line (hop v rfl) _ h.ok rfl ?_ h.attr h.only
      intro id hid
      have a := (h.sound id hid).1
      exact ⟨a.ok, a.get, a.only, a.attr, a.shown, a.err⟩

/-- In any history of requests and renderings in which all templates rendered have the line: the breakpoint
set last for the line is the one rendering it stops at, the client is told this line, and that it is verified
once the template was rendered. -/
theorem c83_valid_line (ops : List Op) (line : Nat) (hv : ∀ v, .render v ∈ ops → line ∈ v) (id : Nat)
    (h : lastAt (run init ops) line = some id) :
    hit (run init ops) line = some id ∧ ((run init ops).bps id).shown = line ∧
    ((run init ops).last ≠ none → ((run init ops).bps id).err = .ok) := by
  have hh : Held line (run init ops) := by
    unfold run
    refine List.foldlRecOn (motive := Held line) _ _ ?_ (fun t ht op hop => step_held line t op ht (fun v e => hv v (by rw [← e]; exact hop)))
    exact ⟨Dict.ok_nil, by simp [lastAt, init], by simp [init], by simp [init], by simp [init]⟩
  obtain ⟨a, b⟩ := hh.sound id h
  refine ⟨a.get, a.shown, fun hl => a.err ?_⟩
  cases hs : (run init ops).last with
  | none => exact absurd hs hl
  | some v => rw [b v hs]; simp

/-! ## Templates which change -/

/-- After requests and renderings: breakpoints are where the client was told. -/
structure Settled (s : State) : Prop where
  ok : Dict.Ok s.lines
  ids : ∀ l l' i, (l, i) ∈ s.lines → (l', i) ∈ s.lines → l = l'
  shown : ∀ l i, (l, i) ∈ s.lines → (s.bps i).shown = l
  key : (∀ l i, (l, i) ∈ s.lines → (s.bps i).key = none ∧ (s.bps i).err = .lazy) ∨
    ∃ v, Sorted v ∧ s.last = some v ∧ ∀ l i, (l, i) ∈ s.lines → (s.bps i).key = some v ∧ (s.bps i).err ≠ .lazy ∧
      ((s.bps i).err = .invalid → l ∉ v)

theorem render_settled (s : State) (h : Settled s) (valid : List Nat) (hs : Sorted valid) :
    Settled (step s (.render valid)) ∧ (s.lines ≠ [] → (step s (.render valid)).last = some valid ∧
      ∀ l i, (l, i) ∈ (step s (.render valid)).lines → ((step s (.render valid)).bps i).key = some valid) := by
  simp only [step]
  by_cases he : s.lines.isEmpty = true
  · rw [if_pos he]; exact ⟨h, fun hn => absurd (List.isEmpty_iff.1 he) hn⟩
  · rw [if_neg he]
    by_cases hsame : ∃ v, s.last = some v ∧ v = valid ∧ ∀ l i, (l, i) ∈ s.lines → (s.bps i).key = some v ∧ (s.bps i).err ≠ .lazy ∧
      ((s.bps i).err = .invalid → l ∉ v)
    · obtain ⟨v, h1, h2, h3⟩ := hsame
      subst h2
      have : ({ s with last := some v } : State) = s := by rw [← h1]
      rw [this]
      have key : ∀ d : List (Nat × Nat), (∀ e ∈ d, (s.bps e.2).key = some v) → d.foldl (verifyOne v) s = s := by
        intro d
        induction d with
        | nil => intro _; rfl
        | cons e d ih =>
          intro h
          rw [List.foldl_cons, verifyOne_skip v s e (h e (by simp))]
          exact ih (fun e he => h e (by simp [he]))
      have hv : verify v s = s := key _ (fun e he => (h3 e.1 e.2 he).1)
      rw [hv]
      exact ⟨h, fun _ => ⟨h1, fun l i hi => (h3 l i hi).1⟩⟩
    · have hf : Fresh valid { s with last := some valid } := by
        refine ⟨h.ok, h.ids, ?_, h.shown⟩
        intro l i hi hk
        rcases h.key with h0 | ⟨v, h0, h1, h2⟩
        · have := (h0 l i hi).1
          rw [show ({ s with last := some valid } : State).bps i = s.bps i from rfl, this] at hk
          simp at hk
        · apply hsame
          refine ⟨v, h1, ?_, h2⟩
          have := (h2 l i hi).1
          rw [show ({ s with last := some valid } : State).bps i = s.bps i from rfl, this] at hk
          simpa using hk
      have hi := verify_inv valid hs _ hf
      refine ⟨⟨hi.ok, hi.ids, fun l i hm => (hi.done l i hm (by simp)).2.1, Or.inr ⟨valid, hs, hi.last, ?_⟩⟩, fun _ => ⟨hi.last, fun l i hm => (hi.done l i hm (by simp)).1⟩⟩
      intro l i hm
      obtain ⟨g1, g2, l0, g3, g4⟩ := hi.done l i hm (by simp)
      refine ⟨g1, ?_, ?_⟩
      · rcases g4 with ⟨a, _⟩ | ⟨a, _⟩ | ⟨a, _⟩ | ⟨a, _⟩ <;> rw [a] <;> simp
      · intro he'
        rcases g4 with ⟨a, _⟩ | ⟨a, _⟩ | ⟨a, b, c, _⟩ | ⟨a, _⟩
        · rw [a] at he'; simp at he'
        · rw [a] at he'; simp at he'
        · rw [c]; exact b
        · rw [a] at he'; simp at he'

/-- However often the template changes between renderings: a stop at the line the client was told for a
breakpoint is a stop at this breakpoint, and of a breakpoint said to be invalid rendering stops at none of
the lines of the template as it was last. -/
theorem c83_changed (ops : List Op) (ho : ∀ op ∈ ops, op.isRender = false) (vs : List (List Nat)) (hs : ∀ v ∈ vs, Sorted v)
    (line id : Nat) (hh : hit (run init (ops ++ vs.map .render)) line = some id) :
    let t := run init (ops ++ vs.map .render)
    (t.bps id).shown = line ∧ ((t.bps id).err = .invalid → ∀ v, t.last = some v → line ∉ v) := by
  intro t
  have hset : Settled t := by
    have hu := run_unloaded ops ho
    show Settled (run init (ops ++ vs.map .render))
    unfold run at hu ⊢
    rw [List.foldl_append]
    generalize ops.foldl step init = S at hu
    have h0 : Settled S := by
      refine ⟨hu.ok, ?_, ?_, Or.inl ?_⟩
      · intro l l' i h1 h2
        rw [← (hu.mem l i h1).2, ← (hu.mem l' i h2).2]
      · intro l i h1
        rw [hu.bps i (hu.mem l i h1).1]; exact (hu.mem l i h1).2
      · intro l i h1
        rw [hu.bps i (hu.mem l i h1).1]; simp
    refine List.foldlRecOn (motive := Settled) _ _ h0 (fun t ht op hop => ?_)
    obtain ⟨v, hv, rfl⟩ := List.mem_map.1 hop
    exact (render_settled t ht v (hs v hv)).1
  have hm := Dict.mem_of_get hh
  refine ⟨hset.shown line id hm, ?_⟩
  intro he v hv
  rcases hset.key with h0 | ⟨w, _, h1, h2⟩
  · have := (h0 line id hm).2
    rw [he] at this; simp at this
  · rw [h1] at hv
    simp only [Option.some.injEq] at hv
    rw [← hv]
    exact (h2 line id hm).2.2 he

/-! ## An example -/

def exOps : List Op := [.clear, .add 1 5, .add 2 7, .add 3 8, .add 4 2]

/-- Of breakpoints on the lines 5, 7, 8 and 2 of a template with nodes on the lines 3, 5 and 6, the first is on
its line, the second is moved to line 6, the third finds it taken, and before the fourth there is none. -/
theorem c83_example :
    (∀ op ∈ exOps, op.isRender = false) ∧ Sorted [3, 5, 6] ∧
    [1, 2, 3, 4].map (lastTold (run init (exOps ++ [.render [3, 5, 6]]))) =
      [some (.ok, 5), some (.ok, 6), some (.invalid, 8), some (.invalid, 2)] ∧
    [3, 5, 6].map (hit (run init (exOps ++ [.render [3, 5, 6]]))) = [none, some 1, some 2] ∧
    templateLine [(3, 10), (5, 14), (6, 20)] 14 = some 5 := by
  refine ⟨by decide, by simp [Sorted], by decide, by decide, by decide⟩

/-! ## Where the code falls short -/

/-- If the template was rendered before, a breakpoint moved to another line is put back, without a word, as
soon as the next one of the same request is added: rendering no longer stops at it, though the client was told
that it is verified. -/
theorem c83_second_witness :
    let t := run init ([.clear, .add 1 5] ++ [.render [3, 5, 6]] ++ [.clear, .add 2 7, .add 3 3])
    lastTold t 2 = some (.ok, 6) ∧ hit t 6 = none ∧ hit (step t (.render [3, 5, 6])) 6 = none := by
  refine ⟨by decide, by decide, by decide⟩

/-- If a template changes so that the line of a verified breakpoint is no longer valid, but there are lines
before, nothing is done: the client takes it as verified, and rendering never stops at it. -/
theorem c83_stale_witness :
    let t := run init ([.clear, .add 1 5] ++ [.render [3, 5, 6], .render [3, 6]])
    lastTold t 1 = some (.ok, 5) ∧ hit t 3 = none ∧ hit t 6 = none := by
  refine ⟨by decide, by decide, by decide⟩

/-- Of two breakpoints on one line the first is never verified. -/
theorem c83_same_line_witness :
    let t := run init ([.clear, .add 1 5, .add 2 5] ++ [.render [3, 5, 6]])
    lastTold t 1 = some (.lazy, 5) ∧ lastTold t 2 = some (.ok, 5) := by
  refine ⟨by decide, by decide⟩

/-- In Django the lines used are those of the template being rendered as a whole, not of the one extended or
included, which the breakpoint is in: here a breakpoint on the valid line 4 of a template with the lines
`[4, 9]` is moved to line 2, valid only in the other. -/
theorem c83_included_witness :
    let t := run init ([.clear, .add 1 4] ++ [.render [2, 7]])
    lastTold t 1 = some (.ok, 2) ∧ hit t 4 = none := by
  refine ⟨by decide, by decide⟩

/-! ## Removal -/

/-- Rendering stops only at breakpoints that are there. -/
def Known (s : State) : Prop := Dict.Ok s.lines ∧ ∀ l i, (l, i) ∈ s.lines → i ∈ s.order

theorem verifyOne_order (valid : List Nat) (s : State) (e : Nat × Nat) : (verifyOne valid s e).order = s.order := by
  unfold verifyOne
  simp only
  repeat' split
  all_goals rfl

theorem verifyOne_known (valid : List Nat) (s : State) (e : Nat × Nat) (h : Known s) (he : e.2 ∈ s.order) : Known (verifyOne valid s e) := by
  have hset : ∀ n, Known { s with lines := Py.Dict.set (Py.Dict.erase s.lines e.1) n e.2 } := by
    intro n
    refine ⟨Dict.ok_set (Dict.ok_erase h.1 _) _ _, ?_⟩
    intro l i hm
    rw [Dict.mem_set (Dict.ok_erase h.1 _)] at hm
    rcases hm with hm | ⟨hm, _⟩
    · simp only [Prod.mk.injEq] at hm
      rw [hm.2]; exact he
    · exact h.2 l i ((mem_erase _ _ _).1 hm).1
  unfold verifyOne
  simp only
  repeat' split
  all_goals first | exact h | exact hset _

theorem verify_known (valid : List Nat) (s : State) (h : Known s) : Known (verify valid s) := by
  unfold verify
  have key : ∀ (l : List (Nat × Nat)) (t : State), Known t → (∀ e ∈ l, e.2 ∈ t.order) → Known (l.foldl (verifyOne valid) t) := by
    intro l
    induction l with
    | nil => intro t h _; exact h
    | cons e l ih =>
      intro t h hl
      refine ih _ (verifyOne_known valid t e h (hl e (by simp))) ?_
      intro e' he'
      rw [verifyOne_order]
      exact hl e' (by simp [he'])
  exact key s.lines s h (fun e he => h.2 e.1 e.2 he)

theorem after_known (s : State) : Known (afterConsolidated (consolidate s)) ∧ (afterConsolidated (consolidate s)).order = s.order := by
  have hc : Known (consolidate s) := ⟨(consolidate_ok s).1, fun l i hm => ((consolidate_ok s).2 l i hm).1⟩
  unfold afterConsolidated
  split
  · exact ⟨hc, rfl⟩
  · exact ⟨verify_known _ _ hc, verify_order _ _⟩

theorem known_run (ops : List Op) : Known (run init ops) := by
  unfold run
  refine List.foldlRecOn (motive := Known) _ _ ⟨Dict.ok_nil, by simp [init]⟩ (fun s hs op _ => ?_)
  cases op with
  | clear => exact ⟨Dict.ok_nil, by simp [step]⟩
  | add id line => exact (after_known _).1
  | remove id =>
    simp only [step]
    split
    · exact (after_known _).1
    · exact hs
  | render v =>
    simp only [step]
    split
    · exact hs
    · exact verify_known v _ hs

/-- A breakpoint that was removed, and a cleared file, stop nothing until the breakpoint is added again, however often the template is rendered
or other breakpoints change. -/
theorem c83_removed (ops later : List Op) (op : Op) (id : Nat) (hop : op = .remove id ∨ op = .clear) (hl : ∀ l, .add id l ∉ later) (line : Nat) :
    hit (run init (ops ++ [op] ++ later)) line ≠ some id := by
  have hno : id ∉ (run init (ops ++ [op] ++ later)).order := by
    unfold run
    rw [List.foldl_append, List.foldl_append]
    generalize ops.foldl step init = s
    have h0 : id ∉ ([op].foldl step s).order := by
      rcases hop with rfl | rfl
      · simp only [List.foldl_cons, List.foldl_nil, step]
        split
        · rw [(after_known _).2]; simp
        · assumption
      · simp [step]
    generalize [op].foldl step s = t at h0
    refine List.foldlRecOn (motive := fun t : State => id ∉ t.order) _ _ h0 (fun t ht o ho => ?_)
    cases o with
    | clear => simp [step]
    | add i l =>
      have : i ≠ id := by rintro rfl; exact hl l ho
      simp only [step, State.tell, (after_known _).2, State.update]
      split
      · exact ht
      · simp [ht, Ne.symm this]
    | remove i =>
      simp only [step]
      split
      · rw [(after_known _).2]
        simp only [List.mem_filter]
        exact fun h => ht h.1
      · exact ht
    | render v =>
      simp only [step]
      split
      · exact ht
      · rw [verify_order]; exact ht
  intro h
  exact hno ((known_run _).2 line id (Dict.mem_of_get h))

/-- Concrete: of two breakpoints one is removed; rendering stops at the other only. -/
theorem c83_removed_example :
    [3, 5].map (hit (run init ([.add 1 3, .add 2 5, .render [3, 5]] ++ [.remove 1] ++ [.render [3, 5]]))) = [none, some 2] := by decide

end Template
