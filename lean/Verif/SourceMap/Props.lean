import Verif.SourceMap.Spec
/-!
C32 (source mapping).
-/

namespace SourceMap

/-! ### Sorting and bisection -/

theorem mem_insertEntry (x e : Entry) (l : List Entry) : e ∈ insertEntry x l ↔ e = x ∨ e ∈ l := by
  induction l with
  | nil => simp [insertEntry]
  | cons y ys ih =>
    simp only [insertEntry]; split
    · simp
    · simp only [List.mem_cons, ih]; grind

theorem insertEntry_perm (x : Entry) (l : List Entry) : (insertEntry x l).Perm (x :: l) := by
  induction l with
  | nil => exact List.Perm.refl _
  | cons y ys ih =>
    simp only [insertEntry]; split
    · exact List.Perm.refl _
    · exact (List.Perm.cons y ih).trans (List.Perm.swap x y ys)

theorem sortEntries_perm (l : List Entry) : (sortEntries l).Perm l := by
  induction l with
  | nil => exact List.Perm.refl _
  | cons x xs ih => exact (insertEntry_perm x _).trans (List.Perm.cons x ih)

theorem insertEntry_sorted (x : Entry) (l : List Entry) (h : l.Pairwise (fun a b => a.line ≤ b.line)) :
    (insertEntry x l).Pairwise (fun a b => a.line ≤ b.line) := by
  induction l with
  | nil => simp [insertEntry]
  | cons y ys ih =>
    rw [List.pairwise_cons] at h
    simp only [insertEntry]
    split
    · rename_i hxy
      refine List.pairwise_cons.2 ⟨?_, List.pairwise_cons.2 h⟩
      intro b hb
      rcases List.mem_cons.1 hb with rfl | hb
      · exact hxy
      · have := h.1 b hb; omega
    · rename_i hxy
      refine List.pairwise_cons.2 ⟨?_, ih h.2⟩
      intro b hb
      rcases (mem_insertEntry _ _ _).1 hb with rfl | hb
      · omega
      · exact h.1 b hb

theorem sortEntries_sorted (l : List Entry) : (sortEntries l).Pairwise (fun a b => a.line ≤ b.line) := by
  induction l with
  | nil => exact List.Pairwise.nil
  | cons x xs ih => exact insertEntry_sorted x _ ih

theorem bisectRight_spec (a : List Int) (x : Int) (hs : a.Pairwise (· ≤ ·)) : ∀ fuel lo hi, lo ≤ hi → hi ≤ a.length → hi - lo ≤ fuel →
    (∀ i (h : i < a.length), i < lo → a[i] ≤ x) → (∀ i (h : i < a.length), hi ≤ i → x < a[i]) →
    (∀ i (h : i < a.length), i < bisectRight a x fuel lo hi → a[i] ≤ x) ∧
    (∀ i (h : i < a.length), bisectRight a x fuel lo hi ≤ i → x < a[i]) ∧ bisectRight a x fuel lo hi ≤ a.length := by
  intro fuel
  induction fuel with
  | zero =>
    intro lo hi h1 h2 h3 h4 h5
    have : lo = hi := by omega
    subst this
    exact ⟨h4, h5, h2⟩
  | succ fuel ih =>
    intro lo hi h1 h2 h3 h4 h5
    unfold bisectRight
    split
    · rename_i hlt
      have hm : (lo + hi) / 2 < a.length := by omega
      have hget : a.getD ((lo + hi) / 2) 0 = a[(lo + hi) / 2] := by simp [hm]
      simp only [hget]
      split
      · rename_i hx
        apply ih lo ((lo + hi) / 2) (by omega) (by omega) (by omega) h4
        intro i hi' hle
        rcases Nat.lt_or_ge ((lo + hi) / 2) i with h | h
        · have := List.pairwise_iff_getElem.1 hs _ _ hm hi' h; omega
        · have : i = (lo + hi) / 2 := by omega
          subst this; exact hx
      · rename_i hx
        apply ih ((lo + hi) / 2 + 1) hi (by omega) h2 (by omega) ?_ h5
        intro i hi' hle
        rcases Nat.lt_or_ge i ((lo + hi) / 2) with h | h
        · have := List.pairwise_iff_getElem.1 hs _ _ hi' hm h; omega
        · have : i = (lo + hi) / 2 := by omega
          subst this; omega
    · have : lo = hi := by omega
      subst this
      exact ⟨h4, h5, h2⟩

/-! ### The table of one file -/

theorem containsLine_iff (e : Entry) (i : Int) : containsLine e i = true ↔ Covers e i := by
  simp [containsLine, Covers]

theorem pick_mem {ms : List Entry} {i : Int} {e : Entry} (h : pickEntry ms i = some e) : e ∈ ms ∧ Covers e i := by
  unfold pickEntry at h
  simp only at h
  split at h
  · rename_i e0 he0
    have hm0 : e0 ∈ ms := by (repeat' split at he0) <;> exact List.mem_of_getElem? he0
    split at h
    · rename_i hc; cases h; exact ⟨hm0, (containsLine_iff _ _).1 hc⟩
    · split at h
      · rename_i e1 he1
        split at h
        · rename_i hc; cases h; exact ⟨List.mem_of_getElem? he1, (containsLine_iff _ _).1 hc⟩
        · cases h
      · cases h
  · cases h

/-- The bisection finds the entry that covers the line. -/
theorem pick_some {ms : List Entry} (hs : ms.Pairwise (fun a b => a.line ≤ b.line)) (hl : ∀ e ∈ ms, e.line ≤ e.endLine)
    (hd : ms.Pairwise (fun a b => a.endLine < b.line ∨ b.endLine < a.line)) {e : Entry} (he : e ∈ ms) {i : Int}
    (hc : Covers e i) : pickEntry ms i = some e := by
  obtain ⟨j, hj, hje⟩ := List.getElem_of_mem he
  have hsl : (ms.map (·.line)).Pairwise (· ≤ ·) := List.pairwise_map.2 hs
  obtain ⟨b1, b2, b3⟩ := bisectRight_spec (ms.map (·.line)) i hsl ms.length 0 ms.length (by omega) (by simp) (by omega)
    (by intro k hk h; omega) (by intro k hk h; simp at hk; omega)
  generalize hK : bisectRight (ms.map (·.line)) i ms.length 0 ms.length = K at b1 b2 b3
  simp only [List.length_map, List.getElem_map] at b1 b2 b3
  have hjK : j < K := by
    rcases Nat.lt_or_ge j K with h | h
    · exact h
    · have := b2 j hj h
      rw [hje] at this
      have := hc.1; omega
  -- `e` is the last entry that starts at or before the line
  have hlast : j = K - 1 := by
    rcases Nat.lt_or_ge j (K - 1) with h | h
    · exfalso
      have hk : K - 1 < ms.length := by omega
      have h1 := b1 (K - 1) hk (by omega)
      have h2 := List.pairwise_iff_getElem.1 hs j (K - 1) hj hk h
      have h3 := List.pairwise_iff_getElem.1 hd j (K - 1) hj hk h
      have h4 := hl ms[K - 1] (List.getElem_mem hk)
      rw [hje] at h2 h3
      have := hc.1; have := hc.2
      omega
    · omega
  have uniq : ∀ k (hk : k < ms.length), Covers ms[k] i → k = j := by
    intro k hk hck
    rcases Nat.lt_trichotomy k j with h | h | h
    · have := List.pairwise_iff_getElem.1 hd k j hk hj h
      rw [hje] at this
      have := hc.1; have := hc.2; have := hck.1; have := hck.2; omega
    · exact h
    · have := List.pairwise_iff_getElem.1 hd j k hj hk h
      rw [hje] at this
      have := hc.1; have := hc.2; have := hck.1; have := hck.2; omega
  unfold pickEntry
  simp only [hK]
  have hce : containsLine e i = true := (containsLine_iff e i).2 hc
  by_cases hge : K ≥ ms.length
  · simp only [hge, if_true]
    by_cases h0 : K - 1 = 0
    · simp only [h0, if_true]
      have : ms[0]? = some e := by rw [List.getElem?_eq_some_iff]; exact ⟨by omega, by simp only [← hje, hlast, h0]⟩
      rw [this]; simp [hce]
    · simp only [h0, if_false]
      have hk2 : K - 1 - 1 < ms.length := by omega
      rw [List.getElem?_eq_getElem hk2]
      simp only
      rw [if_neg]
      · have : ms[K - 1]? = some e := by rw [List.getElem?_eq_some_iff]; exact ⟨by omega, by simp only [← hje, hlast]⟩
        rw [this]; simp [hce]
      · rw [containsLine_iff]
        intro hck
        have := uniq _ hk2 hck
        omega
  · simp only [hge, if_false]
    have h0 : K ≠ 0 := by omega
    simp only [h0, if_false]
    have : ms[K - 1]? = some e := by rw [List.getElem?_eq_some_iff]; exact ⟨by omega, by simp only [← hje, hlast]⟩
    rw [this]; simp [hce]

theorem find_unique {α : Type} {l : List α} {p : α → Bool} {x : α} (hx : x ∈ l) (hp : p x = true) (hu : ∀ y ∈ l, p y = true → y = x) :
    l.find? p = some x := by
  cases h : l.find? p with
  | none => rw [List.find?_eq_none] at h; exact absurd hp (h x hx)
  | some y => rw [hu y (List.mem_of_find?_eq_some h) (List.find?_some h)]

theorem pick_eq_find {m : List Entry} (hl : ∀ e ∈ m, e.line ≤ e.endLine)
    (hd : m.Pairwise (fun a b => a.endLine < b.line ∨ b.endLine < a.line)) (i : Int) :
    pickEntry (sortEntries m) i = m.find? (fun e => decide (Covers e i)) := by
  have hp := sortEntries_perm m
  have hd' : (sortEntries m).Pairwise (fun a b => a.endLine < b.line ∨ b.endLine < a.line) :=
    hp.symm.pairwise hd (fun h => h.symm)
  cases h : m.find? (fun e => decide (Covers e i)) with
  | some e =>
    have := List.find?_some h
    exact pick_some (sortEntries_sorted m) (fun e he => hl e (hp.mem_iff.1 he)) hd' (hp.mem_iff.2 (List.mem_of_find?_eq_some h)) (by simpa using this)
  | none =>
    cases hq : pickEntry (sortEntries m) i with
    | none => rfl
    | some e =>
      obtain ⟨h1, h2⟩ := pick_mem hq
      rw [List.find?_eq_none] at h
      have := h e (hp.mem_iff.1 h1)
      simp [h2] at this

/-! ### The dictionary of runtime sources -/

theorem delAll_ok : ∀ (ks : List Str) (d : List (Str × Str)), ks.Nodup → (∀ k ∈ ks, (Py.Dict.get d k).isSome) →
    (delAll d ks).2 = true ∧ ∀ k, Py.Dict.get (delAll d ks).1 k = if k ∈ ks then none else Py.Dict.get d k := by
  intro ks
  induction ks with
  | nil => intro d _ _; simp [delAll]
  | cons x xs ih =>
    intro d hn hall
    rw [List.nodup_cons] at hn
    unfold delAll
    rw [Py.Dict.has_iff_get, hall x (by simp)]
    simp only [if_true]
    obtain ⟨h1, h2⟩ := ih (Py.Dict.erase d x) hn.2 (by
      intro k hk
      rw [Py.Dict.get_erase, if_neg (by rintro rfl; exact hn.1 hk)]
      exact hall k (by simp [hk]))
    refine ⟨h1, ?_⟩
    intro k
    rw [h2, Py.Dict.get_erase]
    by_cases hk : k = x
    · simp [hk]
    · simp [hk]

theorem get_setAll (f : Str) : ∀ (ks : List Str) (d : List (Str × Str)) (k : Str),
    Py.Dict.get (setAll d f ks) k = if k ∈ ks then some f else Py.Dict.get d k := by
  intro ks
  induction ks with
  | nil => intro d k; rfl
  | cons x xs ih =>
    intro d k
    show Py.Dict.get (setAll (Py.Dict.set d x f) f xs) k = _
    rw [ih, Py.Dict.get_set]
    by_cases h1 : k ∈ xs
    · simp [h1]
    · by_cases h2 : k = x <;> simp [h1, h2]

/-! ### The simulation -/

/-- the table of a file as the code keeps it -/
def kept (x : Str × (Str × List Entry)) : Str × List Entry := (x.1, sortEntries (x.2.2.map fun e => { e with source := x.2.1 }))

structure Rel (norm : Str → Str) (s : State) (t : Tables) : Prop where
  tables : s.toServer = t.map kept
  ok : Py.Dict.Ok t
  good : ∀ x ∈ t, x.1 = norm x.2.1 ∧ x.2.1 ≠ [] ∧ ValidTable x.2.2
  client : ∀ src f, Py.Dict.get s.toClient src = some f ↔ ∃ x ∈ t, x.2.1 = f ∧ ∃ e ∈ x.2.2, e.runtimeSource = src
  cacheC : ∀ k r, Py.Dict.get s.cacheClient k = some r → r = computeClient s.toServer k.2 k.1
  cacheH : ∀ k r, Py.Dict.get s.cacheHas k = some r → r = computeHas s.toServer k

theorem get_map_kept (t : Tables) (k : Str) :
    Py.Dict.get (t.map kept) k = (Py.Dict.get t k).map fun x => sortEntries (x.2.map fun e => { e with source := x.1 }) := by
  induction t with
  | nil => rfl
  | cons x t ih =>
    rw [List.map_cons, Py.Dict.get_cons, Py.Dict.get_cons, ih]
    by_cases h : x.1 = k <;> simp [kept, h]

theorem set_map_kept (t : Tables) (k f : Str) (m : List Entry) :
    Py.Dict.set (t.map kept) k (sortEntries (m.map fun e => { e with source := f })) = (Py.Dict.set t k (f, m)).map kept := by
  induction t with
  | nil => simp [Py.Dict.set, kept]
  | cons x t ih =>
    simp only [List.map_cons, Py.Dict.set]
    have : (kept x).1 = x.1 := rfl
    rw [this]
    split
    · simp [kept]
    · simp [ih]

/-- A runtime source belongs to one table. -/
theorem Rel.unique {norm : Str → Str} {s : State} {t : Tables} (h : Rel norm s t) {x y : Str × (Str × List Entry)} (hx : x ∈ t) (hy : y ∈ t)
    {e e' : Entry} (he : e ∈ x.2.2) (he' : e' ∈ y.2.2) (hs : e.runtimeSource = e'.runtimeSource) : x = y ∧ e = e' := by
  have h1 := (h.client e.runtimeSource x.2.1).2 ⟨x, hx, rfl, e, he, rfl⟩
  have h2 := (h.client e.runtimeSource y.2.1).2 ⟨y, hy, rfl, e', he', hs.symm⟩
  rw [h1] at h2
  injection h2 with h2
  have hk : x.1 = y.1 := by rw [(h.good x hx).1, (h.good y hy).1, h2]
  have e1 := Py.Dict.get_of_mem h.ok (k := x.1) (v := x.2) hx
  have e2 := Py.Dict.get_of_mem h.ok (k := y.1) (v := y.2) hy
  rw [hk, e2] at e1
  injection e1 with e1
  have hxy : x = y := Prod.ext hk e1.symm
  subst hxy
  refine ⟨rfl, ?_⟩
  have hn := (h.good x hx).2.2.sources
  rw [List.nodup_iff_pairwise_ne, List.pairwise_map] at hn
  obtain ⟨i, hi, rfl⟩ := List.getElem_of_mem he
  obtain ⟨j, hj, rfl⟩ := List.getElem_of_mem he'
  rcases Nat.lt_trichotomy i j with h | h | h
  · exact absurd hs (List.pairwise_iff_getElem.1 hn i j hi hj h)
  · subst h; rfl
  · exact absurd hs.symm (List.pairwise_iff_getElem.1 hn j i hj hi h)

theorem conflicts_iff {norm : Str → Str} {s : State} {t : Tables} (h : Rel norm s t) (f : Str) (m : List Entry) :
    conflicts s f (m.map fun e => { e with source := f }) = true ↔ Taken t f m := by
  unfold conflicts Taken
  rw [List.any_map, List.any_eq_true]
  constructor
  · rintro ⟨e, he, hc⟩
    simp only [Function.comp] at hc
    split at hc
    · rename_i f' hf'
      obtain ⟨x, hx, rfl, e', he', hs⟩ := (h.client _ _).1 hf'
      simp only [decide_eq_true_eq] at hc
      exact ⟨x, hx, hc.2, e, he, e', he', hs⟩
    · cases hc
  · rintro ⟨x, hx, hne, e, he, e', he', hs⟩
    refine ⟨e, he, ?_⟩
    simp only [Function.comp]
    rw [(h.client e.runtimeSource x.2.1).2 ⟨x, hx, rfl, e', he', hs⟩]
    simp [hne, (h.good x hx).2.1]

theorem mem_sort_src {f src : Str} {m : List Entry} :
    src ∈ (sortEntries (m.map fun e => { e with source := f })).map (·.runtimeSource) ↔ ∃ e ∈ m, e.runtimeSource = src := by
  have hp := ((sortEntries_perm (m.map fun e => { e with source := f })).map (·.runtimeSource)).mem_iff (a := src)
  rw [hp]
  simp

theorem set_step {norm : Str → Str} {s : State} {t : Tables} (h : Rel norm s t) (f : Str) (m : List Entry) (hf : f ≠ [])
    (hm : ValidTable m) :
    (setMapping norm s f m).1 = (specStep norm t (.set f m)).1 ∧ Rel norm (setMapping norm s f m).2 (specStep norm t (.set f m)).2 := by
  unfold setMapping specStep
  simp only
  by_cases hc : Taken t f m
  · rw [if_pos hc, if_pos ((conflicts_iff h f m).2 hc)]
    exact ⟨rfl, h⟩
  · rw [if_neg hc, if_neg (fun h' => hc ((conflicts_iff h f m).1 h'))]
    have hcur : (Py.Dict.get s.toServer (norm f)).getD [] =
        (((Py.Dict.get t (norm f)).map fun x => sortEntries (x.2.map fun e => { e with source := x.1 })).getD []) := by
      rw [h.tables, get_map_kept]
    -- what the loop of deletions removes
    have hdel : ∃ d, delAll s.toClient (((Py.Dict.get s.toServer (norm f)).getD []).map (·.runtimeSource)) = (d, true) ∧
        ∀ k, Py.Dict.get d k = if ∃ x ∈ t, x.1 = norm f ∧ ∃ e ∈ x.2.2, e.runtimeSource = k then none else Py.Dict.get s.toClient k := by
      rw [hcur]
      cases hg : Py.Dict.get t (norm f) with
      | none =>
        refine ⟨s.toClient, by simp [delAll], ?_⟩
        intro k
        rw [if_neg]
        rintro ⟨x, hx, hk, _⟩
        rw [Py.Dict.get_none_iff] at hg
        exact hg (by rw [← hk]; exact List.mem_map_of_mem hx)
      | some v =>
        have hmem : (norm f, v) ∈ t := Py.Dict.mem_of_get hg
        simp only [Option.map_some, Option.getD_some]
        have hnd : ((sortEntries (v.2.map fun e => { e with source := v.1 })).map (·.runtimeSource)).Nodup := by
          refine (List.Perm.nodup_iff ((sortEntries_perm _).map _)).2 ?_
          rw [List.map_map]
          exact (h.good _ hmem).2.2.sources
        obtain ⟨d1, d2⟩ := delAll_ok _ s.toClient hnd (by
          intro k hk
          obtain ⟨e, he, hs⟩ := mem_sort_src.1 hk
          rw [(h.client k v.1).2 ⟨_, hmem, rfl, e, he, hs⟩]; rfl)
        refine ⟨_, Prod.ext rfl d1, ?_⟩
        intro k
        rw [d2]
        simp only [mem_sort_src]
        congr 1
        apply propext
        constructor
        · rintro ⟨e, he, hs⟩; exact ⟨_, hmem, rfl, e, he, hs⟩
        · rintro ⟨x, hx, hk, e, he, hs⟩
          have := Py.Dict.get_of_mem h.ok (k := x.1) (v := x.2) hx
          rw [hk, hg] at this
          injection this with this
          exact ⟨e, by rw [this]; exact he, hs⟩
    obtain ⟨d, hd1, hd2⟩ := hdel
    rw [hd1]
    simp only [if_true]
    refine ⟨trivial, ⟨?_, Py.Dict.ok_set h.ok _ _, ?_, ?_, ?_, ?_⟩⟩
    · simp only [h.tables, set_map_kept]
    · intro x hx
      rcases (Py.Dict.mem_set h.ok _ _ _).1 hx with rfl | ⟨hx, _⟩
      · exact ⟨rfl, hf, hm⟩
      · exact h.good x hx
    · intro src g
      simp only
      rw [get_setAll]
      have hsrcs : src ∈ (m.map fun e => { e with source := f }).map (·.runtimeSource) ↔ ∃ e ∈ m, e.runtimeSource = src := by simp
      by_cases hin : ∃ e ∈ m, e.runtimeSource = src
      · rw [if_pos (hsrcs.2 hin)]
        constructor
        · intro hg; injection hg with hg
          exact ⟨(norm f, (f, m)), (Py.Dict.mem_set h.ok _ _ _).2 (.inl rfl), hg, hin⟩
        · rintro ⟨x, hx, rfl, e, he, hs⟩
          rcases (Py.Dict.mem_set h.ok _ _ _).1 hx with rfl | ⟨hx, hne⟩
          · rfl
          · by_cases hxf : x.2.1 = f
            · exact absurd (by rw [← hxf]; exact (h.good x hx).1) hne
            · obtain ⟨e0, he0, hs0⟩ := hin
              exact absurd ⟨x, hx, hxf, e0, he0, e, he, hs.trans hs0.symm⟩ hc
      · rw [if_neg (fun h' => hin (hsrcs.1 h')), hd2]
        split
        · rename_i hold
          obtain ⟨y, hy, hyk, e', he', hs'⟩ := hold
          constructor
          · intro h'; cases h'
          · rintro ⟨x, hx, rfl, e, he, hs⟩
            rcases (Py.Dict.mem_set h.ok _ _ _).1 hx with rfl | ⟨hx, hne⟩
            · exact absurd ⟨e, he, hs⟩ hin
            · have := (h.unique hx hy he he' (hs.trans hs'.symm)).1
              exact absurd (this ▸ hyk) hne
        · rename_i hold
          rw [h.client]
          constructor
          · rintro ⟨x, hx, hg, e, he, hs⟩
            refine ⟨x, (Py.Dict.mem_set h.ok _ _ _).2 (.inr ⟨hx, ?_⟩), hg, e, he, hs⟩
            intro hk; exact hold ⟨x, hx, hk, e, he, hs⟩
          · rintro ⟨x, hx, hg, e, he, hs⟩
            rcases (Py.Dict.mem_set h.ok _ _ _).1 hx with rfl | ⟨hx, _⟩
            · exact absurd ⟨e, he, hs⟩ hin
            · exact ⟨x, hx, hg, e, he, hs⟩
    · intro k r hk; simp [Py.Dict.get] at hk
    · intro k r hk; simp [Py.Dict.get] at hk

theorem server_step {norm : Str → Str} {s : State} {t : Tables} (h : Rel norm s t) (f : Str) (i : Int) :
    (step norm s (.toServer f i)).1 = (specStep norm t (.toServer f i)).1 := by
  simp only [step, specStep, mapToServer, h.tables, get_map_kept]
  cases hg : Py.Dict.get t (norm f) with
  | none => simp
  | some v =>
    have hmem : (norm f, v) ∈ t := Py.Dict.mem_of_get hg
    have hv := (h.good _ hmem).2.2
    simp only [Option.map_some, Option.getD_some]
    rw [pick_eq_find (by intro e he; obtain ⟨e0, he0, rfl⟩ := List.mem_map.1 he; exact (hv.lines e0 he0).2)
      (by rw [List.pairwise_map]; exact hv.disjoint)]
    rw [List.find?_map]
    have : ((fun e => decide (Covers e i)) ∘ fun e : Entry => { e with source := v.1 }) = fun e => decide (Covers e i) := by
      funext e; rfl
    rw [this]
    cases v.2.find? fun e => decide (Covers e i) <;> rfl

theorem mem_flat {t : Tables} {e : Entry} : e ∈ (t.map kept).flatMap (·.2) ↔ ∃ x ∈ t, ∃ e0 ∈ x.2.2, e = { e0 with source := x.2.1 } := by
  simp only [List.mem_flatMap, List.mem_map]
  constructor
  · rintro ⟨y, ⟨x, hx, rfl⟩, he⟩
    have := (sortEntries_perm _).mem_iff.1 he
    obtain ⟨e0, he0, rfl⟩ := List.mem_map.1 this
    exact ⟨x, hx, e0, he0, rfl⟩
  · rintro ⟨x, hx, e0, he0, rfl⟩
    refine ⟨_, ⟨x, hx, rfl⟩, ?_⟩
    exact (sortEntries_perm _).mem_iff.2 (List.mem_map.2 ⟨e0, he0, rfl⟩)

theorem compute_client {norm : Str → Str} {s : State} {t : Tables} (h : Rel norm s t) (src : Str) (i : Int)
    (hgood : ∀ x ∈ t, ∀ e ∈ x.2.2, e.runtimeSource = src → ¬PastEnd e i) :
    (Ans.loc (computeClient s.toServer src i).1 (computeClient s.toServer src i).2.1 (computeClient s.toServer src i).2.2) =
      (specStep norm t (.toClient src i)).1 := by
  unfold computeClient specStep
  simp only
  by_cases hex : ∃ x ∈ t, ∃ e ∈ x.2.2, e.runtimeSource = src ∧ CoversRuntime e i
  · obtain ⟨x, hx, e, he, hs, hc⟩ := hex
    have hl := (h.good x hx).2.2.lines e he
    rw [find_unique (l := s.toServer.flatMap (·.2)) (x := { e with source := x.2.1 })]
    · rw [find_unique (l := t.flatMap fun x => x.2.2.map fun e => (x.2.1, e)) (x := (x.2.1, e))]
      · exact List.mem_flatMap.2 ⟨x, hx, List.mem_map.2 ⟨e, he, rfl⟩⟩
      · simp [hs, hc]
      · rintro y hy hp
        obtain ⟨z, hz, hy⟩ := List.mem_flatMap.1 hy
        obtain ⟨e', he', rfl⟩ := List.mem_map.1 hy
        simp only [decide_eq_true_eq] at hp
        obtain ⟨rfl, rfl⟩ := h.unique hx hz he he' (hs.trans hp.1.symm)
        rfl
    · rw [h.tables]; exact mem_flat.2 ⟨x, hx, e, he, rfl⟩
    · simp only [hs, beq_self_eq_true, containsRuntimeLine, Bool.true_and, Bool.and_eq_true, decide_eq_true_eq]
      have := hc.1; have := hc.2
      constructor <;> omega
    · intro y hy hp
      rw [h.tables] at hy
      obtain ⟨z, hz, e', he', rfl⟩ := mem_flat.1 hy
      simp only [Bool.and_eq_true, beq_iff_eq] at hp
      obtain ⟨rfl, rfl⟩ := h.unique hx hz he he' (hs.trans hp.1.symm)
      rfl
  · have h1 : (s.toServer.flatMap (·.2)).find? (fun e => e.runtimeSource == src && containsRuntimeLine e i) = none := by
      rw [List.find?_eq_none]
      intro e he hp
      rw [h.tables] at he
      obtain ⟨x, hx, e0, he0, rfl⟩ := mem_flat.1 he
      simp only [Bool.and_eq_true, beq_iff_eq, containsRuntimeLine, decide_eq_true_eq] at hp
      have hne := hgood x hx e0 he0 hp.1
      apply hex
      refine ⟨x, hx, e0, he0, hp.1, hp.2.1, ?_⟩
      unfold PastEnd at hne
      have := hp.2.2
      omega
    have h2 : (t.flatMap fun x => x.2.2.map fun e => (x.2.1, e)).find? (fun x => decide (x.2.runtimeSource = src ∧ CoversRuntime x.2 i)) = none := by
      rw [List.find?_eq_none]
      intro y hy hp
      obtain ⟨z, hz, hy⟩ := List.mem_flatMap.1 hy
      obtain ⟨e', he', rfl⟩ := List.mem_map.1 hy
      simp only [decide_eq_true_eq] at hp
      exact hex ⟨z, hz, e', he', hp⟩
    rw [h1, h2]

theorem compute_has {norm : Str → Str} {s : State} {t : Tables} (h : Rel norm s t) (src : Str) :
    computeHas s.toServer src = (t.flatMap fun x => x.2.2).any fun e => e.runtimeSource == src := by
  unfold computeHas
  rw [Bool.eq_iff_iff, List.any_eq_true, List.any_eq_true]
  constructor
  · rintro ⟨e, he, hp⟩
    rw [h.tables] at he
    obtain ⟨x, hx, e0, he0, rfl⟩ := mem_flat.1 he
    exact ⟨e0, List.mem_flatMap.2 ⟨x, hx, he0⟩, hp⟩
  · rintro ⟨e, he, hp⟩
    obtain ⟨x, hx, he⟩ := List.mem_flatMap.1 he
    exact ⟨{ e with source := x.2.1 }, by rw [h.tables]; exact mem_flat.2 ⟨x, hx, e, he, rfl⟩, hp⟩

theorem mapToClient_ok {norm : Str → Str} {s : State} {t : Tables} (h : Rel norm s t) (src : Str) (i : Int) :
    (mapToClient s src i).1 = computeClient s.toServer src i ∧ Rel norm (mapToClient s src i).2 t := by
  unfold mapToClient
  cases hg : Py.Dict.get s.cacheClient (i, src) with
  | some v => exact ⟨h.cacheC _ _ hg, h⟩
  | none =>
    refine ⟨rfl, h.tables, h.ok, h.good, h.client, ?_, h.cacheH⟩
    intro k v hk
    simp only [Py.Dict.get_set] at hk
    split at hk
    · rename_i he; cases hk; rw [he]
    · exact h.cacheC k v hk

theorem hasEntry_ok {norm : Str → Str} {s : State} {t : Tables} (h : Rel norm s t) (src : Str) :
    (hasEntry s src).1 = computeHas s.toServer src ∧ Rel norm (hasEntry s src).2 t := by
  unfold hasEntry
  cases hg : Py.Dict.get s.cacheHas src with
  | some v => exact ⟨h.cacheH _ _ hg, h⟩
  | none =>
    refine ⟨rfl, h.tables, h.ok, h.good, h.client, h.cacheC, ?_⟩
    intro k v hk
    simp only [Py.Dict.get_set] at hk
    split at hk
    · rename_i he; cases hk; rw [he]
    · exact h.cacheH k v hk

theorem rel_step {norm : Str → Str} {s : State} {t : Tables} (h : Rel norm s t) (r : Req) (hr : GoodReq t r) :
    (step norm s r).1 = (specStep norm t r).1 ∧ Rel norm (step norm s r).2 (specStep norm t r).2 := by
  cases r with
  | set f m => exact set_step h f m hr.1 hr.2
  | toServer f i =>
    refine ⟨server_step h f i, ?_⟩
    have : (specStep norm t (.toServer f i)).2 = t := by unfold specStep; simp only; split <;> rfl
    rw [this]
    exact h
  | toClient src i =>
    have h2 : (specStep norm t (.toClient src i)).2 = t := by unfold specStep; simp only; split <;> rfl
    rw [h2]
    obtain ⟨e1, e2⟩ := mapToClient_ok h src i
    refine ⟨?_, e2⟩
    rw [← compute_client h src i hr, ← e1]
    rfl
  | has src =>
    obtain ⟨e1, e2⟩ := hasEntry_ok h src
    refine ⟨?_, e2⟩
    show Ans.has (hasEntry s src).1 = Ans.has _
    rw [e1, compute_has h]

theorem rel_start (norm : Str → Str) : Rel norm {} [] := by
  refine ⟨rfl, Py.Dict.ok_nil, by simp, ?_, ?_, ?_⟩ <;> intros <;> simp_all [Py.Dict.get]

/-- Every sequence of requests is answered as the specification answers it: tables replaced one by one, refused
exactly when they take over a runtime source of another file, and locations translated by the current tables, in both
directions, in spite of the caches. -/
theorem c32_refines (norm : Str → Str) (rs : List Req) (h : GoodRun norm [] rs) : answers norm {} rs = specAnswers norm [] rs := by
  have key : ∀ (rs : List Req) (s : State) (t : Tables), Rel norm s t → GoodRun norm t rs → answers norm s rs = specAnswers norm t rs := by
    intro rs
    induction rs with
    | nil => intros; rfl
    | cons r rs ih =>
      intro s t hrel hg
      obtain ⟨h1, h2⟩ := rel_step hrel r hg.1
      show _ :: _ = _ :: _
      rw [h1, ih _ _ h2 hg.2]
  exact key rs _ _ (rel_start norm) h

/-! ### The round trip, in the specification -/

/-- the tables after a sequence of requests -/
def specRun (norm : Str → Str) (t : Tables) : List Req → Tables
  | [] => t
  | r :: rs => specRun norm (specStep norm t r).2 rs

theorem rel_run {norm : Str → Str} (rs : List Req) : ∀ {s : State} {t : Tables}, Rel norm s t → GoodRun norm t rs →
    ∃ s', Rel norm s' (specRun norm t rs) := by
  induction rs with
  | nil => intro s t h _; exact ⟨s, h⟩
  | cons r rs ih => intro s t h hg; exact ih (rel_step h r hg.1).2 hg.2

/-- After any history, a line covered by an entry of the current table of its file maps to the runtime line, and that
runtime line maps back to the file and the line. -/
theorem c32_round_trip (norm : Str → Str) (rs : List Req) (h : GoodRun norm [] rs) (f : Str) (m : List Entry) (e : Entry) (i : Int)
    (hf : Py.Dict.get (specRun norm [] rs) (norm f) = some (f, m)) (he : e ∈ m) (hc : Covers e i) :
    (specStep norm (specRun norm [] rs) (.toServer f i)).1 = .loc e.runtimeSource (e.runtimeLine + (i - e.line)) true ∧
    (specStep norm (specRun norm [] rs) (.toClient e.runtimeSource (e.runtimeLine + (i - e.line)))).1 = .loc f i true := by
  obtain ⟨s, hrel⟩ := rel_run rs (rel_start norm) h
  have hmem : (norm f, (f, m)) ∈ specRun norm [] rs := Py.Dict.mem_of_get hf
  have hv : ValidTable m := (hrel.good _ hmem).2.2
  constructor
  · unfold specStep
    simp only [hf, Option.map_some, Option.getD_some]
    rw [find_unique he (by simpa using hc)]
    intro e' he' hp
    simp only [decide_eq_true_eq] at hp
    obtain ⟨a, ha, rfl⟩ := List.getElem_of_mem he
    obtain ⟨b, hb, rfl⟩ := List.getElem_of_mem he'
    rcases Nat.lt_trichotomy a b with hab | hab | hab
    · have := List.pairwise_iff_getElem.1 hv.disjoint a b ha hb hab
      have := hc.1; have := hc.2; have := hp.1; have := hp.2; omega
    · subst hab; rfl
    · have := List.pairwise_iff_getElem.1 hv.disjoint b a hb ha hab
      have := hc.1; have := hc.2; have := hp.1; have := hp.2; omega
  · unfold specStep
    simp only
    rw [find_unique (x := (f, e))]
    · simp only [Ans.loc.injEq, true_and, and_true]; omega
    · exact List.mem_flatMap.2 ⟨_, hmem, List.mem_map.2 ⟨e, he, rfl⟩⟩
    · have := hc.1; have := hc.2
      simp only [decide_eq_true_eq, CoversRuntime, true_and]
      omega
    · intro y hy hp
      obtain ⟨z, hz, hy⟩ := List.mem_flatMap.1 hy
      obtain ⟨e', he', rfl⟩ := List.mem_map.1 hy
      simp only [decide_eq_true_eq] at hp
      obtain ⟨rfl, rfl⟩ := hrel.unique hmem hz he he' hp.1.symm
      rfl

/-! ### Examples and witnesses -/

def nb : Str := c!"/nb.ipynb"
def cell1 : Str := c!"<cell1>"
def cell2 : Str := c!"<cell2>"
def tbl : List Entry := [{ line := 20, endLine := 25, runtimeLine := 1, runtimeSource := cell2 },
  { line := 10, endLine := 12, runtimeLine := 1, runtimeSource := cell1 }]

theorem tbl_valid : ValidTable tbl := ⟨by decide, by decide, by decide⟩

example : answers id {} [.set nb tbl, .toServer nb 11, .toServer nb 15, .toServer nb 25, .toClient cell2 6, .has cell1,
      .set c!"/other.py" [{ line := 1, endLine := 2, runtimeLine := 1, runtimeSource := cell1 }], .set nb [], .has cell1, .toClient cell2 6]
    = [.ok, .loc cell1 2 true, .loc nb 15 false, .loc cell2 6 true, .loc nb 25 true, .has true, .refused, .ok, .has false, .loc cell2 6 false] := by
  decide

example : GoodRun id [] [.set nb tbl, .toServer nb 11, .toClient cell2 6] := by
  refine ⟨⟨by decide, tbl_valid⟩, trivial, ?_, trivial⟩
  show ∀ x ∈ Py.Dict.set [] nb (nb, tbl), _
  unfold PastEnd; decide

/-- The end of the runtime lines of an entry is computed with a sum instead of a difference: runtime lines after the
end of the code of the entry are attributed to it. -/
theorem c32_past_the_end :
    answers id {} [.set nb tbl, .toClient cell1 20] = [.ok, .loc nb 29 true] ∧
    specAnswers id [] [.set nb tbl, .toClient cell1 20] = [.ok, .loc cell1 20 false] := by decide

/-- With two entries for one runtime source the second one is never used to come back ... -/
def twice : List Entry := [{ line := 10, endLine := 12, runtimeLine := 1, runtimeSource := cell1 },
  { line := 20, endLine := 22, runtimeLine := 8, runtimeSource := cell1 }]

theorem c32_two_ranges :
    answers id {} [.set nb twice, .toServer nb 21, .toClient cell1 9] = [.ok, .loc cell1 9 true, .loc nb 18 true] := by decide

theorem delAll_twice (d : List (Str × Str)) (src : Str) (more : List Str) : (delAll d (src :: src :: more)).2 = false := by
  unfold delAll
  split
  · unfold delAll
    rw [Py.Dict.has_iff_get, Py.Dict.get_erase]
    simp
  · rfl

/-- ... and the mapping of the file can never be changed again: every further request fails or is refused, and
changes no table. -/
theorem c32_stuck (m : List Entry) (s : State) (h : Py.Dict.get s.toServer nb = some (sortEntries (twice.map fun e => { e with source := nb }))) :
    (setMapping id s nb m).1 ≠ .ok ∧ (setMapping id s nb m).2.toServer = s.toServer := by
  unfold setMapping
  simp only
  split
  · exact ⟨by simp, rfl⟩
  · simp only [id, h, Option.getD_some]
    have hs : (sortEntries (twice.map fun e => { e with source := nb })).map (·.runtimeSource) = [cell1, cell1] := by decide
    rw [hs]
    have := delAll_twice s.toClient cell1 []
    generalize delAll s.toClient [cell1, cell1] = p at this ⊢
    obtain ⟨d, b⟩ := p
    simp only at this
    subst this
    exact ⟨by simp, rfl⟩

/-- A search in progress while the table is replaced leaves its stale result in the cleared cache. -/
theorem c32_race :
    let s := (setMapping id {} nb tbl).2
    let r := computeClient s.toServer cell1 1
    let s' := (setMapping id s nb []).2
    let s'' := { s' with cacheClient := Py.Dict.set s'.cacheClient (1, cell1) r }
    (mapToClient s'' cell1 1).1 = (nb, 10, true) ∧ computeClient s''.toServer cell1 1 = (cell1, 1, false) := by decide

end SourceMap
