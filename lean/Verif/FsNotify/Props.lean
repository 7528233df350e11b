import Verif.FsNotify.Lemmas
/-!
**C41.** After each scan the changes reported are exactly the files added, removed or whose (mtime, size) changed since the
previous scan, each once.
-/

namespace FsNotify

open Spec

/-! ### Recording the files -/

/-- the change reported for a file found -/
def changeOf (old : List (Str × Stat)) (e : Str × Stat) : Option (Change × Str) :=
  match Py.Dict.get old e.1 with
  | none => some (.added, e.1)
  | some o => if o ≠ e.2 then some (.modified, e.1) else none

theorem recordAll_eq (st : St) (l : List (Str × Stat)) (h : (l.map (·.1)).Nodup) (hnew : ∀ e ∈ l, e.1 ∉ st.new.map (·.1)) :
    recordAll st l = St.mk st.visited (st.new ++ l) (st.old.filter fun e => !(l.map (·.1)).contains e.1)
      (st.changes ++ l.filterMap (changeOf st.old)) := by
  induction l generalizing st with
  | nil =>
    cases st
    simp only [recordAll, List.foldl_nil, List.append_nil, List.filterMap_nil, List.map_nil]
    congr 1
    exact (List.filter_eq_self.2 (by simp)).symm
  | cons e l ih =>
    simp only [List.map_cons, List.nodup_cons] at h
    have hstep : recordAll st (e :: l) = recordAll (record st e.1 e.2) l := rfl
    rw [hstep, ih (record st e.1 e.2) h.2]
    · have h1 : Py.Dict.set st.new e.1 e.2 = st.new ++ [e] := Py.Dict.set_of_not_mem _ _ _ (hnew e (by simp))
      have h2 : l.filterMap (changeOf (Py.Dict.erase st.old e.1)) = l.filterMap (changeOf st.old) := by
        have hcongr : ∀ (f g : Str × Stat → Option (Change × Str)) (l : List (Str × Stat)), (∀ x ∈ l, f x = g x) → l.filterMap f = l.filterMap g := by
          intro f g l
          induction l with
          | nil => intro _; rfl
          | cons y l ih => intro hy; rw [List.filterMap_cons, List.filterMap_cons, hy y (by simp), ih fun x hx => hy x (by simp [hx])]
        apply hcongr
        intro x hx
        have : x.1 ≠ e.1 := fun hxe => h.1 (List.mem_map.2 ⟨x, hx, hxe⟩)
        simp only [changeOf, Py.Dict.get_erase, this, if_false]
      simp only [record, h1, h2]
      congr 1
      · simp
      · simp only [Py.Dict.erase, List.filter_filter]
        apply List.filter_congr
        intro x _
        simp only [List.map_cons, List.contains_cons, Bool.not_or]
        rw [Bool.eq_iff_iff]
        simp only [Bool.and_eq_true, bne_iff_ne, Bool.not_eq_true', beq_eq_false_iff_ne]
        exact And.comm
      · simp only [List.filterMap_cons, changeOf]
        cases Py.Dict.get st.old e.1 with
        | none => simp
        | some o => by_cases ho : o = e.2 <;> simp [ho]
    · intro x hx
      have h1 : Py.Dict.set st.new e.1 e.2 = st.new ++ [e] := Py.Dict.set_of_not_mem _ _ _ (hnew e (by simp))
      simp only [record, h1, List.map_append, List.map_cons, List.map_nil, List.mem_append, List.mem_singleton, not_or]
      exact ⟨hnew x (by simp [hx]), fun hxe => h.1 (List.mem_map.2 ⟨x, hx, hxe⟩)⟩

theorem mem_functional {l : List (Str × Stat)} (h : (l.map (·.1)).Nodup) {p : Str} {s s' : Stat} (h1 : (p, s) ∈ l) (h2 : (p, s') ∈ l) :
    s = s' := by
  have h1 := Py.Dict.get_of_mem h h1
  have h2 := Py.Dict.get_of_mem h h2
  rw [h1] at h2
  exact Option.some.inj h2

theorem mem_keys {l : List (Str × Stat)} {p : Str} : p ∈ l.map (·.1) ↔ ∃ s, (p, s) ∈ l := by
  simp

theorem diff_lists {old l : List (Str × Stat)} (ho : (old.map (·.1)).Nodup) (hl : (l.map (·.1)).Nodup) :
    Diff (fun p s => (p, s) ∈ old) (fun p s => (p, s) ∈ l)
      (l.filterMap (changeOf old) ++ (old.filter fun e => !(l.map (·.1)).contains e.1).map fun e => (.deleted, e.1)) := by
  have hch : ∀ k p, (k, p) ∈ l.filterMap (changeOf old) ↔
      (k = .added ∧ (∃ s, (p, s) ∈ l) ∧ ¬ ∃ s, (p, s) ∈ old) ∨ (k = .modified ∧ ∃ s s', (p, s) ∈ old ∧ (p, s') ∈ l ∧ s ≠ s') := by
    intro k p
    rw [List.mem_filterMap]
    constructor
    · rintro ⟨⟨q, s⟩, h1, h2⟩
      simp only [changeOf] at h2
      cases hg : Py.Dict.get old q with
      | none =>
        rw [hg] at h2
        simp only [Option.some.injEq, Prod.mk.injEq] at h2
        obtain ⟨rfl, rfl⟩ := h2
        refine .inl ⟨rfl, ⟨s, h1⟩, ?_⟩
        rw [Py.Dict.get_none_iff, mem_keys] at hg
        exact hg
      | some o =>
        rw [hg] at h2
        simp only at h2
        split at h2
        · rename_i hne
          simp only [Option.some.injEq, Prod.mk.injEq] at h2
          obtain ⟨rfl, rfl⟩ := h2
          exact .inr ⟨rfl, o, s, Py.Dict.mem_of_get hg, h1, hne⟩
        · cases h2
    · rintro (⟨rfl, ⟨s, h1⟩, h2⟩ | ⟨rfl, s, s', h1, h2, h3⟩)
      · refine ⟨(p, s), h1, ?_⟩
        have : Py.Dict.get old p = none := by rw [Py.Dict.get_none_iff, mem_keys]; exact h2
        simp only [changeOf, this]
      · refine ⟨(p, s'), h2, ?_⟩
        have : Py.Dict.get old p = some s := Py.Dict.get_of_mem ho h1
        simp only [changeOf, this]
        rw [if_pos h3]
  have hdel : ∀ k p, (k, p) ∈ (old.filter fun e => !(l.map (·.1)).contains e.1).map (fun e => (Change.deleted, e.1)) ↔
      k = .deleted ∧ (∃ s, (p, s) ∈ old) ∧ ¬ ∃ s, (p, s) ∈ l := by
    intro k p
    rw [List.mem_map]
    constructor
    · rintro ⟨⟨q, s⟩, h1, h2⟩
      simp only [Prod.mk.injEq] at h2
      obtain ⟨rfl, rfl⟩ := h2
      rw [List.mem_filter] at h1
      refine ⟨rfl, ⟨s, h1.1⟩, ?_⟩
      intro h3
      have := mem_keys.2 h3
      have h4 := h1.2
      simp only [Bool.not_eq_true'] at h4
      rw [List.contains_iff_mem.2 this] at h4
      cases h4
    · rintro ⟨rfl, ⟨s, h1⟩, h2⟩
      refine ⟨(p, s), ?_, rfl⟩
      rw [List.mem_filter]
      refine ⟨h1, ?_⟩
      have : p ∉ l.map (·.1) := fun h => h2 (mem_keys.1 h)
      simp only [Bool.not_eq_true']
      cases hc : (l.map (·.1)).contains p with
      | false => rfl
      | true => exact absurd (List.contains_iff_mem.1 hc) this
  refine ⟨?_, ?_, ?_, ?_⟩
  · intro p
    rw [List.mem_append, hch, hdel]
    simp
  · intro p
    rw [List.mem_append, hch, hdel]
    simp
  · intro p
    rw [List.mem_append, hch, hdel]
    simp
  · rw [List.map_append, List.nodup_append]
    refine ⟨?_, ?_, ?_⟩
    · have : List.Sublist ((l.filterMap (changeOf old)).map (·.2)) (l.map (·.1)) := by
        have key : ∀ l : List (Str × Stat), List.Sublist ((l.filterMap (changeOf old)).map (·.2)) (l.map (·.1)) := by
          intro l
          induction l with
          | nil => exact List.Sublist.refl _
          | cons e l ih =>
            rw [List.filterMap_cons]
            have hc : ∀ y, changeOf old e = some y → y.2 = e.1 := by
              intro y hy
              simp only [changeOf] at hy
              split at hy
              · rw [← Option.some.inj hy]
              · split at hy
                · rw [← Option.some.inj hy]
                · cases hy
            cases h : changeOf old e with
            | none => exact ih.cons _
            | some y =>
              simp only [List.map_cons]
              rw [hc y h]
              exact ih.cons_cons _
        exact key l
      exact this.nodup hl
    · rw [List.map_map]
      have : List.Sublist ((old.filter fun e => !(l.map (·.1)).contains e.1).map (·.1)) (old.map (·.1)) :=
        List.filter_sublist.map _
      exact this.nodup ho
    · intro a ha b hb hab
      subst hab
      obtain ⟨⟨k, p⟩, h1, rfl⟩ := List.mem_map.1 ha
      obtain ⟨⟨k', p'⟩, h2, h3⟩ := List.mem_map.1 hb
      simp only at h3
      subst h3
      have h4 := (hdel _ _).1 h2
      rcases (hch _ _).1 h1 with ⟨_, h5, _⟩ | ⟨_, s, s', _, h5, _⟩
      · exact h4.2.2 h5
      · exact h4.2.2 ⟨s', h5⟩

/-! ### The roots -/

/-- after visiting the roots `done` -/
structure RootsInv (c : Cfg) (fs : FS) (done V : List Str) (files : List (Str × Stat)) : Prop where
  reach : ∀ x ∈ V, ∃ r ∈ done, ∃ n, n ≤ c.maxLevel ∧ Reach c fs n r x
  mem : ∀ p s, (p, s) ∈ files ↔ ∃ x ∈ V, FileIn c fs x p s
  once : (files.map (·.1)).Nodup
  closed : ∀ r ∈ done, Closed c fs V (c.maxLevel + 1) r

theorem deeper_below {c : Cfg} {fs : FS} (ht : Tree fs) {m n : Nat} {a b x : Str} (h1 : Reach c fs m a x) (h2 : Reach c fs n b x)
    (hlt : n < m) : Below a b := by
  have c1 := reach_count ht h1
  have c2 := reach_count ht h2
  have p1 := reach_prefix h1
  have p2 := reach_prefix h2
  have cnt : ∀ y : Str, (child y []).count '/' = y.count '/' + 1 := by intro y; simp [child]
  rcases List.prefix_or_prefix_of_prefix p1 p2 with h | h
  · unfold Below
    obtain ⟨t, ht'⟩ := h
    rcases List.eq_nil_or_concat t with rfl | ⟨t, y, rfl⟩
    · rw [List.append_nil] at ht'
      have := congrArg (List.count '/') ht'
      rw [cnt, cnt] at this
      omega
    · rw [List.concat_eq_append, ← List.append_assoc] at ht'
      have := (List.append_inj' (show child a [] ++ t ++ [y] = b ++ ['/'] from ht') rfl).1
      exact ⟨t, this⟩
  · have := h.sublist.count_le '/'
    rw [cnt, cnt] at this
    omega

theorem pre_of {c : Cfg} {fs : FS} (ht : Tree fs) {done V : List Str} {files : List (Str × Stat)} (hi : RootsInv c fs done V files)
    {r : Str} (h : (∀ a ∈ done, ¬ Below a r) ∨ NothingCut c fs done) : Pre c fs V (c.maxLevel + 1) r := by
  intro x n hr hn hx
  obtain ⟨a, ha, m, hm, hreach⟩ := hi.reach x hx
  have hcl := closed_reach (hi.closed a ha) hreach (by omega)
  rcases h with h | h
  · refine closed_less ?_ hcl
    have : ¬ n < m := fun hlt => h a ha (deeper_below ht hreach hr hlt)
    omega
  · refine closed_all hcl ?_ _
    intro y hy
    have h1 := reach_trans hreach hy
    have h2 : m + (c.maxLevel + 1 - m) = c.maxLevel + 1 := by omega
    rw [h2] at h1
    exact h a ha y h1

def walkRoots (c : Cfg) (fs : FS) : List Str → List Str → List (Str × Stat) → List Str × List (Str × Stat)
  | [], V, files => (V, files)
  | r :: rs, V, files =>
    let w := walk c fs (c.maxLevel + 1) r V
    walkRoots c fs rs w.1 (files ++ w.2)

theorem fold_walk (c : Cfg) (fs : FS) (order : List Str) (V : List Str) (files : List (Str × Stat)) (st : St) :
    order.foldl (fun st r => checkDir c fs (c.maxLevel + 1) r st) { recordAll st files with visited := V } =
      { recordAll st (walkRoots c fs order V files).2 with visited := (walkRoots c fs order V files).1 } := by
  induction order generalizing V files with
  | nil => rfl
  | cons r rs ih =>
    rw [List.foldl_cons, checkDir_walk]
    simp only [recordAll_visited]
    have : recordAll (recordAll st files) (walk c fs (c.maxLevel + 1) r V).2 = recordAll st (files ++ (walk c fs (c.maxLevel + 1) r V).2) := by
      simp only [recordAll, List.foldl_append]
    rw [this]
    exact ih _ _

theorem walkRoots_inv {c : Cfg} {fs : FS} (ht : Tree fs) (order done V : List Str) (files : List (Str × Stat))
    (hp : ∀ r ∈ order, Plain r) (h : NestedFirst (done ++ order) ∨ NothingCut c fs (done ++ order)) (hi : RootsInv c fs done V files) :
    RootsInv c fs (done ++ order) (walkRoots c fs order V files).1 (walkRoots c fs order V files).2 := by
  induction order generalizing done V files with
  | nil => simpa [walkRoots] using hi
  | cons r rs ih =>
    have hpre : Pre c fs V (c.maxLevel + 1) r := by
      apply pre_of ht hi
      rcases h with h | h
      · left
        intro a ha
        exact (List.pairwise_append.1 h).2.2 a ha r (by simp)
      · right
        intro a ha
        exact h a (by simp [ha])
    obtain ⟨news, w⟩ := walk_spec ht (c.maxLevel + 1) r V (hp r (by simp)) (c := c)
    have hassoc : done ++ r :: rs = (done ++ [r]) ++ rs := by simp
    rw [hassoc] at h ⊢
    refine ih (done ++ [r]) _ _ (fun x hx => hp x (by simp [hx])) h ⟨?_, ?_, ?_, ?_⟩
    · intro x hx
      rw [w.eq] at hx
      rcases List.mem_append.1 hx with hx | hx
      · obtain ⟨n, h1, h2⟩ := w.reach x hx
        exact ⟨r, by simp, n, by omega, h2⟩
      · obtain ⟨a, h1, h2⟩ := hi.reach x hx
        exact ⟨a, by simp [h1], h2⟩
    · intro p s
      rw [w.eq]
      simp only [List.mem_append, hi.mem, w.files]
      constructor
      · rintro (⟨x, h1, h2⟩ | ⟨x, h1, h2⟩)
        · exact ⟨x, .inr h1, h2⟩
        · exact ⟨x, .inl h1, h2⟩
      · rintro ⟨x, h1 | h1, h2⟩
        · exact .inr ⟨x, h1, h2⟩
        · exact .inl ⟨x, h1, h2⟩
    · exact nodup_append_files (D := V) (D' := news) ht hi.once w.once (fun p s h => (hi.mem p s).1 h) (fun p s h => (w.files p s).1 h)
        (fun x hx hn => w.fresh x hn hx)
    · intro a ha
      rcases List.mem_append.1 ha with ha | ha
      · refine closed_mono ?_ (hi.closed a ha)
        intro x hx
        rw [w.eq]
        simp [hx]
      · simp only [List.mem_singleton] at ha
        subst ha
        exact w.closed hpre

/-! ### A scan -/

/-- **C41**, a scan: what is found, and the changes. -/
theorem c41_scan (c : Cfg) (fs : FS) (ht : Tree fs) (order : List Str) (hp : ∀ r ∈ order, Plain r)
    (h : NestedFirst order ∨ NothingCut c fs order) (old : List (Str × Stat)) (ho : Py.Dict.Ok old) :
    (∀ p s, (p, s) ∈ (scan c fs order old).1 ↔ Seen c fs order p s) ∧ Py.Dict.Ok (scan c fs order old).1 ∧
    Diff (fun p s => (p, s) ∈ old) (Seen c fs order) (scan c fs order old).2 := by
  have hfold := fold_walk c fs order [] [] ⟨[], [], old, []⟩
  have hinv := walkRoots_inv ht order [] [] [] hp (by simpa using h) ⟨by simp, by simp, by simp, by simp⟩
  simp only [List.nil_append] at hinv
  have hfold : order.foldl (fun st r => checkDir c fs (c.maxLevel + 1) r st) ⟨[], [], old, []⟩ =
      { recordAll ⟨[], [], old, []⟩ (walkRoots c fs order [] []).2 with visited := (walkRoots c fs order [] []).1 } := hfold
  rw [recordAll_eq _ _ hinv.once (by simp)] at hfold
  have h1 : (scan c fs order old).1 = (walkRoots c fs order [] []).2 := by
    unfold scan
    rw [hfold]
    simp
  have h2 : (scan c fs order old).2 = (walkRoots c fs order [] []).2.filterMap (changeOf old) ++
      (old.filter fun e => !((walkRoots c fs order [] []).2.map (·.1)).contains e.1).map fun e => (.deleted, e.1) := by
    unfold scan
    rw [hfold]
    simp
  have hseen : ∀ p s, (p, s) ∈ (walkRoots c fs order [] []).2 ↔ Seen c fs order p s := by
    intro p s
    rw [hinv.mem]
    constructor
    · rintro ⟨x, hx, hf⟩
      obtain ⟨r, hr, n, hn, hreach⟩ := hinv.reach x hx
      exact ⟨r, hr, n, hn, x, hreach, hf⟩
    · rintro ⟨r, hr, n, hn, x, hreach, hf⟩
      refine ⟨x, ?_, hf⟩
      have := closed_reach (hinv.closed r hr) hreach (by omega)
      obtain ⟨j, hj⟩ : ∃ j, c.maxLevel + 1 - n = j + 1 := ⟨c.maxLevel - n, by omega⟩
      rw [hj] at this
      exact this.1
  refine ⟨by rw [h1]; exact hseen, by rw [h1]; exact hinv.once, ?_⟩
  rw [h2]
  have hd := diff_lists ho hinv.once
  have : (fun p s => (p, s) ∈ (walkRoots c fs order [] []).2) = Seen c fs order := by
    funext p s
    exact propext (hseen p s)
  rw [this] at hd
  exact hd

/-! ### Consecutive scans -/

/-- the order of the first snapshot has the nested roots first -/
theorem c41_initial (paths : List Str) : NestedFirst (initialOrder paths) ∧ ∀ r, r ∈ initialOrder paths ↔ r ∈ paths := by
  have hmem : ∀ x l y, y ∈ insertLen x l ↔ y = x ∨ y ∈ l := by
    intro x l y
    induction l with
    | nil => simp [insertLen]
    | cons z l ih =>
      unfold insertLen
      split
      · simp
      · simp only [List.mem_cons, ih]
        grind
  have hins : ∀ x l, l.Pairwise (fun a b : Str => b.length ≤ a.length) → (insertLen x l).Pairwise fun a b => b.length ≤ a.length := by
    intro x l
    induction l with
    | nil => intro _; simp [insertLen]
    | cons z l ih =>
      intro h
      unfold insertLen
      rw [List.pairwise_cons] at h
      split
      · rename_i hz
        refine List.pairwise_cons.2 ⟨?_, List.pairwise_cons.2 h⟩
        intro y hy
        rcases List.mem_cons.1 hy with rfl | hy
        · exact hz
        · have := h.1 y hy
          omega
      · refine List.pairwise_cons.2 ⟨?_, ih h.2⟩
        intro y hy
        rcases (hmem x l y).1 hy with rfl | hy
        · omega
        · exact h.1 y hy
  constructor
  · have : (initialOrder paths).Pairwise fun a b => b.length ≤ a.length := by
      induction paths with
      | nil => simp [initialOrder]
      | cons p ps ih => exact hins p _ ih
    refine this.imp ?_
    intro a b h hb
    have := hb.length_le
    simp [child] at this
    omega
  · intro r
    induction paths with
    | nil => simp [initialOrder]
    | cons p ps ih => simp only [initialOrder, hmem, ih, List.mem_cons]

theorem seen_congr {c : Cfg} {fs : FS} {l l' : List Str} (h : ∀ r, r ∈ l ↔ r ∈ l') : Seen c fs l = Seen c fs l' := by
  funext p s
  apply propext
  unfold Seen
  simp only [h]

/-- a scan of the roots `paths` in some order, of a tree without anything too deep or with the nested roots first -/
structure Good (c : Cfg) (paths : List Str) (s : Scan) : Prop where
  tree : Tree s.fs
  roots : ∀ r, r ∈ s.order ↔ r ∈ paths
  order : NestedFirst s.order ∨ NothingCut c s.fs s.order

/-- **C41.** Each scan reports exactly the differences between the tree found by it and the tree found by the scan (or the
first snapshot) before it, each once. -/
theorem c41_changes (c : Cfg) (paths : List Str) (hp : ∀ r ∈ paths, Plain r) (fs : FS) (hfs : Tree fs) (scans : List Scan)
    (hs : ∀ s ∈ scans, Good c paths s) (i : Nat) (changes : List (Change × Str))
    (hi : (iterChanges c (snapshot c fs paths) scans)[i]? = some changes) (before after : FS)
    (hb : (fs :: scans.map (·.fs))[i]? = some before) (ha : (fs :: scans.map (·.fs))[i + 1]? = some after) :
    Diff (Seen c before paths) (Seen c after paths) changes := by
  have hinit := c41_initial paths
  have h0 := c41_scan c fs hfs (initialOrder paths) (fun r hr => hp r ((hinit.2 r).1 hr)) (.inl hinit.1) [] (by simp [Py.Dict.Ok])
  rw [seen_congr hinit.2] at h0
  have key : ∀ (scans : List Scan) (fs : FS) (old : List (Str × Stat)) (i : Nat), (∀ s ∈ scans, Good c paths s) →
      (∀ p s, (p, s) ∈ old ↔ Seen c fs paths p s) → Py.Dict.Ok old → (iterChanges c old scans)[i]? = some changes →
      (fs :: scans.map (·.fs))[i]? = some before → (fs :: scans.map (·.fs))[i + 1]? = some after →
      Diff (Seen c before paths) (Seen c after paths) changes := by
    intro scans
    induction scans with
    | nil => intro fs old i _ _ _ h; simp [iterChanges] at h
    | cons s scans ih =>
      intro fs old i hs hold hok h hb ha
      have hg := hs s (by simp)
      have hsc := c41_scan c s.fs hg.tree s.order (fun r hr => hp r ((hg.roots r).1 hr)) hg.order old hok
      rw [seen_congr hg.roots] at hsc
      cases i with
      | zero =>
        simp only [iterChanges, List.getElem?_cons_zero, Option.some.injEq, List.map_cons, List.getElem?_cons_succ] at h hb ha
        subst h hb ha
        have := hsc.2.2
        have he : (fun p s => (p, s) ∈ old) = Seen c fs paths := by
          funext p s
          exact propext (hold p s)
        rw [he] at this
        exact this
      | succ i =>
        simp only [iterChanges, List.getElem?_cons_succ, List.map_cons] at h hb ha
        exact ih s.fs _ i (fun x hx => hs x (by simp [hx])) hsc.1 hsc.2.1 h (by simpa using hb) (by simpa using ha)
  exact key scans fs _ i hs h0.1 h0.2.1 hi hb ha

/-! ### What the provisos exclude -/

def anyFile : Cfg := ⟨fun _ => true, fun _ => true, 10⟩

/-- two files and, between them, a symbolic link that leads nowhere -/
def dangling : FS := fun d =>
  if d = c!"/a" then some [⟨c!"x.py", .file (some ⟨1, 1⟩)⟩, ⟨c!".#x.py", .file none⟩, ⟨c!"y.py", .file (some ⟨1, 1⟩)⟩] else none

/-- the same without the link -/
def undangled : FS := fun d =>
  if d = c!"/a" then some [⟨c!"x.py", .file (some ⟨1, 1⟩)⟩, ⟨c!"y.py", .file (some ⟨1, 1⟩)⟩] else none

/-- A link that leads nowhere hides the entries listed after it: when it appears the file `y.py`, which still exists and did
not change, is reported as deleted. -/
theorem c41_dangling_link :
    iterChanges anyFile (snapshot anyFile undangled [c!"/a"]) [⟨[c!"/a"], dangling⟩] = [[(.deleted, c!"/a/y.py")]] := by
  decide +kernel

/-- a directory with a file, which can be given with a separator at the end -/
def oneFile : FS := fun d =>
  if d = c!"/a" ∨ d = c!"/a/" then some [⟨c!"x.py", .file (some ⟨1, 1⟩)⟩] else none

/-- A directory given twice, with and without a final separator: each of its files is reported as added by every scan. -/
theorem c41_trailing_slash :
    iterChanges anyFile (snapshot anyFile oneFile [c!"/a", c!"/a/"])
      [⟨[c!"/a", c!"/a/"], oneFile⟩, ⟨[c!"/a", c!"/a/"], oneFile⟩] = [[(.added, c!"/a/x.py")], [(.added, c!"/a/x.py")]] := by
  decide +kernel

/-- a directory in a directory in a directory -/
def nested : FS := fun d =>
  if d = c!"/a" then some [⟨c!"b", .dir⟩]
  else if d = c!"/a/b" then some [⟨c!"c", .dir⟩]
  else if d = c!"/a/b/c" then some [⟨c!"x.py", .file (some ⟨1, 1⟩)⟩] else none

/-- With a root below another root, the order of the roots in the first snapshot (long paths first) and in the scans (that of a
set) may differ. Then a file deeper than the maximum level below the outer root is reported as deleted although nothing
changed. -/
theorem c41_set_order :
    iterChanges { anyFile with maxLevel := 1 } (snapshot { anyFile with maxLevel := 1 } nested [c!"/a", c!"/a/b"])
      [⟨[c!"/a", c!"/a/b"], nested⟩] = [[(.deleted, c!"/a/b/c/x.py")]] := by
  decide +kernel

/-! ### Examples -/

/-- the file of `nested` was changed and another one was added -/
def nested' : FS := fun d =>
  if d = c!"/a" then some [⟨c!"b", .dir⟩]
  else if d = c!"/a/b" then some [⟨c!"c", .dir⟩, ⟨c!"y.py", .file (some ⟨1, 1⟩)⟩]
  else if d = c!"/a/b/c" then some [⟨c!"x.py", .file (some ⟨2, 1⟩)⟩] else none

example : iterChanges anyFile (snapshot anyFile nested [c!"/a", c!"/a/b"]) [⟨[c!"/a", c!"/a/b"], nested'⟩, ⟨[c!"/a/b", c!"/a"], nested⟩] =
    [[(.modified, c!"/a/b/c/x.py"), (.added, c!"/a/b/y.py")], [(.modified, c!"/a/b/c/x.py"), (.deleted, c!"/a/b/y.py")]] := by
  decide +kernel

theorem tree_of_list (l : List (Str × List Entry)) (h : ∀ e ∈ l, (e.2.map (·.name)).Nodup ∧ ∀ x ∈ e.2, x.name ≠ [] ∧ '/' ∉ x.name) (fs : FS)
    (hfs : ∀ d es, fs d = some es → (d, es) ∈ l) : Tree fs := fun d es hd => h (d, es) (hfs d es hd)

example : Good anyFile [c!"/a", c!"/a/b"] ⟨[c!"/a/b", c!"/a"], nested⟩ where
  tree := by
    refine tree_of_list [(c!"/a", [⟨c!"b", .dir⟩]), (c!"/a/b", [⟨c!"c", .dir⟩]), (c!"/a/b/c", [⟨c!"x.py", .file (some ⟨1, 1⟩)⟩])] (by decide) _ ?_
    intro d es h
    simp only [nested] at h
    split at h
    · simp_all
    · split at h
      · simp_all
      · split at h
        · simp_all
        · cases h
  roots := by intro r; simp [or_comm]
  order := .inl (by unfold NestedFirst Below; decide)

end FsNotify
