import Verif.RunFiles.Spec
/-!
C124: the test runner finds the files of tests below the directories given, and imports each by its name from an entry of
the path.
-/

namespace RunFiles

open RunFiles.Spec

/-! ### Files -/

theorem valid_iff (f : Str) : isValidPyFile f = true ↔ TestFile f := by
  unfold isValidPyFile TestFile
  rw [Bool.and_eq_true, Bool.or_eq_true, Bool.not_eq_true', ← Bool.not_eq_true, Py.startsWith_iff, Py.endsWith_iff,
    Py.endsWith_iff]
  constructor
  · rintro ⟨h1, h2⟩
    refine ⟨?_, ?_⟩
    · rcases h2 with ⟨s, h⟩ | ⟨s, h⟩
      · exact ⟨s, Or.inl h.symm⟩
      · exact ⟨s, Or.inr h.symm⟩
    · rintro ⟨s, h⟩
      exact h1 ⟨s, h.symm⟩
  · rintro ⟨⟨s, h⟩, h2⟩
    refine ⟨?_, ?_⟩
    · rintro ⟨s, h⟩
      exact h2 ⟨s, h.symm⟩
    · rcases h with h | h
      · exact Or.inl ⟨s, h.symm⟩
      · exact Or.inr ⟨s, h.symm⟩

theorem hasInit_iff (t : Tree) : hasInit t = true ↔ Package t := by
  unfold hasInit Package initNames
  simp only [List.any_eq_true, Bool.or_eq_true, decide_eq_true_eq, List.mem_map, Prod.exists]
  constructor
  · rintro ⟨n, hn, h⟩
    have key : ∃ ext, ext ∈ [c!".py", c!".pyo", c!".pyc", c!".pyw", c!"$py.class"] ∧ n = c!"__init__" ++ ext := by
      simp only [List.mem_cons, List.not_mem_nil, or_false] at hn
      rcases hn with rfl | rfl | rfl | rfl | rfl
      · exact ⟨c!".py", by simp, by decide⟩
      · exact ⟨c!".pyo", by simp, by decide⟩
      · exact ⟨c!".pyc", by simp, by decide⟩
      · exact ⟨c!".pyw", by simp, by decide⟩
      · exact ⟨c!"$py.class", by simp, by decide⟩
    obtain ⟨ext, he, rfl⟩ := key
    refine ⟨ext, he, ?_⟩
    rcases h with h | ⟨a, b, hab, rfl⟩
    · exact Or.inl h
    · exact Or.inr ⟨b, hab⟩
  · rintro ⟨ext, he, h⟩
    refine ⟨c!"__init__" ++ ext, ?_, ?_⟩
    · simp only [List.mem_cons, List.not_mem_nil, or_false] at he
      rcases he with rfl | rfl | rfl | rfl | rfl <;> decide
    · rcases h with h | ⟨t', h⟩
      · exact Or.inl h
      · exact Or.inr ⟨_, t', h, rfl⟩

mutual
theorem mem_walk : ∀ (t : Tree) (p : Path), p ∈ walk t ↔
    ∃ ns t' f, Below t ns t' ∧ f ∈ t'.files ∧ TestFile f ∧ p = ns ++ [f]
  | .mk files dirs, p => by
    rw [walk, List.mem_append, mem_walkDirs dirs p]
    constructor
    · rintro (h | ⟨n, t1, ns, t', f, hm, hp, hb, hf, ht, rfl⟩)
      · obtain ⟨f, hf, rfl⟩ := List.mem_map.mp h
        obtain ⟨h1, h2⟩ := List.mem_filter.mp hf
        exact ⟨[], _, f, .here _, h1, (valid_iff f).mp h2, rfl⟩
      · exact ⟨n :: ns, t', f, .down hm hp hb, hf, ht, rfl⟩
    · rintro ⟨ns, t', f, hb, hf, ht, rfl⟩
      cases hb with
      | here => exact Or.inl (List.mem_map.mpr ⟨f, List.mem_filter.mpr ⟨hf, (valid_iff f).mpr ht⟩, rfl⟩)
      | down hm hp hb => exact Or.inr ⟨_, _, _, t', f, hm, hp, hb, hf, ht, rfl⟩
theorem mem_walkDirs : ∀ (ds : Forest) (p : Path), p ∈ walkDirs ds ↔
    ∃ n t1 ns t' f, (n, t1) ∈ ds.list ∧ Package t1 ∧ Below t1 ns t' ∧ f ∈ t'.files ∧ TestFile f ∧ p = (n :: ns) ++ [f]
  | .nil, p => by simp [walkDirs, Forest.list]
  | .cons n t r, p => by
    rw [walkDirs, List.mem_append, mem_walkDirs r p]
    constructor
    · rintro (h | ⟨n', t1, ns, t', f, hm, hr⟩)
      · by_cases hi : hasInit t = true
        · rw [if_pos hi] at h
          obtain ⟨q, hq, rfl⟩ := List.mem_map.mp h
          obtain ⟨ns, t', f, hb, hf, ht, rfl⟩ := (mem_walk t q).mp hq
          exact ⟨n, t, ns, t', f, List.mem_cons_self .., (hasInit_iff t).mp hi, hb, hf, ht, rfl⟩
        · rw [if_neg hi] at h
          cases h
      · exact ⟨n', t1, ns, t', f, List.mem_cons_of_mem _ hm, hr⟩
    · rintro ⟨n', t1, ns, t', f, hm, hp, hb, hf, ht, rfl⟩
      rcases List.mem_cons.mp hm with e | hm
      · obtain ⟨rfl, rfl⟩ := Prod.mk.injEq .. ▸ e
        left
        rw [if_pos ((hasInit_iff _).mpr hp)]
        exact List.mem_map.mpr ⟨ns ++ [f], (mem_walk _ _).mpr ⟨ns, t', f, hb, hf, ht, rfl⟩, rfl⟩
      · exact Or.inr ⟨n', t1, ns, t', f, hm, hp, hb, hf, ht, rfl⟩
end

theorem mem_asked (fs : Path → Node) (o : Options) (p : Path) :
    p ∈ candidates fs o ↔ Asked fs o p := by
  unfold candidates
  unfold Asked
  by_cases h : o.filesToTests = []
  · rw [if_neg (by simp [h])]
    simp only [List.mem_flatMap, h, ne_eq, not_true_eq_false, false_and, true_and, false_or]
    constructor
    · rintro ⟨b, hb, hp⟩
      cases hf : fs b with
      | missing => rw [hf] at hp; cases hp
      | file =>
        rw [hf] at hp
        cases List.mem_singleton.mp hp
        exact Or.inl ⟨hb, hf⟩
      | dir t =>
        rw [hf] at hp
        obtain ⟨q, hq, rfl⟩ := List.mem_map.mp hp
        obtain ⟨ns, t', f, h1, h2, h3, rfl⟩ := (mem_walk t q).mp hq
        exact Or.inr ⟨b, t, ns, t', f, hb, hf, h1, h2, h3, by simp⟩
    · rintro (⟨hp, hf⟩ | ⟨b, t, ns, t', f, hb, hf, h1, h2, h3, rfl⟩)
      · exact ⟨p, hp, by rw [hf]; exact List.mem_singleton.mpr rfl⟩
      · refine ⟨b, hb, ?_⟩
        rw [hf]
        exact List.mem_map.mpr ⟨ns ++ [f], (mem_walk t _).mpr ⟨ns, t', f, h1, h2, h3, rfl⟩, by simp⟩
  · rw [if_pos h]
    simp [h]

theorem keeps_iff (mtch : Str → Str → Bool) (o : Options) (p : Path) :
    keeps mtch o p = true ↔
      (o.includeFiles = [] ∨ ∃ pat ∈ o.includeFiles, mtch (p.getLast?.getD []) pat = true) ∧
      (∀ pat ∈ o.excludeFiles, mtch (p.getLast?.getD []) pat = false) := by
  unfold keeps
  dsimp only
  by_cases hi : o.includeFiles = [] <;> by_cases he : o.excludeFiles = [] <;>
    simp [hi, he] <;> grind

/-- C124. The files found are exactly those asked for, at any depth below the directories given, that match some pattern to
include, if there are any, and no pattern to exclude. -/
theorem c124_files (fs : Path → Node) (mtch : Str → Str → Bool) (o : Options) (p : Path) :
    p ∈ findImportFiles fs mtch o ↔
      Asked fs o p ∧
      (o.includeFiles = [] ∨ ∃ pat ∈ o.includeFiles, mtch (p.getLast?.getD []) pat = true) ∧
      (∀ pat ∈ o.excludeFiles, mtch (p.getLast?.getD []) pat = false) := by
  rw [← keeps_iff, ← mem_asked]
  unfold findImportFiles
  dsimp only
  by_cases h : o.excludeFiles ≠ [] ∨ o.includeFiles ≠ []
  · rw [if_pos h, List.mem_filter]
  · rw [if_neg h]
    have h1 : o.excludeFiles = [] := Classical.byContradiction fun e => h (Or.inl e)
    have h2 : o.includeFiles = [] := Classical.byContradiction fun e => h (Or.inr e)
    have : keeps mtch o p = true := by rw [keeps_iff]; simp [h1, h2]
    simp [this]

mutual
theorem nodup_walk : ∀ t : Tree, Distinct t → (walk t).Nodup
  | .mk files dirs, h => by
    cases h with
    | mk h1 h2 h3 =>
    rw [walk, List.nodup_append]
    refine ⟨?_, nodup_walkDirs dirs h2 h3, ?_⟩
    · exact List.Pairwise.map _ (fun a b (hab : a ≠ b) e => hab (List.cons.inj e).1) (List.Pairwise.filter _ h1)
    · intro a ha b hb e
      subst e
      obtain ⟨f, _, rfl⟩ := List.mem_map.mp ha
      obtain ⟨n, t1, ns, t', f', _, _, _, _, _, e⟩ := (mem_walkDirs dirs _).mp hb
      have := congrArg List.length e
      simp at this
theorem nodup_walkDirs : ∀ ds : Forest, (ds.list.map (·.1)).Nodup → (∀ n t', (n, t') ∈ ds.list → Distinct t') →
    (walkDirs ds).Nodup
  | .nil, _, _ => by simp [walkDirs]
  | .cons n t r, h, hd => by
    simp only [Forest.list, List.map_cons, List.nodup_cons] at h
    rw [walkDirs, List.nodup_append]
    refine ⟨?_, nodup_walkDirs r h.2 fun n' t' hm => hd n' t' (List.mem_cons_of_mem _ hm), ?_⟩
    · split
      · exact List.Pairwise.map _ (fun a b (hab : a ≠ b) e => hab (List.cons.inj e).2)
          (nodup_walk t (hd n t (List.mem_cons_self ..)))
      · exact List.nodup_nil
    · intro a ha b hb e
      subst e
      split at ha
      · obtain ⟨q, _, rfl⟩ := List.mem_map.mp ha
        obtain ⟨n', t1, ns, t', f', hm, _, _, _, _, e⟩ := (mem_walkDirs r _).mp hb
        obtain ⟨rfl, _⟩ := List.cons.inj (e.trans (List.cons_append ..))
        exact h.1 (List.mem_map.mpr ⟨_, hm, rfl⟩)
      · cases ha
end

/-- C124. A file below a directory is found once. -/
theorem c124_once (fs : Path → Node) (mtch : Str → Str → Bool) (o : Options) (b : Path) (t : Tree)
    (h0 : o.filesToTests = []) (h1 : o.filesOrDirs = [b]) (h2 : fs b = .dir t) (h3 : Distinct t) :
    (findImportFiles fs mtch o).Nodup := by
  have key : ((walk t).map (b ++ ·)).Nodup :=
    List.Pairwise.map _ (fun x y (hxy : x ≠ y) e => hxy (List.append_cancel_left e)) (nodup_walk t h3)
  unfold findImportFiles candidates
  dsimp only
  simp only [h0, h1, h2, ne_eq, not_true_eq_false, if_false, List.flatMap_cons, List.flatMap_nil, List.append_nil]
  split
  · exact List.Pairwise.filter _ key
  · exact key

/-! ### Modules -/

theorem takeWhile_not_mem {s r : Str} (h : '/' ∉ s) : (s ++ '/' :: r).takeWhile (· ≠ '/') = s := by
  induction s with
  | nil => simp
  | cons a s ih =>
    have ha : a ≠ '/' := fun e => h (e ▸ List.mem_cons_self ..)
    rw [List.cons_append, List.takeWhile_cons, if_pos (by simpa using ha), ih fun hh => h (List.mem_cons_of_mem _ hh)]

theorem flat_last {ds : Path} {d : Str} : (ds ++ [d]).flatMap ('/' :: ·) = ds.flatMap ('/' :: ·) ++ '/' :: d := by
  simp

theorem splitPath_text (ds : Path) (f : Str) (hne : ds ≠ []) (hd : ∀ d ∈ ds, Name d) (hf : Name f) :
    splitPath (text (ds ++ [f])) = (text ds, f) := by
  have ht : text (ds ++ [f]) = ds.flatMap ('/' :: ·) ++ '/' :: f := by
    unfold text
    rw [if_neg (by simp), flat_last]
  unfold splitPath
  rw [ht]
  have htail : ((ds.flatMap ('/' :: ·) ++ '/' :: f).reverse.takeWhile (· ≠ '/')).reverse = f := by
    rw [List.reverse_append, List.reverse_cons, List.append_assoc, List.singleton_append,
      takeWhile_not_mem (by simpa using hf.2.1), List.reverse_reverse]
  rw [htail]
  dsimp only
  have hhead : (ds.flatMap ('/' :: ·) ++ '/' :: f).take ((ds.flatMap ('/' :: ·) ++ '/' :: f).length - f.length)
      = ds.flatMap ('/' :: ·) ++ ['/'] := by
    have : (ds.flatMap ('/' :: ·) ++ '/' :: f) = (ds.flatMap ('/' :: ·) ++ ['/']) ++ f := by simp
    rw [this, List.length_append, Nat.add_sub_cancel, List.take_left']
    rfl
  rw [hhead]
  have hsplit : ∃ es e, ds = es ++ [e] := ⟨ds.dropLast, ds.getLast hne, (List.dropLast_concat_getLast hne).symm⟩
  obtain ⟨es, e, rfl⟩ := hsplit
  have he := hd e (by simp)
  obtain ⟨e', c, rfl⟩ : ∃ e' c, e = e' ++ [c] := ⟨e.dropLast, e.getLast he.1, (List.dropLast_concat_getLast he.1).symm⟩
  have hc : c ≠ '/' := fun hh => he.2.1 (by simp [hh])
  rw [if_neg]
  · unfold text
    rw [if_neg (by simp), flat_last]
    simp [hc]
  · rw [flat_last]
    simp only [List.all_eq_true, decide_eq_true_eq]
    intro hh
    exact hc (hh c (by simp))

theorem stem_ext (s e : Str) (hs : '.' ∉ s) (he : '.' ∉ e) (hne : s ≠ []) : stem (s ++ '.' :: e) = s := by
  unfold stem
  rw [Py.split1_append _ _ _ hs, Py.split1_of_not_mem _ _ he]
  simp [hne]

/-- the dots of the names of a path -/
theorem dots_name {n : Str} (h : Name n) : dots n = n := by
  unfold dots
  conv => rhs; rw [← List.map_id n]
  apply List.map_congr_left
  intro c hc
  have h1 : c ≠ '\\' := fun e => h.2.2 (e ▸ hc)
  have h2 : c ≠ '/' := fun e => h.2.1 (e ▸ hc)
  simp [h1, h2]

theorem dots_text (ds : Path) (hne : ds ≠ []) (hd : ∀ d ∈ ds, Name d) : dots (text ds) = ds.flatMap ('.' :: ·) := by
  unfold text
  rw [if_neg hne]
  clear hne
  induction ds with
  | nil => rfl
  | cons a r ih =>
    rw [List.flatMap_cons, List.flatMap_cons]
    have : ∀ x y, dots (x ++ y) = dots x ++ dots y := by intro x y; unfold dots; rw [List.map_append]
    rw [this, ih fun d h => hd d (List.mem_cons_of_mem _ h)]
    have h2 := dots_name (hd a (List.mem_cons_self ..))
    show (dots ('/' :: a)) ++ _ = _
    have : dots ('/' :: a) = '.' :: dots a := by unfold dots; rw [List.map_cons]; rfl
    rw [this, h2]

theorem count_dot (s e : Str) (hs : '.' ∉ s) (he : '.' ∉ e) : (s ++ '.' :: e).count '.' = 1 := by
  rw [List.count_append, List.count_cons, List.count_eq_zero.mpr hs, List.count_eq_zero.mpr he]
  rfl

theorem importify_text (ds : Path) (s e : Str) (hne : ds ≠ []) (hd : ∀ d ∈ ds, Name d) (hf : Name (s ++ '.' :: e))
    (hs : '.' ∉ s) (he : '.' ∉ e) (hsn : s ≠ []) :
    importify (text (ds ++ [s ++ '.' :: e])) = some ((ds ++ [s]).flatMap ('.' :: ·)) := by
  unfold importify
  rw [splitPath_text ds _ hne hd hf]
  dsimp only
  rw [count_dot s e hs he, if_neg (by decide), dots_text ds hne hd, stem_ext s e hs he hsn, if_neg]
  · simp
  · cases ds with
    | nil => exact absurd rfl hne
    | cons a r => simp

theorem rel_iff : ∀ (e p q : Path), rel e p = some q ↔ p = e ++ q
  | [], p, q => by simp [rel]
  | a :: r, [], q => by simp [rel]
  | a :: r, b :: p, q => by
    rw [rel]
    by_cases h : a = b
    · rw [if_pos h, rel_iff r p q]
      simp [h]
    · rw [if_neg h]
      simp [Ne.symm h]

theorem moduleName_flat : ∀ q : Path, q ≠ [] → q.flatMap ('.' :: ·) = '.' :: moduleName q
  | [], h => absurd rfl h
  | [a], _ => by simp [moduleName]
  | a :: b :: r, _ => by
    rw [List.flatMap_cons, moduleName_flat (b :: r) (by simp)]
    simp [moduleName]

theorem moduleName_ne_nil : ∀ q : Path, q ≠ [] → (∀ n ∈ q, Name n) → moduleName q ≠ []
  | [], h, _ => absurd rfl h
  | [a], _, hn => (hn a (List.mem_cons_self ..)).1
  | a :: b :: r, _, _ => by simp [moduleName]

theorem removeDuplicates_filter (seen xs : List Str) :
    removeDuplicates seen xs = (removeDuplicates [] xs).filter (fun x => decide (x ∉ seen)) := by
  induction xs generalizing seen with
  | nil => rfl
  | cons x xs ih =>
    rw [removeDuplicates, removeDuplicates, if_neg (List.not_mem_nil), List.filter_cons, ih [x]]
    by_cases h : x ∈ seen
    · rw [if_pos h, if_neg (by simpa using h), ih seen, List.filter_filter]
      apply List.filter_congr
      intro y _
      by_cases hy : y ∈ seen
      · simp [hy]
      · have : y ≠ x := fun e => hy (e ▸ h)
        simp [hy, this]
    · rw [if_neg h, if_pos (by simpa using h), ih (x :: seen), List.filter_filter]
      congr 1
      apply List.filter_congr
      intro y _
      by_cases hy : y ∈ seen <;> by_cases hx : y = x <;> simp [hy, hx]

theorem text_inj {a b : Path} (ha : ∀ d ∈ a, Name d) (hb : ∀ d ∈ b, Name d) (h : text a = text b) : a = b := by
  have hh : ∀ p : Path, (∀ d ∈ p, Name d) → (p ≠ [] → Py.split1 '/' (text p) = [] :: p) := by
    intro p hp hne
    unfold text
    rw [if_neg hne]
    clear ha hb h
    have : ∀ p : Path, p ≠ [] → (∀ d ∈ p, Name d) → Py.split1 '/' (p.flatMap ('/' :: ·)) = [] :: p := by
      intro p
      induction p with
      | nil => intro h; exact absurd rfl h
      | cons x p ih =>
        intro _ hx
        have h1 := (hx x (List.mem_cons_self ..)).2.1
        rw [List.flatMap_cons]
        have e : '/' :: x ++ p.flatMap ('/' :: ·) = [] ++ '/' :: (x ++ p.flatMap ('/' :: ·)) := by simp
        rw [e, Py.split1_append _ _ _ List.not_mem_nil]
        cases p with
        | nil => simp [Py.split1_of_not_mem _ _ h1]
        | cons y p =>
          have hi := ih (by simp) fun d hd => hx d (List.mem_cons_of_mem _ hd)
          rw [List.flatMap_cons] at hi ⊢
          have e2 : '/' :: y ++ p.flatMap ('/' :: ·) = [] ++ '/' :: (y ++ p.flatMap ('/' :: ·)) := by simp
          rw [e2, Py.split1_append _ _ _ List.not_mem_nil] at hi
          have e3 : x ++ ('/' :: y ++ p.flatMap ('/' :: ·)) = x ++ '/' :: (y ++ p.flatMap ('/' :: ·)) := by simp
          rw [e3, Py.split1_append _ _ _ h1, (List.cons.inj hi).2]
    exact this p hne hp
  by_cases ea : a = [] <;> by_cases eb : b = []
  · rw [ea, eb]
  · subst ea
    have := hh b hb eb
    rw [← h] at this
    simp only [text, if_true] at this
    have e : ['/'] = [] ++ '/' :: ([] : Str) := rfl
    rw [e, Py.split1_append _ _ _ List.not_mem_nil, Py.split1_of_not_mem _ _ List.not_mem_nil] at this
    have := (List.cons.inj this).2
    exact absurd rfl (hb [] (by rw [← this]; simp)).1
  · subst eb
    have := hh a ha ea
    rw [h] at this
    simp only [text, if_true] at this
    have e : ['/'] = [] ++ '/' :: ([] : Str) := rfl
    rw [e, Py.split1_append _ _ _ List.not_mem_nil, Py.split1_of_not_mem _ _ List.not_mem_nil] at this
    have := (List.cons.inj this).2
    exact absurd rfl (ha [] (by rw [← this]; simp)).1
  · have h1 := hh a ha ea
    rw [h, hh b hb eb] at h1
    exact (List.cons.inj h1).2.symm

theorem uniq_mem {p : Path} {ps : List Path} (h : p ∈ uniq ps) : p ∈ ps := by
  induction ps with
  | nil => cases h
  | cons x xs ih =>
    rcases List.mem_cons.mp h with rfl | hq
    · exact List.mem_cons_self ..
    · exact List.mem_cons_of_mem _ (ih (List.mem_filter.mp hq).1)

theorem removeDuplicates_text (ps : List Path) (h : ∀ p ∈ ps, ∀ d ∈ p, Name d) :
    removeDuplicates [] (ps.map text) = (uniq ps).map text := by
  induction ps with
  | nil => rfl
  | cons p ps ih =>
    have ih := ih fun q hq => h q (List.mem_cons_of_mem _ hq)
    rw [List.map_cons, removeDuplicates, if_neg (List.not_mem_nil), removeDuplicates_filter, ih, uniq, List.map_cons,
      List.filter_map]
    congr 2
    apply List.filter_congr
    intro q hq
    have h1 := h q (List.mem_cons_of_mem _ (uniq_mem hq))
    have h2 := h p (List.mem_cons_self ..)
    by_cases e : q = p
    · simp [e]
    · have : text q ≠ text p := fun he => e (text_inj h1 h2 he)
      simp [e, this]

theorem filterMap_congr' {α β : Type} {f g : α → Option β} : ∀ {l : List α}, (∀ x ∈ l, f x = g x) →
    l.filterMap f = l.filterMap g
  | [], _ => rfl
  | a :: l, h => by
    rw [List.filterMap_cons, List.filterMap_cons, h a (List.mem_cons_self ..),
      filterMap_congr' fun x hx => h x (List.mem_cons_of_mem _ hx)]

theorem choices_eq (es : List Path) (mod : Path) (hm : ∀ d ∈ mod, Name d) (hc : Clean es mod) :
    (es.map fun e => dots (text e)).filterMap (fun s =>
      if Py.startsWith (mod.flatMap ('.' :: ·)) s then
        if (mod.flatMap ('.' :: ·)).drop (s.length + 1) ≠ [] then some ((mod.flatMap ('.' :: ·)).drop (s.length + 1)) else none
      else none)
    = es.filterMap fun e => (rel e mod).map moduleName := by
  rw [List.filterMap_map]
  apply filterMap_congr'
  intro e he
  obtain ⟨hne, hn, hcl⟩ := hc e he
  simp only [Function.comp, dots_text e hne hn]
  by_cases hp : Py.startsWith (mod.flatMap ('.' :: ·)) (e.flatMap ('.' :: ·)) = true
  · obtain ⟨q, hq, rfl⟩ := hcl ((Py.startsWith_iff _ _).mp hp)
    rw [if_pos hp, (rel_iff e (e ++ q) q).mpr rfl, List.flatMap_append, moduleName_flat q hq]
    have : (e.flatMap ('.' :: ·) ++ '.' :: moduleName q).drop ((e.flatMap ('.' :: ·)).length + 1) = moduleName q := by
      rw [← List.drop_drop, List.drop_left']
      · rfl
      · rfl
    rw [this, if_pos (moduleName_ne_nil q hq fun d hd => hm d (List.mem_append_right _ hd))]
    rfl
  · rw [if_neg hp]
    cases hr : rel e mod with
    | none => rfl
    | some q =>
      have := (rel_iff e mod q).mp hr
      subst this
      exact absurd ((Py.startsWith_iff _ _).mpr (by rw [List.flatMap_append]; exact List.prefix_append _ _)) hp

theorem tryNames_eq (imports : Str → Bool) : ∀ (ns : List Str) (o : Option Str), tryNames imports ns o =
    match ns.find? imports with
    | some n => .imported n
    | none => match ns.getLast? <|> o with
      | some n => .error n
      | none => .noPath
  | [], none => rfl
  | [], some n => rfl
  | n :: ns, o => by
    rw [tryNames, List.find?_cons]
    by_cases h : imports n = true
    · rw [if_pos h, h]
    · rw [if_neg h, tryNames_eq imports ns (some n)]
      have h' : imports n = false := by simpa using h
      rw [h']
      cases hf : ns.find? imports with
      | some m => rfl
      | none =>
        dsimp only
        cases ns with
        | nil => rfl
        | cons a r =>
          rw [List.getLast?_cons_cons]
          cases hl : (a :: r).getLast? with
          | none => simp at hl
          | some x => rfl

/-- C124. A file is imported by its name from the first entry of the path that holds it and from which it can be imported; if
there is none an error is notified, with the name from the last entry that holds it. -/
theorem c124_module (imports : Str → Bool) (sysPath : List Path) (ds : Path) (s e : Str) (hne : ds ≠ [])
    (hd : ∀ d ∈ ds, Name d) (hf : Name (s ++ '.' :: e)) (hs : '.' ∉ s) (he : '.' ∉ e) (hsn : s ≠ [])
    (hc : Clean sysPath (ds ++ [s])) :
    findModule imports (sysPath.map text) (text (ds ++ [s ++ '.' :: e]))
      = fateOf imports ((uniq sysPath).filterMap fun p => (rel p (ds ++ [s])).map moduleName) := by
  have hsn' : Name s := by
    refine ⟨hsn, fun h => hf.2.1 (List.mem_append_left _ h), fun h => hf.2.2 (List.mem_append_left _ h)⟩
  have hm : ∀ d ∈ ds ++ [s], Name d := by
    intro d h
    rcases List.mem_append.mp h with h | h
    · exact hd d h
    · rw [List.mem_singleton.mp h]; exact hsn'
  unfold findModule
  rw [importify_text ds s e hne hd hf hs he hsn]
  dsimp only
  have hch : choices (sysPath.map text) ((ds ++ [s]).flatMap ('.' :: ·))
      = (uniq sysPath).filterMap fun p => (rel p (ds ++ [s])).map moduleName := by
    unfold choices
    rw [removeDuplicates_text sysPath fun p hp => (hc p hp).2.1, List.map_map]
    exact choices_eq (uniq sysPath) (ds ++ [s]) hm fun p hp => hc p (uniq_mem hp)
  rw [hch]
  unfold fateOf
  split
  · rename_i h0
    rw [h0]
    rfl
  · rw [tryNames_eq]
    cases hf' : List.find? imports _ with
    | some m => rfl
    | none =>
      dsimp only
      cases List.getLast? _ with
      | none => rfl
      | some x => rfl

/-- C124. A file with two dots in its name is not imported, and nothing is notified. -/
theorem c124_two_dots_witness : findModule (fun _ => true) [c!"/src"] c!"/src/test.a.py" = .notModule := by
  decide +kernel

/-- C124. The name of a directory is matched as text: with `/src/test` before `/src` in the path, the module of the file
`/src/test_os.py` is `os`. -/
theorem c124_prefix_witness :
    findModule (fun n => n == c!"os" || n == c!"test_os") [c!"/src/test", c!"/src"] c!"/src/test_os.py" = .imported c!"os" := by
  decide +kernel

/-! ### The path -/

/-- C124. What is added to the path is the directory of the last file, or the last directory given; nothing if one of them
does not exist. -/
theorem c124_path (fs : Path → Node) (ps : List Path) (last : Option Path) :
    ((∃ p ∈ ps, fs p = .missing) → adjustPath fs ps last = none) ∧
    ((∀ p ∈ ps, fs p ≠ .missing) → ∀ init p, ps = init ++ [p] →
      (fs p = .file → adjustPath fs ps last = some p.dropLast) ∧
      (∀ t, fs p = .dir t → adjustPath fs ps last = some p)) := by
  induction ps generalizing last with
  | nil => simp
  | cons a ps ih =>
    have key : fs a ≠ .missing → ∃ l, adjustPath fs (a :: ps) last = adjustPath fs ps (some l) ∧
        (fs a = .file → l = a.dropLast) ∧ (∀ t, fs a = .dir t → l = a) := by
      intro h
      rw [adjustPath]
      cases hf : fs a with
      | missing => exact absurd hf h
      | file => exact ⟨_, rfl, fun _ => rfl, by simp⟩
      | dir t => exact ⟨_, rfl, by simp, fun _ _ => rfl⟩
    constructor
    · rintro ⟨p, hp, hm⟩
      by_cases ha : fs a = .missing
      · rw [adjustPath, ha]
      · obtain ⟨l, e, _⟩ := key ha
        rw [e]
        rcases List.mem_cons.mp hp with rfl | hp
        · exact absurd hm ha
        · exact (ih _).1 ⟨p, hp, hm⟩
    · intro hall init p e
      obtain ⟨l, e1, e2, e3⟩ := key (hall a (List.mem_cons_self ..))
      rw [e1]
      cases init with
      | nil =>
        obtain ⟨rfl, rfl⟩ := List.cons.inj e
        exact ⟨fun h => by rw [e2 h, adjustPath], fun t h => by rw [e3 t h, adjustPath]⟩
      | cons b init =>
        exact (ih _).2 (fun q hq => hall q (List.mem_cons_of_mem _ hq)) init p (List.cons.inj e).2

/-- C124. Only the directory of the last is added: with two files in different directories, neither in the path, the first is
not imported. -/
theorem c124_first_dir_witness :
    ∃ p, adjustPath (fun _ => .file) [[c!"a", c!"t1.py"], [c!"b", c!"t2.py"]] none = some p ∧
      findModule (fun _ => true) [text p] (text [c!"a", c!"t1.py"]) = .noPath ∧
      findModule (fun _ => true) [text p] (text [c!"b", c!"t2.py"]) = .imported c!"t2" :=
  ⟨[c!"b"], by rfl, by decide +kernel, by decide +kernel⟩

/-! ### Examples -/

/-- a directory with a package, a directory that is not one, and a package in it -/
def sample : Tree :=
  .mk [c!"test_a.py", c!"notes.txt", c!"__init__.py"]
    (.cons c!"pkg" (.mk [c!"__init__.py", c!"test_b.pyw"] (.cons c!"sub" (.mk [c!"__init__.pyc", c!"test_c.py"] .nil) .nil))
      (.cons c!"data" (.mk [c!"test_d.py"] (.cons c!"sub" (.mk [c!"__init__.py", c!"test_e.py"] .nil) .nil)) .nil))

example : findImportFiles (fun _ => .dir sample) (fun _ _ => false) { filesOrDirs := [[c!"src"]] }
    = [[c!"src", c!"test_a.py"], [c!"src", c!"pkg", c!"test_b.pyw"], [c!"src", c!"pkg", c!"sub", c!"test_c.py"]] := by
  decide +kernel

example : Distinct sample := by
  refine .mk (by decide) (by decide) ?_
  intro n t h
  simp only [Tree.dirs, Forest.list, sample, List.mem_cons, List.not_mem_nil, or_false, Prod.mk.injEq] at h
  rcases h with ⟨rfl, rfl⟩ | ⟨rfl, rfl⟩ <;>
  · refine .mk (by decide) (by decide) ?_
    intro n t h
    simp only [Tree.dirs, Forest.list, List.mem_cons, List.not_mem_nil, or_false, Prod.mk.injEq] at h
    obtain ⟨rfl, rfl⟩ := h
    exact .mk (by decide) (by decide) (by intro n t h; cases h)

example : Clean [[c!"src", c!"pkg"], [c!"lib"], [c!"src"]] [c!"src", c!"pkg", c!"test_b"] := by
  intro e he
  simp only [List.mem_cons, List.not_mem_nil, or_false] at he
  rcases he with rfl | rfl | rfl
  · exact ⟨by decide, by unfold Name; decide, fun _ => ⟨[c!"test_b"], by decide, rfl⟩⟩
  · exact ⟨by decide, by unfold Name; decide, fun h => absurd h (by decide +kernel)⟩
  · exact ⟨by decide, by unfold Name; decide, fun _ => ⟨[c!"pkg", c!"test_b"], by decide, rfl⟩⟩

example : findModule (fun n => n == c!"pkg.test_b") [c!"/src/pkg", c!"/lib", c!"/src"] c!"/src/pkg/test_b.py"
    = .imported c!"pkg.test_b" := by decide +kernel

end RunFiles
