import Verif.AutoReload.Spec
/-!
C126: what is watched for auto reload, and which modules a request to reload reloads.
-/

namespace AutoReload

open AutoReload.Spec

/-! ### What is watched -/

/-- the answers of a cache that agrees with a function -/
theorem answers_eq {ask : List (Str × Bool) → Str → List (Str × Bool) × Bool} {spec : Str → Bool}
    (good : List (Str × Bool) → Prop) (h : ∀ c f, good c → good (ask c f).1 ∧ (ask c f).2 = spec f) :
    ∀ (fs : List Str) (c : List (Str × Bool)), good c → answers ask c fs = fs.map spec
  | [], _, _ => rfl
  | f :: fs, c, hc => by
    rw [answers, List.map_cons, (h c f hc).2, answers_eq good h fs _ (h c f hc).1]

theorem decideBy_file (mtch : Str → Str → Bool) (ps : Patterns) (f : Str) :
    decideBy mtch ps false f = true ↔ FileWatched mtch ps f := by
  unfold decideBy FileWatched
  rw [← List.any_eq_true]
  by_cases h : ps.incl.any (mtch f) = true
  · simp [h]
  · rw [if_neg h]
    constructor
    · intro h2; split at h2 <;> cases h2
    · intro h2; exact absurd h2 h

theorem decideBy_dir (mtch : Str → Str → Bool) (ps : Patterns) (f : Str) :
    decideBy mtch ps true f = true ↔ (∃ p ∈ ps.incl, mtch f p = true) ∨ ∀ p ∈ ps.excl, mtch f p = false := by
  unfold decideBy
  rw [← List.any_eq_true]
  by_cases h : ps.incl.any (mtch f) = true
  · simp [h]
  · rw [if_neg h]
    by_cases h2 : ps.excl.any (mtch f) = true
    · rw [if_pos h2]
      obtain ⟨p, hp, hm⟩ := List.any_eq_true.mp h2
      constructor
      · intro hh; cases hh
      · rintro (hh | hh)
        · exact absurd hh h
        · rw [hh p hp] at hm; cases hm
    · rw [if_neg h2]
      constructor
      · intro _
        right
        intro p hp
        cases hm : mtch f p with
        | false => rfl
        | true => exact absurd (List.any_eq_true.mpr ⟨p, hp, hm⟩) h2
      · intro _; rfl

/-- the name with the separator -/
def sepName (f : Str) : Str :=
  match f.getLast? with
  | none => f
  | some c => if c = '/' ∨ c = '\\' then f else f ++ ['/']

theorem sepName_spec (f : Str) : WithSep f (sepName f) := by
  unfold sepName WithSep
  cases h : f.getLast? with
  | none => exact Or.inl ⟨List.getLast?_eq_none_iff.mp h, List.getLast?_eq_none_iff.mp h⟩
  | some c =>
    obtain ⟨a, rfl⟩ := List.getLast?_eq_some_iff.mp h
    dsimp only
    by_cases hc : c = '/' ∨ c = '\\'
    · rw [if_pos hc]
      refine Or.inr (Or.inl ⟨a, ?_, rfl⟩)
      rcases hc with rfl | rfl
      · exact Or.inl rfl
      · exact Or.inr rfl
    · rw [if_neg hc]
      refine Or.inr (Or.inr ⟨by simp, ?_, rfl⟩)
      intro b
      constructor
      · intro e
        exact hc (Or.inl (List.append_inj_right' e rfl |> List.cons.inj).1)
      · intro e
        exact hc (Or.inr (List.append_inj_right' e rfl |> List.cons.inj).1)

theorem withSep_unique {f a b : Str} (ha : WithSep f a) (hb : WithSep f b) : a = b := by
  rcases ha with ⟨h1, rfl⟩ | ⟨x, h1, rfl⟩ | ⟨h1, h2, rfl⟩ <;> rcases hb with ⟨h3, rfl⟩ | ⟨y, h3, rfl⟩ | ⟨h3, h4, rfl⟩
  · rfl
  · exact h1.symm
  · exact absurd h1 h3
  · exact h3
  · rfl
  · rcases h1 with h1 | h1
    · exact absurd h1 (h4 x).1
    · exact absurd h1 (h4 x).2
  · exact absurd h3 h1
  · rcases h3 with h3 | h3
    · exact absurd h3 (h2 y).1
    · exact absurd h3 (h2 y).2
  · rfl

theorem sepName_idem (f : Str) : sepName (sepName f) = sepName f := by
  have h := sepName_spec f
  have h2 := sepName_spec (sepName f)
  rcases h with ⟨_, e⟩ | ⟨a, ha, e⟩ | ⟨_, _, e⟩
  · rw [e]; rfl
  · exact withSep_unique h2 (Or.inr (Or.inl ⟨a, by rw [e]; exact ha, rfl⟩))
  · exact withSep_unique h2 (Or.inr (Or.inl ⟨f, Or.inl e, rfl⟩))

theorem dirWatched_iff (mtch : Str → Str → Bool) (ps : Patterns) (f : Str) :
    DirWatched mtch ps f ↔ decideBy mtch ps true (sepName f) = true := by
  rw [decideBy_dir]
  constructor
  · rintro ⟨f', hs, h⟩
    rw [withSep_unique (sepName_spec f) hs]
    exact h
  · intro h
    exact ⟨sepName f, sepName_spec f, h⟩

/-- C126. Whatever was asked before, a directory is watched if and only if a pattern to include matches it or no pattern to
exclude does, and a file if and only if a pattern to include matches it. -/
theorem c126_watched (mtch : Str → Str → Bool) (ps : Patterns) (fs : List Str) :
    (∀ (i : Nat) f b, fs[i]? = some f → (answers (acceptDirectory mtch ps) [] fs)[i]? = some b →
      (b = true ↔ DirWatched mtch ps f)) ∧
    (∀ (i : Nat) f b, fs[i]? = some f → (answers (acceptFile mtch ps) [] fs)[i]? = some b → (b = true ↔ FileWatched mtch ps f)) ∧
    (answers (acceptDirectory mtch ps) [] fs).length = fs.length ∧ (answers (acceptFile mtch ps) [] fs).length = fs.length := by
  have hd : answers (acceptDirectory mtch ps) [] fs = fs.map fun f => decideBy mtch ps true (sepName f) := by
    refine answers_eq (fun c => ∀ k b, Py.Dict.get c k = some b → b = decideBy mtch ps true (sepName k)) ?_ fs [] ?_
    · intro c f hc
      unfold acceptDirectory
      cases hg : Py.Dict.get c f with
      | some b => exact ⟨hc, hc f b hg⟩
      | none =>
        refine ⟨?_, rfl⟩
        intro k b hk
        replace hk : Py.Dict.get (Py.Dict.set c (sepName f) (decideBy mtch ps true (sepName f))) k = some b := hk
        rw [Py.Dict.get_set] at hk
        by_cases e : k = sepName f
        · rw [if_pos e] at hk
          rw [e, sepName_idem]
          exact (Option.some.inj hk).symm
        · rw [if_neg e] at hk
          exact hc k b hk
    · intro k b hk
      rw [Py.Dict.get_nil] at hk
      cases hk
  have hf : answers (acceptFile mtch ps) [] fs = fs.map fun f => decideBy mtch ps false f := by
    refine answers_eq (fun c => ∀ k b, Py.Dict.get c k = some b → b = decideBy mtch ps false k) ?_ fs [] ?_
    · intro c f hc
      unfold acceptFile
      cases hg : Py.Dict.get c f with
      | some b => exact ⟨hc, hc f b hg⟩
      | none =>
        refine ⟨?_, rfl⟩
        intro k b hk
        dsimp only at hk
        rw [Py.Dict.get_set] at hk
        by_cases e : k = f
        · rw [if_pos e] at hk
          rw [e]
          exact (Option.some.inj hk).symm
        · rw [if_neg e] at hk
          exact hc k b hk
    · intro k b hk
      rw [Py.Dict.get_nil] at hk
      cases hk
  rw [hd, hf]
  refine ⟨?_, ?_, by simp, by simp⟩
  · intro i f b h1 h2
    rw [List.getElem?_map, h1] at h2
    cases Option.some.inj h2
    rw [dirWatched_iff]
  · intro i f b h1 h2
    rw [List.getElem?_map, h1] at h2
    cases Option.some.inj h2
    exact decideBy_file mtch ps f

/-- the watchers that were not told to end -/
def running (db : Db) : List Watcher := db.started.filter fun w => !w.killed

/-- C126. After any setups the one watcher running is that of the last, if it enables auto reload; else there is none. -/
theorem c126_one_watcher (sets : List (Bool × List Str × Patterns)) :
    running (sets.foldl (fun db s => setup db s.1 s.2.1 s.2.2) {}) =
      match sets.getLast? with
      | none => []
      | some s => if s.1 then [{ dirs := s.2.1, pats := s.2.2 }] else [] := by
  have key : ∀ db : Db, ((db.current = true ∧ ∃ w ws, db.started = w :: ws ∧ ∀ x ∈ ws, x.killed = true) ∨
      (db.current = false ∧ ∀ x ∈ db.started, x.killed = true)) → ∀ b ds ps,
      (((setup db b ds ps).current = true ∧ ∃ w ws, (setup db b ds ps).started = w :: ws ∧ ∀ x ∈ ws, x.killed = true) ∨
      ((setup db b ds ps).current = false ∧ ∀ x ∈ (setup db b ds ps).started, x.killed = true)) ∧
      running (setup db b ds ps) = if b then [{ dirs := ds, pats := ps }] else [] := by
    intro db hdb b ds ps
    have hk : ∃ db', (∀ x ∈ db'.started, x.killed = true) ∧ db'.current = false ∧
        setup db b ds ps = if !b then db' else { started := { dirs := ds, pats := ps } :: db'.started, current := true } := by
      rcases hdb with ⟨hc, w, ws, hs, hw⟩ | ⟨hc, hw⟩
      · refine ⟨{ started := { w with killed := true } :: ws, current := false }, ?_, rfl, ?_⟩
        · intro x hx
          rcases List.mem_cons.mp hx with rfl | hx
          · rfl
          · exact hw x hx
        · unfold setup
          rw [if_pos hc, hs]
      · refine ⟨db, hw, hc, ?_⟩
        simp only [setup, hc]
        rfl
    obtain ⟨db', h1, h2, h3⟩ := hk
    have hnil : db'.started.filter (fun w => !w.killed) = [] := by
      rw [List.filter_eq_nil_iff]
      intro x hx
      rw [h1 x hx]
      decide
    rw [h3]
    cases b with
    | false => exact ⟨Or.inr ⟨h2, h1⟩, hnil⟩
    | true =>
      refine ⟨Or.inl ⟨rfl, _, _, rfl, h1⟩, ?_⟩
      show List.filter _ (_ :: _) = _
      rw [List.filter_cons, hnil]
      rfl
  have fold : ∀ (sets : List (Bool × List Str × Patterns)) (db : Db),
      ((db.current = true ∧ ∃ w ws, db.started = w :: ws ∧ ∀ x ∈ ws, x.killed = true) ∨
      (db.current = false ∧ ∀ x ∈ db.started, x.killed = true)) →
      running (sets.foldl (fun db s => setup db s.1 s.2.1 s.2.2) db) =
      match sets.getLast? with
      | none => running db
      | some s => if s.1 then [{ dirs := s.2.1, pats := s.2.2 }] else [] := by
    intro sets
    induction sets with
    | nil => intro db _; rfl
    | cons s sets ih =>
      intro db hdb
      obtain ⟨k1, k2⟩ := key db hdb s.1 s.2.1 s.2.2
      rw [List.foldl_cons, ih _ k1, List.getLast?_cons]
      cases sets.getLast? with
      | none => exact k2
      | some x => rfl
  have := fold sets {} (Or.inr ⟨rfl, by intro x hx; cases hx⟩)
  rw [this]
  cases sets.getLast? <;> rfl

/-- C126. A reload is asked for each file that was modified, in order, and for no other change. -/
theorem c126_requests (cs : List (Change × Str)) :
    reloadRequests cs = (cs.filter fun c => c.1 = .modified).map (·.2) := by
  induction cs with
  | nil => rfl
  | cons c cs ih =>
    unfold reloadRequests at ih ⊢
    rw [List.filterMap_cons, List.filter_cons]
    by_cases h : c.1 = .modified
    · simp [h, ih]
    · simp [h, ih]

/-! ### What is reloaded -/

theorem sourceOf_spec (f : Str) : Source f (sourceOf f) := by
  unfold sourceOf Source
  by_cases h1 : Py.endsWith f c!".pyc" = true
  · obtain ⟨s, rfl⟩ := (Py.endsWith_iff _ _).mp h1
    rw [if_pos (by simp [h1])]
    refine Or.inl ⟨s, Or.inl rfl, ?_⟩
    have : s ++ c!".pyc" = (s ++ c!".py") ++ ['c'] := by rw [List.append_assoc]; rfl
    rw [this, List.dropLast_concat]
  · by_cases h2 : Py.endsWith f c!".pyo" = true
    · obtain ⟨s, rfl⟩ := (Py.endsWith_iff _ _).mp h2
      rw [if_pos (by simp [h2])]
      refine Or.inl ⟨s, Or.inr rfl, ?_⟩
      have : s ++ c!".pyo" = (s ++ c!".py") ++ ['o'] := by rw [List.append_assoc]; rfl
      rw [this, List.dropLast_concat]
    · rw [if_neg (by simp [h1, h2])]
      refine Or.inr ⟨?_, rfl⟩
      intro s
      exact ⟨fun e => h1 ((Py.endsWith_iff _ _).mpr ⟨s, e.symm⟩), fun e => h2 ((Py.endsWith_iff _ _).mpr ⟨s, e.symm⟩)⟩

theorem source_unique {f a b : Str} (ha : Source f a) (hb : Source f b) : a = b := by
  have cancel : ∀ (s t u v : Str), u.length = v.length → s ++ u = t ++ v → s = t := by
    intro s t u v hl e
    exact List.append_inj_left' e hl
  rcases ha with ⟨s, h1, rfl⟩ | ⟨h1, rfl⟩ <;> rcases hb with ⟨t, h2, rfl⟩ | ⟨h2, rfl⟩
  · have : s = t := by
      rcases h1 with h1 | h1 <;> rcases h2 with h2 | h2
      all_goals
        refine cancel s t _ _ ?_ (h1.symm.trans h2)
        rfl
    rw [this]
  · rcases h1 with h1 | h1
    · exact absurd h1 (h2 s).1
    · exact absurd h1 (h2 s).2
  · rcases h2 with h2 | h2
    · exact absurd h2 (h1 t).1
    · exact absurd h2 (h1 t).2
  · rfl

theorem last_part (n : Str) (h : '.' ∈ n) :
    ∃ a, n = a ++ '.' :: ((Py.split1 '.' n).getLast?).getD [] ∧ '.' ∉ ((Py.split1 '.' n).getLast?).getD [] := by
  induction n with
  | nil => cases h
  | cons c n ih =>
    by_cases hn : '.' ∈ n
    · obtain ⟨a, e, hd⟩ := ih hn
      have hl : (Py.split1 '.' (c :: n)).getLast? = (Py.split1 '.' n).getLast? := by
        by_cases hc : c = '.'
        · subst hc
          have : Py.split1 '.' ('.' :: n) = [] :: Py.split1 '.' n := Py.split1_append '.' [] n List.not_mem_nil
          rw [this]
          cases hs : Py.split1 '.' n with
          | nil => exact absurd hs (Py.split1_ne_nil _ _)
          | cons x xs => rw [List.getLast?_cons_cons]
        · obtain ⟨w, r, e', hw⟩ : ∃ w r, n = w ++ '.' :: r ∧ '.' ∉ w := by
            clear ih e hd hc h
            induction n with
            | nil => cases hn
            | cons x n ih2 =>
              by_cases hx : x = '.'
              · exact ⟨[], n, by rw [hx]; rfl, by simp⟩
              · obtain ⟨w, r, e, hw⟩ := ih2 (by simpa [Ne.symm hx] using hn)
                exact ⟨x :: w, r, by rw [e]; rfl, by simp [Ne.symm hx, hw]⟩
          rw [e', Py.split1_append _ _ _ hw, ← List.cons_append, Py.split1_append _ _ _ (by simp [Ne.symm hc, hw])]
          cases hs : Py.split1 '.' r with
          | nil => exact absurd hs (Py.split1_ne_nil _ _)
          | cons x xs => rw [List.getLast?_cons_cons, List.getLast?_cons_cons]
      rw [hl]
      exact ⟨c :: a, by rw [List.cons_append, ← e], hd⟩
    · have hc : c = '.' := by
        rcases List.mem_cons.mp h with e | h
        · exact e.symm
        · exact absurd h hn
      subst hc
      have : Py.split1 '.' ('.' :: n) = [] :: Py.split1 '.' n := Py.split1_append '.' [] n List.not_mem_nil
      rw [this, Py.split1_of_not_mem _ _ hn]
      exact ⟨[], rfl, hn⟩

theorem last_unique {a b c d : Str} (hb : '.' ∉ b) (hd : '.' ∉ d) (h : a ++ '.' :: b = c ++ '.' :: d) : b = d := by
  rcases List.append_eq_append_iff.mp h with ⟨x, _, hx⟩ | ⟨x, _, hx⟩
  · cases x with
    | nil => exact (List.cons.inj hx).2
    | cons y x =>
      obtain ⟨_, rfl⟩ := List.cons.inj hx
      exact absurd (by simp) hb
  · cases x with
    | nil => exact (List.cons.inj hx).2.symm
    | cons y x =>
      obtain ⟨_, rfl⟩ := List.cons.inj hx
      exact absurd (by simp) hd

theorem lookupName_iff (mods : Modules) (n : Str) (m : Mod) :
    Py.Dict.get mods (lookupName mods n) = some (some m) ↔ MeantByName mods n m := by
  have hnone : ∀ k, Py.Dict.has mods k = false ↔ ∀ e ∈ mods, e.1 ≠ k := by
    intro k
    rw [← Bool.not_eq_true, Py.Dict.has_iff]
    constructor
    · intro h e he hk
      exact h (List.mem_map.mpr ⟨e, he, hk⟩)
    · intro h hm
      obtain ⟨e, he, hk⟩ := List.mem_map.mp hm
      exact h e he hk
  have hget : ∀ k v, Py.Dict.get mods k = some v → Py.Dict.has mods k = true := by
    intro k v h
    rw [Py.Dict.has_iff]
    exact List.mem_map.mpr ⟨(k, v), Py.Dict.mem_of_get h, rfl⟩
  unfold lookupName MeantByName
  by_cases hh : Py.Dict.has mods n = true
  · rw [if_neg (by simp [hh])]
    constructor
    · exact Or.inl
    · rintro (h | ⟨h, _⟩)
      · exact h
      · rw [(hnone n).mpr h] at hh; cases hh
  · have hh' : Py.Dict.has mods n = false := by simpa using hh
    by_cases hd : '.' ∈ n
    · rw [if_pos (by simp [hh', hd])]
      obtain ⟨a, e, hl⟩ := last_part n hd
      dsimp only
      generalize ((Py.split1 '.' n).getLast?).getD [] = b at e hl ⊢
      constructor
      · intro h
        by_cases hb : Py.Dict.has mods b = true
        · rw [if_pos hb] at h
          exact Or.inr ⟨(hnone n).mp hh', a, b, e, hl, h⟩
        · rw [if_neg hb] at h
          exact Or.inl h
      · rintro (h | ⟨_, a', b', e', hb', h⟩)
        · exact absurd (hget _ _ h) hh
        · have : b = b' := last_unique hl hb' (e.symm.trans e')
          subst this
          rw [if_pos (hget _ _ h)]
          exact h
    · rw [if_neg (by simp [hd])]
      constructor
      · exact Or.inl
      · rintro (h | ⟨_, a, b, e, _⟩)
        · exact h
        · exact absurd (by rw [e]; simp) hd

theorem fold_keys (normcase : Str → Str) (f : Str) : ∀ (mods : Modules) (acc : List (Nat × (Mod × Str))),
    (acc.map (·.1)).Nodup →
    let r := mods.foldl (fun acc e =>
        match e.2 with
        | none => acc
        | some m =>
          match m.file with
          | none => acc
          | some g => if normcase (sourceOf g) = normcase f then Py.Dict.set acc m.id (m, e.1) else acc) acc
    (r.map (·.1)).Nodup ∧ ∀ i, i ∈ r.map (·.1) ↔ i ∈ acc.map (·.1) ∨
      ∃ n m g, (n, some m) ∈ mods ∧ m.file = some g ∧ normcase (sourceOf g) = normcase f ∧ m.id = i
  | [], acc, h => by
    refine ⟨h, fun i => ?_⟩
    simp
  | e :: mods, acc, h => by
    obtain ⟨n, om⟩ := e
    have skip : (∀ m g, om = some m → m.file = some g → normcase (sourceOf g) = normcase f → False) →
        ∀ i, (∃ n' m g, (n', some m) ∈ (n, om) :: mods ∧ m.file = some g ∧ normcase (sourceOf g) = normcase f ∧ m.id = i) ↔
          ∃ n' m g, (n', some m) ∈ mods ∧ m.file = some g ∧ normcase (sourceOf g) = normcase f ∧ m.id = i := by
      intro hs i
      constructor
      · rintro ⟨n', m, g, hm, h1, h2, h3⟩
        rcases List.mem_cons.mp hm with e | hm
        · exact (hs m g (Prod.mk.inj e).2.symm h1 h2).elim
        · exact ⟨n', m, g, hm, h1, h2, h3⟩
      · rintro ⟨n', m, g, hm, h⟩
        exact ⟨n', m, g, List.mem_cons_of_mem _ hm, h⟩
    rw [List.foldl_cons]
    dsimp only
    cases om with
    | none =>
      obtain ⟨r1, r2⟩ := fold_keys normcase f mods acc h
      exact ⟨r1, fun i => (r2 i).trans (by rw [skip (by intro m g hm; cases hm)])⟩
    | some m =>
      dsimp only
      cases hf : m.file with
      | none =>
        obtain ⟨r1, r2⟩ := fold_keys normcase f mods acc h
        have hs : ∀ m' g, some m = some m' → m'.file = some g → normcase (sourceOf g) = normcase f → False := by
          intro m' g hm hg
          cases Option.some.inj hm
          rw [hf] at hg; cases hg
        exact ⟨r1, fun i => (r2 i).trans (by rw [skip hs])⟩
      | some g =>
        dsimp only
        by_cases hn : normcase (sourceOf g) = normcase f
        · rw [if_pos hn]
          have hk := Py.Dict.keys_set acc m.id (m, n)
          have hset : ((Py.Dict.set acc m.id (m, n)).map (·.1)).Nodup ∧
              ∀ i, i ∈ (Py.Dict.set acc m.id (m, n)).map (·.1) ↔ i ∈ acc.map (·.1) ∨ i = m.id := by
            refine ⟨Py.Dict.ok_set h m.id (m, n), fun i => ?_⟩
            rw [hk]
            by_cases hm : m.id ∈ acc.map (·.1)
            · rw [if_pos hm]
              constructor
              · exact Or.inl
              · rintro (hi | rfl)
                · exact hi
                · exact hm
            · rw [if_neg hm, List.mem_append, List.mem_singleton]
          obtain ⟨r1, r2⟩ := fold_keys normcase f mods (Py.Dict.set acc m.id (m, n)) hset.1
          refine ⟨r1, fun i => (r2 i).trans ?_⟩
          rw [hset.2]
          constructor
          · rintro ((h | rfl) | ⟨n', m', g', h1, h2⟩)
            · exact Or.inl h
            · exact Or.inr ⟨n, m, g, List.mem_cons_self .., hf, hn, rfl⟩
            · exact Or.inr ⟨n', m', g', List.mem_cons_of_mem _ h1, h2⟩
          · rintro (h | ⟨n', m', g', h1, h2, h3, rfl⟩)
            · exact Or.inl (Or.inl h)
            · rcases List.mem_cons.mp h1 with e | h1
              · cases Option.some.inj (Prod.mk.inj e).2
                exact Or.inl (Or.inr rfl)
              · exact Or.inr ⟨n', m', g', h1, h2, h3, rfl⟩
        · rw [if_neg hn]
          obtain ⟨r1, r2⟩ := fold_keys normcase f mods acc h
          have hs : ∀ m' g, some m = some m' → m'.file = some g → normcase (sourceOf g) = normcase f → False := by
            intro m' g' hm hg
            cases Option.some.inj hm
            rw [hf] at hg
            cases Option.some.inj hg
            exact hn
          exact ⟨r1, fun i => (r2 i).trans (by rw [skip hs])⟩

/-- C126. A request reloads exactly the modules meant by the name or by the file, each once. -/
theorem c126_reloaded (normcase : Str → Str) (mods : Modules) (name filename : Option Str) :
    ((modulesToReload normcase mods name filename).map (·.1)).Nodup ∧
    ∀ i, i ∈ (modulesToReload normcase mods name filename).map (·.1) ↔
      ∃ m : Mod, m.id = i ∧ ((∃ n, name = some n ∧ MeantByName mods n m) ∨
        (∃ f, filename = some f ∧ MeantByFile normcase mods f m)) := by
  have hfirst : ((namedModule mods name).map (·.1)).Nodup ∧
      ∀ i, i ∈ (namedModule mods name).map (·.1) ↔ ∃ m : Mod, m.id = i ∧ ∃ n, name = some n ∧ MeantByName mods n m := by
    unfold namedModule
    cases name with
    | none => simp
    | some n =>
      dsimp only
      refine ⟨by split <;> simp, fun i => ?_⟩
      constructor
      · intro h
        split at h
        · rename_i m hm
          simp at h
          exact ⟨m, h.symm, n, rfl, (lookupName_iff mods n m).mp hm⟩
        · cases h
      · rintro ⟨m, rfl, n', e, hm⟩
        cases Option.some.inj e
        rw [(lookupName_iff mods n m).mpr hm]
        simp
  obtain ⟨f1, f2⟩ := hfirst
  unfold modulesToReload
  have byFile : ∀ f i, f ≠ [] → ((∃ n m g, (n, some m) ∈ mods ∧ m.file = some g ∧ normcase (sourceOf g) = normcase f ∧ m.id = i) ↔
      ∃ m : Mod, m.id = i ∧ MeantByFile normcase mods f m) := by
    intro f i hf
    constructor
    · rintro ⟨n, m, g, h1, h2, h3, rfl⟩
      exact ⟨m, rfl, hf, n, g, sourceOf g, h1, h2, sourceOf_spec g, h3⟩
    · rintro ⟨m, rfl, _, n, g, s, h1, h2, h3, h4⟩
      refine ⟨n, m, g, h1, h2, ?_, rfl⟩
      rw [source_unique (sourceOf_spec g) h3]
      exact h4
  cases filename with
  | none =>
    refine ⟨f1, fun i => (f2 i).trans ?_⟩
    constructor
    · rintro ⟨m, e, h⟩; exact ⟨m, e, Or.inl h⟩
    · rintro ⟨m, e, h | ⟨f, hf, _⟩⟩
      · exact ⟨m, e, h⟩
      · cases hf
  | some f =>
    dsimp only
    by_cases hf : f = []
    · rw [if_pos hf]
      refine ⟨f1, fun i => (f2 i).trans ?_⟩
      constructor
      · rintro ⟨m, e, h⟩; exact ⟨m, e, Or.inl h⟩
      · rintro ⟨m, e, h | ⟨f', hf', h, _⟩⟩
        · exact ⟨m, e, h⟩
        · cases Option.some.inj hf'
          exact absurd hf h
    · rw [if_neg hf]
      obtain ⟨r1, r2⟩ := fold_keys normcase f mods _ f1
      refine ⟨r1, fun i => (r2 i).trans ?_⟩
      rw [f2, byFile f i hf]
      constructor
      · rintro (⟨m, e, h⟩ | ⟨m, e, h⟩)
        · exact ⟨m, e, Or.inl h⟩
        · exact ⟨m, e, Or.inr ⟨f, rfl, h⟩⟩
      · rintro ⟨m, e, h | ⟨f', hf', h⟩⟩
        · exact Or.inl ⟨m, e, h⟩
        · cases Option.some.inj hf'
          exact Or.inr ⟨m, e, h⟩

/-- C126. The answer, sent last, says whether some module was meant; before it there are the messages of each module reloaded. -/
theorem c126_answer (normcase : Str → Str) (changes : Nat → Bool) (mods : Modules) (seq : Int) (name filename : Option Str) :
    (internalReloadCode normcase changes mods seq name filename).getLast? =
      some (.reloaded seq (!(modulesToReload normcase mods name filename).isEmpty)) ∧
    ((internalReloadCode normcase changes mods seq name filename).filterMap fun x =>
      match x with | .start n => some n | _ => none) = (modulesToReload normcase mods name filename).map (·.2.2) := by
  unfold internalReloadCode
  dsimp only
  refine ⟨by rw [List.getLast?_concat], ?_⟩
  rw [List.filterMap_append]
  by_cases h : modulesToReload normcase mods name filename = []
  · rw [if_pos h, h]
    have : ∀ n f, (notFound normcase mods n f).filterMap (fun x => match x with | Msg.start n => some n | _ => none) = [] := by
      intro n f
      unfold notFound
      dsimp only
      repeat' split
      all_goals rfl
    rw [this]
    rfl
  · rw [if_neg h]
    generalize modulesToReload normcase mods name filename = ms
    clear h
    rw [show (List.filterMap (fun x => match x with | Msg.start n => some n | _ => none)
      [Msg.reloaded seq (!ms.isEmpty)]) = [] from rfl, List.append_nil]
    induction ms with
    | nil => rfl
    | cons e ms ih =>
      rw [List.flatMap_cons, List.filterMap_append, ih]
      rfl

/-- C126. When nothing is found for a file, the message names a module that has nothing to do with it. -/
theorem c126_message_witness :
    internalReloadCode id (fun _ => true) [(c!"os", some ⟨1, some c!"/lib/os.py"⟩), (c!"json", some ⟨2, some c!"/lib/json.py"⟩)]
      (-1) none (some c!"/src/a.py") = [.unableBoth c!"json" c!"/src/a.py", .reloaded (-1) false] := by
  decide +kernel

/-! ### The command -/

/-- C126. The command with a name and a file, or with a name only, asks for them. -/
theorem c126_command (name file : Str) (h1 : Py.strip name = name) (h2 : '\t' ∉ name)
    (h3 : Py.strip (name ++ '\t' :: file) = name ++ '\t' :: file) :
    cmdReloadCode name = (name, none) ∧ cmdReloadCode (name ++ '\t' :: file) = (name, some file) := by
  have htw : (name ++ '\t' :: file).takeWhile (· ≠ '\t') = name ∧ (name ++ '\t' :: file).dropWhile (· ≠ '\t') = '\t' :: file := by
    clear h1 h3
    induction name with
    | nil => simp
    | cons a s ih =>
      have ha : a ≠ '\t' := fun e => h2 (e ▸ List.mem_cons_self ..)
      obtain ⟨i1, i2⟩ := ih fun hh => h2 (List.mem_cons_of_mem _ hh)
      rw [List.cons_append, List.takeWhile_cons, List.dropWhile_cons, if_pos (by simpa using ha), if_pos (by simpa using ha), i1, i2]
      exact ⟨rfl, rfl⟩
  unfold cmdReloadCode
  constructor
  · dsimp only
    rw [h1, if_pos h2, h1]
  · dsimp only
    rw [h3, if_neg (by simp), htw.1, htw.2]
    rfl

/-- C126. The command with a file only, and so with nothing before the tab, asks for a module with the name of the file. -/
theorem c126_command_witness : cmdReloadCode c!"\t/src/a.py" = (c!"/src/a.py", none) := by
  decide +kernel

/-! ### Examples -/

example : answers (acceptDirectory (fun f p => Py.isIn p f) ⟨[], [c!".git/"]⟩) [] [c!"/a", c!"/a/.git", c!"/a/.git/", c!"/a"]
    = [true, false, false, true] := by decide +kernel

example : modulesToReload id [(c!"a", some ⟨1, some c!"/src/a.pyc"⟩), (c!"pkg.a", some ⟨1, some c!"/src/a.pyc"⟩), (c!"b", none),
    (c!"c", some ⟨3, none⟩)] (some c!"x.c") (some c!"/src/a.py") =
    [(3, (⟨3, none⟩, c!"c")), (1, (⟨1, some c!"/src/a.pyc"⟩, c!"pkg.a"))] := by decide +kernel

example : Py.strip (c!"pkg.a" ++ '\t' :: c!"/src/a.py") = c!"pkg.a" ++ '\t' :: c!"/src/a.py" ∧ '\t' ∉ c!"pkg.a" := by
  decide +kernel

end AutoReload
