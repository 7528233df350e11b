import Verif.RunFile.Spec
/-!
C128: running files in the console.
-/

namespace RunFile

open RunFile.Spec

/-! ### Lists of names -/

theorem exists_first {x : Char} : ∀ {n : Str}, x ∈ n → ∃ w r, n = w ++ x :: r ∧ x ∉ w
  | [], h => by cases h
  | c :: n, h => by
    by_cases hc : c = x
    · exact ⟨[], n, by rw [hc]; rfl, by simp⟩
    · obtain ⟨w, r, e, hw⟩ := exists_first (n := n) (by simpa [Ne.symm hc] using h)
      exact ⟨c :: w, r, by rw [e]; rfl, by simp [Ne.symm hc, hw]⟩

theorem isPart_iff (c n : Str) : IsPart c n ↔ c ∈ Py.split1 '.' n := by
  constructor
  · intro h
    induction h with
    | whole h => rw [Py.split1_of_not_mem _ _ h]; simp
    | first r h => rw [Py.split1_append _ _ _ h]; simp
    | later w r h _ ih => rw [Py.split1_append _ _ _ h]; exact List.mem_cons_of_mem _ ih
  · generalize hl : n.length = k
    induction k using Nat.strongRecOn generalizing n with
    | _ k ih =>
      intro h
      by_cases hn : '.' ∈ n
      · obtain ⟨w, r, rfl, hw⟩ := exists_first hn
        rw [Py.split1_append _ _ _ hw] at h
        rcases List.mem_cons.mp h with rfl | h
        · exact .first _ _ hw
        · exact .later _ _ _ hw (ih r.length (by rw [← hl]; simp; omega) r rfl h)
      · rw [Py.split1_of_not_mem _ _ hn] at h
        rw [List.mem_singleton.mp h]
        exact .whole _ hn

theorem isName_iff (c n : Str) : IsName c n ↔ c ∈ Py.split1 ',' n := by
  constructor
  · intro h
    induction h with
    | whole h => rw [Py.split1_of_not_mem _ _ h]; simp
    | first r h => rw [Py.split1_append _ _ _ h]; simp
    | later w r h _ ih => rw [Py.split1_append _ _ _ h]; exact List.mem_cons_of_mem _ ih
  · generalize hl : n.length = k
    induction k using Nat.strongRecOn generalizing n with
    | _ k ih =>
      intro h
      by_cases hn : ',' ∈ n
      · obtain ⟨w, r, rfl, hw⟩ := exists_first hn
        rw [Py.split1_append _ _ _ hw] at h
        rcases List.mem_cons.mp h with rfl | h
        · exact .first _ _ hw
        · exact .later _ _ _ hw (ih r.length (by rw [← hl]; simp; omega) r rfl h)
      · rw [Py.split1_of_not_mem _ _ hn] at h
        rw [List.mem_singleton.mp h]
        exact .whole _ hn

/-! ### Words -/

theorem words_space {c : Char} {s : Str} {ws : List Str} (hc : Py.isSpace c = true) (h : Words s ws) : Words (c :: s) ws := by
  cases h with
  | nil g hg =>
    refine .nil _ ?_
    intro x hx
    rcases List.mem_cons.mp hx with rfl | hx
    · exact hc
    · exact hg x hx
  | cons g w s ws hg h1 h2 h3 h4 =>
    refine .cons (c :: g) w s ws ?_ h1 h2 h3 h4
    intro x hx
    rcases List.mem_cons.mp hx with rfl | hx
    · exact hc
    · exact hg x hx

theorem wordsAux_spec : ∀ (s cur : Str), (∀ c ∈ cur, Py.isSpace c = false) → Words (cur ++ s) (wordsAux cur s)
  | [], cur, hcur => by
    rw [wordsAux]
    by_cases h : cur = []
    · rw [if_pos h, h]
      exact .nil _ (by intro c hc; cases hc)
    · rw [if_neg h]
      exact .cons [] cur [] [] (by intro c hc; cases hc) h hcur (Or.inl rfl) (.nil _ (by intro c hc; cases hc))
  | c :: s, cur, hcur => by
    rw [wordsAux]
    by_cases hc : Py.isSpace c = true
    · rw [if_pos hc]
      have hs := wordsAux_spec s [] (by intro c hc; cases hc)
      by_cases h : cur = []
      · rw [if_pos h, h]
        exact words_space hc hs
      · rw [if_neg h]
        exact .cons [] cur (c :: s) _ (by intro c hc; cases hc) h hcur (Or.inr ⟨c, s, rfl, hc⟩) (words_space hc hs)
    · rw [if_neg hc]
      have := wordsAux_spec s (cur ++ [c]) (by
        intro x hx
        rcases List.mem_append.mp hx with hx | hx
        · exact hcur x hx
        · rw [List.mem_singleton.mp hx]; simpa using hc)
      rwa [List.append_assoc] at this

/-! ### Starting and ending -/

theorem umdStep_rest (env : Env) (st : St) (r : Run) :
    (umdStep env st r).ns = st.ns ∧ (umdStep env st r).argv = st.argv ∧ (umdStep env st r).cwd = st.cwd := by
  unfold umdStep
  split
  · exact ⟨rfl, rfl, rfl⟩
  · split <;> exact ⟨rfl, rfl, rfl⟩

theorem start_rest (env : Env) (st : St) (r : Run) :
    (start env st r).1.ns = Py.Dict.set st.ns fileName (.str r.filename) ∧
    (start env st r).1.mods = (umdStep env st r).mods ∧ (start env st r).1.umd = (umdStep env st r).umd := by
  unfold start
  dsimp only
  rw [(umdStep_rest env st r).1]
  split
  · exact ⟨rfl, rfl, rfl⟩
  · split <;> exact ⟨rfl, rfl, rfl⟩

/-- C128. The file is executed with its name as `__file__` and as the first argument, followed by the words of the arguments, and in
the directory given; the rest of the namespace is as it was. If the directory cannot be used, nothing is executed. -/
theorem c128_start (env : Env) (st : St) (r : Run) :
    ((start env st r).2 = false ↔ ∃ w, r.wdir = some w ∧ env.isDir w = false) ∧
    (∀ exec, (start env st r).2 = false → runfile env exec st r = ((start env st r).1, true)) ∧
    (∀ exec, (start env st r).2 = true → (exec (start env st r).1).2 = true →
      runfile env exec st r = exec (start env st r).1) ∧
    (∀ k, Py.Dict.get (start env st r).1.ns k = if k = c!"__file__" then some (.str r.filename) else Py.Dict.get st.ns k) ∧
    (∃ ws, (start env st r).1.argv = r.filename :: ws ∧ (r.args = none → ws = []) ∧ (∀ a, r.args = some a → Words a ws)) ∧
    (∀ w, r.wdir = some w → (start env st r).2 = true → (start env st r).1.cwd = w) ∧
    (r.wdir = none → (start env st r).1.cwd = st.cwd) := by
  refine ⟨?_, ?_, ?_, ?_, ?_, ?_, ?_⟩
  · unfold start
    cases hw : r.wdir with
    | none => simp
    | some w =>
      cases hd : env.isDir w <;> simp [hd]
  · intro exec h
    simp only [runfile, h]
    rfl
  · intro exec h he
    rw [runfile]
    dsimp only
    rw [h, if_neg (by decide), if_pos he]
    exact Prod.ext rfl he.symm
  · intro k
    rw [(start_rest env st r).1, Py.Dict.get_set]
    rfl
  · have hargv : (start env st r).1.argv = r.filename :: (match r.args with | none => [] | some a => wordsAux [] a) := by
      unfold start
      cases r.wdir with
      | none => rfl
      | some w =>
        dsimp only
        split <;> rfl
    rw [hargv]
    refine ⟨_, rfl, ?_, ?_⟩
    · intro h; rw [h]
    · intro a h
      rw [h]
      exact wordsAux_spec a [] (by intro c hc; cases hc)
  · intro w hw h
    unfold start at h ⊢
    simp only [hw] at h ⊢
    split
    · rfl
    · rename_i hd
      rw [if_neg hd] at h
      cases h
  · intro hw
    unfold start
    simp only [hw]
    exact (umdStep_rest env st r).2.2

/-- C128. When the file ends without an error, `__file__` is as it was before, or absent if it was; the rest of the namespace and of the
state is what the file left. -/
theorem c128_restored (env : Env) (exec : St → St × Bool) (st : St) (r : Run) (hs : (start env st r).2 = true)
    (he : (exec (start env st r).1).2 = false) (hf : Py.Dict.has (exec (start env st r).1).1.ns c!"__file__" = true)
    (hn : Py.Dict.get st.ns c!"__file__" ≠ some .none) :
    (runfile env exec st r).2 = false ∧
    (∀ k, Py.Dict.get (runfile env exec st r).1.ns k =
      if k = c!"__file__" then Py.Dict.get st.ns c!"__file__" else Py.Dict.get (exec (start env st r).1).1.ns k) ∧
    (runfile env exec st r).1.argv = [c!""] ∧ (runfile env exec st r).1.mods = (exec (start env st r).1).1.mods ∧
    (runfile env exec st r).1.cwd = (exec (start env st r).1).1.cwd := by
  have hr : runfile env exec st r = finish (Py.Dict.get st.ns fileName) (exec (start env st r).1).1 := by
    simp only [runfile, hs, he]
    rfl
  rw [hr]
  change Py.Dict.get st.ns fileName ≠ some .none at hn
  change Py.Dict.has (exec (start env st r).1).1.ns fileName = true at hf
  change _ ∧ (∀ k, _ = if k = fileName then Py.Dict.get st.ns fileName else _) ∧ _
  generalize (exec (start env st r).1).1 = s at hf
  cases ho : Py.Dict.get st.ns fileName with
  | none =>
    simp only [finish, hf, if_true]
    refine ⟨trivial, ?_, trivial, trivial, trivial⟩
    intro k
    rw [Py.Dict.get_erase]
  | some v =>
    cases v with
    | none => exact absurd ho hn
    | str x =>
      simp only [finish]
      refine ⟨trivial, ?_, trivial, trivial, trivial⟩
      intro k
      rw [Py.Dict.get_set]
    | other x =>
      simp only [finish]
      refine ⟨trivial, ?_, trivial, trivial, trivial⟩
      intro k
      rw [Py.Dict.get_set]

/-! ### Modules -/

theorem finish_umd (old : Option Val) (s : St) : (finish old s).1.umd = s.umd := by
  unfold finish
  dsimp only
  repeat' split
  all_goals rfl

theorem runs_one_umd (env : Env) (st : St) (r : Run) (ex : St → St × Bool) :
    (runs env st [(r, ex)]).umd = (umdStep env st r).umd := by
  rw [runs, runs, runfile]
  dsimp only
  rw [← (start_rest env st r).2.2]
  split
  · rfl
  · split
    · rfl
    · rw [finish_umd]

/-- the module deleter after some runs -/
theorem runs_umd (env : Env) : ∀ (rs : List (Run × (St → St × Bool))) (st : St),
    (runs env st rs).umd = match st.umd with
      | some u => some u
      | none => match first env st rs with
        | none => none
        | some (names, nl) => some { namelist := nameList nl, previous := names }
  | [], st => by
    rw [runs, first]
    cases st.umd <;> rfl
  | (r, ex) :: rs, st => by
    have h : runs env st ((r, ex) :: rs) = runs env (runs env st [(r, ex)]) rs := by rw [runs, runs, runs]
    rw [h, runs_umd env rs, runs_one_umd]
    cases hu : st.umd with
    | some u =>
      have : (umdStep env st r).umd = some u := by
        unfold umdStep
        split
        · exact hu
        · simp only [hu]
      rw [this]
    | none =>
      dsimp only
      rw [first]
      cases he : r.enabled with
      | true =>
        simp only [umdStep, he, hu]
        rfl
      | false =>
        have : (umdStep env st r).umd = none := by
          unfold umdStep
          simp [he, hu]
        rw [this]
        rfl

/-- C128. When a file begins, with the deleter enabled, after any runs: the modules of the user that were loaded since the first run
with the deleter enabled are gone, so that they are loaded again, and all the others are there. -/
theorem c128_modules (env : Env) (st : St) (h0 : st.umd = none) (rs : List (Run × (St → St × Bool))) (r : Run) (m : Str × Option Str) :
    m ∈ (start env (runs env st rs) r).1.mods ↔ m ∈ (runs env st rs).mods ∧
      ¬ (r.enabled = true ∧ ∃ names keep, first env st rs = some (names, keep) ∧ OfUser env names keep m) := by
  rw [(start_rest env _ r).2.1]
  have hu := runs_umd env rs st
  rw [h0] at hu
  dsimp only at hu
  cases he : r.enabled with
  | false => simp [umdStep, he]
  | true =>
    cases hf : first env st rs with
    | none =>
      rw [hf] at hu
      simp [umdStep, he, hu]
    | some p =>
      obtain ⟨names, keep⟩ := p
      rw [hf] at hu
      dsimp only at hu
      have hm : (umdStep env (runs env st rs) r).mods =
          deleteModules env { namelist := nameList keep, previous := names } (runs env st rs).mods := by
        simp only [umdStep, he, hu]
        rfl
      rw [hm, deleteModules, List.mem_filter]
      refine and_congr_right fun _ => ?_
      dsimp only
      have hpart : ((Py.split1 '.' m.1).any fun c => (nameList keep).contains c) = true ↔
          ∃ l c, keep = some l ∧ IsName c l ∧ IsPart c m.1 := by
        rw [List.any_eq_true]
        constructor
        · rintro ⟨c, hc, hk⟩
          cases keep with
          | none => simp [nameList] at hk
          | some l =>
            refine ⟨l, c, rfl, ?_, (isPart_iff _ _).mpr hc⟩
            rw [isName_iff]
            simpa [nameList] using hk
        · rintro ⟨l, c, rfl, h1, h2⟩
          refine ⟨c, (isPart_iff _ _).mp h2, ?_⟩
          have := (isName_iff _ _).mp h1
          simpa [nameList] using this
      have hpath : ∀ f : Str, (env.ignored.any fun p => Py.startsWith f p) = true ↔ ∃ p ∈ env.ignored, p <+: f := by
        intro f
        rw [List.any_eq_true]
        constructor
        · rintro ⟨p, hp, h⟩
          obtain ⟨x, hx⟩ := (Py.startsWith_iff _ _).mp h
          exact ⟨p, hp, ⟨x, hx⟩⟩
        · rintro ⟨p, hp, ⟨x, hx⟩⟩
          exact ⟨p, hp, (Py.startsWith_iff _ _).mpr ⟨x, hx⟩⟩
      have hsome : ¬ (true = true ∧ ∃ n k, some (names, keep) = some (n, k) ∧ OfUser env n k m) ↔ ¬ OfUser env names keep m := by
        constructor
        · intro h hh
          exact h ⟨rfl, names, keep, rfl, hh⟩
        · rintro h ⟨_, n, k, e, hh⟩
          cases e
          exact h hh
      rw [hsome]
      unfold OfUser
      by_cases hc : m.1 ∈ names
      · rw [if_pos (by simpa using hc)]
        constructor
        · rintro _ ⟨h, _⟩
          exact h hc
        · intro _; rfl
      · rw [if_neg (by simpa using hc)]
        cases hm2 : m.2 with
        | none => simp
        | some f =>
          dsimp only
          unfold isIgnored
          by_cases hp : (env.ignored.any fun p => Py.startsWith f p) = true
          · rw [if_pos hp]
            obtain ⟨p, hpm, hpf⟩ := (hpath f).mp hp
            constructor
            · rintro _ ⟨_, f', e, h, _⟩
              cases e
              exact h p hpm hpf
            · intro _; rfl
          · rw [if_neg hp, hpart]
            constructor
            · rintro ⟨l, c, e, h1, h2⟩ ⟨_, f', _, _, h⟩
              exact h l c e h1 h2
            · intro h
              refine Classical.byContradiction fun hn => ?_
              refine h ⟨hc, f, rfl, ?_, ?_⟩
              · intro p hpm hpf
                exact hp ((hpath f).mpr ⟨p, hpm, hpf⟩)
              · intro l c e h1 h2
                exact hn ⟨l, c, e, h1, h2⟩

/-- C128. When the file raises, `__file__` and the arguments of the file are left in the console. -/
theorem c128_raise_witness :
    (runfile ⟨[c!"/usr"], fun _ => true⟩ (fun s => (s, true)) ⟨[], [], [c!""], c!"/", none⟩ { filename := c!"a.py" }).1 =
      ⟨[], [(c!"__file__", .str c!"a.py")], [c!"a.py"], c!"/", some ⟨[], []⟩⟩ := by
  decide +kernel

/-- C128. A file of the user whose path begins with the same letters as the prefix of Python is taken for one of Python. -/
theorem c128_prefix_witness :
    deleteModules ⟨[c!"/opt/py"], fun _ => true⟩ ⟨[], []⟩ [(c!"a", some c!"/opt/pyproject/a.py"), (c!"b", some c!"/home/b.py")] =
      [(c!"a", some c!"/opt/pyproject/a.py")] := by
  decide +kernel

/-! ### Examples -/

/-- two runs: the first loads three modules -/
example :
    let env : Env := ⟨[c!"/usr"], fun _ => true⟩
    let st : St := ⟨[(c!"sys", none)], [(c!"x", .other 1)], [c!""], c!"/", none⟩
    let ex : St → St × Bool := fun s => ({ s with mods := s.mods ++ [(c!"a", some c!"/home/a.py"), (c!"json", some c!"/usr/json.py"),
      (c!"keep.b", some c!"/home/b.py")] }, false)
    let r : Run := { filename := c!"m.py", args := some c!" 1  2 ", namelist := some c!"x,keep" }
    (start env (runs env st [(r, ex)]) r).1.mods = [(c!"sys", none), (c!"json", some c!"/usr/json.py"), (c!"keep.b", some c!"/home/b.py")] ∧
    (start env st r).1.argv = [c!"m.py", c!"1", c!"2"] ∧ (runs env st [(r, ex)]).ns = [(c!"x", .other 1)] ∧
    (first env st [(r, ex)]).isSome = true := by
  decide +kernel

end RunFile
