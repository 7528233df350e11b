import Verif.RunTests.Model
/-!
# C75: the tests which are run are those asked for
-/
namespace RunTests

/-! ## Specification -/

/-- What the names given ask for, of a class and one of its methods: with files and their tests, the
method is named for its file; with `--tests`, the class is named, and the method is a test method, or
the method is named; with neither, the method is a test method. -/
def Asked (cfg : Config) (file : Str) (cls method : Str) : Prop :=
  if cfg.filesToTests ≠ [] then ∃ l, Py.Dict.get cfg.filesToTests file = some l ∧ dotted cls method ∈ l
  else if cfg.tests ≠ [] then
    (cls ∈ cfg.tests ∧ testPrefix <+: method) ∨ (cls ∉ cfg.tests ∧ dotted cls method ∈ cfg.tests)
  else testPrefix <+: method

/-- No pattern excludes the method, and one includes it if there are such patterns. -/
def Passes (fm : Str → Str → Bool) (cfg : Config) (method : Str) : Prop :=
  (∀ p ∈ cfg.excludeTests, fm method p = false) ∧
  (cfg.includeTests = [] ∨ ∃ p ∈ cfg.includeTests, fm method p = true)

open Classical in
/-- The tests to run: of each class in each module, in order, the methods which can be called, are
asked for and pass. -/
noncomputable def wanted (fm : Str → Str → Bool) (cfg : Config) (mods : List Module) : List Case :=
  mods.flatMap fun m => m.classes.flatMap fun k =>
    (k.attrs.filter fun a => decide (a.2 = true ∧ Asked cfg m.file k.name a.1 ∧ Passes fm cfg a.1)).map
      fun a => ⟨m.file, m.name, k.name, a.1⟩

/-- Names of classes and methods are identifiers: there is no dot in them. -/
def Plain (m : Module) : Prop := ∀ k ∈ m.classes, '.' ∉ k.name ∧ ∀ a ∈ k.attrs, '.' ∉ a.1

/-- No suite in it is empty. -/
inductive Full : Tree → Prop
  | case (c : Case) : Full (.case c)
  | suite (ts : List Tree) (ne : ts ≠ []) (h : ∀ t ∈ ts, Full t) : Full (.suite ts)

/-! ## Filtering -/

mutual
theorem flatten_filterTree (fm : Str → Str → Bool) (cfg : Config) (t : Tree) :
    (match filterTree fm cfg t with | some t' => flatten t' | none => []) = (flatten t).filter (keeps fm cfg) := by
  cases t with
  | case c => simp only [filterTree, flatten]; by_cases h : keeps fm cfg c <;> simp [h, flatten]
  | other => simp [filterTree, flatten]
  | suite ts =>
    have := flatten_filterList fm cfg ts
    simp only [filterTree, flatten]
    rw [← this]
    split <;> rename_i h
    · split at h
      · simp at h
      · simp only [Option.some.injEq] at h; subst h; rfl
    · split at h
      · rename_i e; rw [e]; rfl
      · simp at h
theorem flatten_filterList (fm : Str → Str → Bool) (cfg : Config) (ts : List Tree) :
    flattenList (filterList fm cfg ts) = (flattenList ts).filter (keeps fm cfg) := by
  cases ts with
  | nil => simp [filterList, flattenList]
  | cons t ts =>
    have h1 := flatten_filterTree fm cfg t
    have h2 := flatten_filterList fm cfg ts
    simp only [filterList, flattenList, List.filter_append, ← h1, ← h2]
    split <;> simp_all [flattenList]
end

theorem keeps_all (fm : Str → Str → Bool) (cfg : Config) (c : Case)
    (h : cfg.includeTests = [] ∧ (if cfg.filesToTests ≠ [] then [] else cfg.tests) = [] ∧ cfg.excludeTests = []) :
    keeps fm cfg c = true := by
  obtain ⟨h1, h2, h3⟩ := h
  simp only [keeps, h2]; simp [h1, h3, matchTests]

theorem flatten_filterTests (fm : Str → Str → Bool) (cfg : Config) (ts : List Tree) :
    flattenList (filterTests fm cfg ts) = (flattenList ts).filter (keeps fm cfg) := by
  unfold filterTests
  by_cases h : cfg.includeTests = [] ∧ (if cfg.filesToTests ≠ [] then [] else cfg.tests) = [] ∧ cfg.excludeTests = []
  · rw [if_pos h]; exact (List.filter_eq_self.2 fun c _ => keeps_all fm cfg c h).symm
  · rw [if_neg h]; exact flatten_filterList fm cfg ts

mutual
theorem flatten_of_not_hasCase (t : Tree) (h : hasCase t = false) : flatten t = [] := by
  cases t with
  | case c => simp [hasCase] at h
  | other => rfl
  | suite ts => simp only [hasCase] at h; simp [flatten, flatten_of_not_hasCases ts h]
theorem flatten_of_not_hasCases (ts : List Tree) (h : hasCases ts = false) : flattenList ts = [] := by
  cases ts with
  | nil => rfl
  | cons t ts =>
    simp only [hasCases, Bool.or_eq_false_iff] at h
    simp [flattenList, flatten_of_not_hasCase t h.1, flatten_of_not_hasCases ts h.2]
end

theorem flattenList_filter (ts : List Tree) : flattenList (ts.filter hasCase) = flattenList ts := by
  induction ts with
  | nil => rfl
  | cons t ts ih =>
    simp only [List.filter_cons]
    by_cases h : hasCase t
    · simp [h, flattenList, ih]
    · simp [h, flattenList, ih, flatten_of_not_hasCase t (by simpa using h)]

theorem flattenList_map {α : Type} (f : α → Tree) (l : List α) : flattenList (l.map f) = l.flatMap fun a => flatten (f a) := by
  induction l with
  | nil => rfl
  | cons a l ih => simp [flattenList, ih]

theorem flatten_loadModule (n : Names) (m : Module) :
    flatten (loadModule n m) = m.classes.flatMap fun k => (caseNames n k).map fun t => ⟨m.file, m.name, k.name, t⟩ := by
  simp only [loadModule, flatten, flattenList_map]
  congr 1; funext k
  induction caseNames n k with
  | nil => rfl
  | cons t l ih => simp [ih]

/-! ## Matching names -/

theorem split_one {t k : Str} (h : Py.split1 '.' t = [k]) : t = k := by
  have := Py.join1_split1 '.' t; rw [h] at this; simpa [Py.join1] using this.symm

theorem split_two {t k m : Str} (h : Py.split1 '.' t = [k, m]) : t = dotted k m := by
  have := Py.join1_split1 '.' t; rw [h] at this; simpa [Py.join1, dotted] using this.symm

theorem split_dotted {k m : Str} (hk : '.' ∉ k) (hm : '.' ∉ m) : Py.split1 '.' (dotted k m) = [k, m] := by
  rw [dotted, Py.split1_append_sep, Py.split1_of_not_mem _ _ hk, Py.split1_of_not_mem _ _ hm]; rfl

theorem matchTests_iff (tests : List Str) (c : Case) (hk : '.' ∉ c.cls) (hm : '.' ∉ c.method) :
    matchTests tests c = true ↔ tests = [] ∨ c.cls ∈ tests ∨ dotted c.cls c.method ∈ tests := by
  simp only [matchTests, Bool.or_eq_true, List.isEmpty_iff, List.any_eq_true]
  refine or_congr_right ⟨?_, ?_⟩
  · rintro ⟨t, ht, h⟩
    split at h
    · rename_i k e; rw [split_one e] at ht; simp at h; exact .inl (h ▸ ht)
    · rename_i k m e; rw [split_two e] at ht; simp at h; exact .inr (by rw [← h.1, ← h.2]; exact ht)
    · simp at h
  · rintro (h | h)
    · exact ⟨_, h, by rw [Py.split1_of_not_mem _ _ hk]; simp⟩
    · exact ⟨_, h, by rw [split_dotted hk hm]; simp⟩

/-- One direction needs nothing of the names. -/
theorem named_of_match {tests : List Str} {c : Case} (h : matchTests tests c = true) :
    tests = [] ∨ c.cls ∈ tests ∨ dotted c.cls c.method ∈ tests := by
  simp only [matchTests, Bool.or_eq_true, List.isEmpty_iff, List.any_eq_true] at h
  rcases h with h | ⟨t, ht, h⟩
  · exact .inl h
  · split at h
    · rename_i k e; rw [split_one e] at ht; simp at h; exact .inr (.inl (h ▸ ht))
    · rename_i k m e; rw [split_two e] at ht; simp at h; exact .inr (.inr (by rw [← h.1, ← h.2]; exact ht))
    · simp at h

theorem keeps_iff (fm : Str → Str → Bool) (cfg : Config) (c : Case) :
    keeps fm cfg c = true ↔ Passes fm cfg c.method ∧
      matchTests (if cfg.filesToTests ≠ [] then [] else cfg.tests) c = true := by
  simp only [keeps, Passes, Bool.and_eq_true, Bool.not_eq_true', List.any_eq_false, Bool.or_eq_true,
    List.isEmpty_iff, List.any_eq_true, Bool.not_eq_true]
  constructor
  · rintro ⟨⟨h1, h2⟩, h3⟩; exact ⟨⟨h1, h3⟩, h2⟩
  · rintro ⟨⟨h1, h3⟩, h2⟩; exact ⟨⟨h1, h2⟩, h3⟩

/-- The names `find_tests_from_modules` uses for a module. -/
def namesFor (cfg : Config) (m : Module) : Names :=
  if cfg.filesToTests ≠ [] then .chosen [] ((Py.Dict.get cfg.filesToTests m.file).getD [])
  else if cfg.tests ≠ [] then testsNames cfg.tests else .all

theorem flatten_findTests (cfg : Config) (mods : List Module) :
    flattenList (findTests cfg mods) = mods.flatMap fun m => m.classes.flatMap fun k =>
      (caseNames (namesFor cfg m) k).map fun t => ⟨m.file, m.name, k.name, t⟩ := by
  have : findTests cfg mods = (mods.map fun m => loadModule (namesFor cfg m) m).filter hasCase := by
    simp only [findTests, namesFor]
    split
    · rfl
    · split <;> rfl
  rw [this, flattenList_filter, flattenList_map]
  congr 1; funext m; exact flatten_loadModule _ m

theorem caseNames_plain {n : Names} {k : Cls} (h : runTest ∉ k.attrs.map (·.1)) : caseNames n k = n.get k := by
  simp [caseNames, h]

open Classical in
theorem kept_eq (fm : Str → Str → Bool) (cfg : Config) (m : Module) (k : Cls) (hk : '.' ∉ k.name)
    (ha : ∀ a ∈ k.attrs, '.' ∉ a.1) :
    (((namesFor cfg m).get k).map fun t => (⟨m.file, m.name, k.name, t⟩ : Case)).filter (keeps fm cfg) =
    (k.attrs.filter fun a => decide (a.2 = true ∧ Asked cfg m.file k.name a.1 ∧ Passes fm cfg a.1)).map
      fun a => ⟨m.file, m.name, k.name, a.1⟩ := by
  have key : ∀ (p : Str × Bool → Bool), (∀ a ∈ k.attrs, (p a = true ∧ keeps fm cfg ⟨m.file, m.name, k.name, a.1⟩ = true) ↔
      (a.2 = true ∧ Asked cfg m.file k.name a.1 ∧ Passes fm cfg a.1)) →
      (((k.attrs.filter p).map (·.1)).map fun t => (⟨m.file, m.name, k.name, t⟩ : Case)).filter (keeps fm cfg) =
      (k.attrs.filter fun a => decide (a.2 = true ∧ Asked cfg m.file k.name a.1 ∧ Passes fm cfg a.1)).map
      fun a => ⟨m.file, m.name, k.name, a.1⟩ := by
    intro p h
    rw [List.map_map, List.filter_map, List.filter_filter]
    congr 1
    apply List.filter_congr
    intro a hm
    have := h a hm
    rw [Bool.eq_iff_iff]
    simp only [Bool.and_eq_true, decide_eq_true_eq, Function.comp]
    rw [← this, and_comm]
  have one : ∀ t : Str, (Py.split1 '.' t).length = 1 → '.' ∉ t := by
    intro t h
    match e : Py.split1 '.' t, h with
    | [w], _ =>
      have h1 := split_one e
      have := Py.split1_no_sep '.' t w (by simp [e])
      rw [h1]; exact this
  by_cases h1 : cfg.filesToTests ≠ []
  · have e : (namesFor cfg m).get k = (k.attrs.filter fun a => decide (dotted k.name a.1 ∈
        (Py.Dict.get cfg.filesToTests m.file).getD []) && a.2).map (·.1) := by
      simp [namesFor, h1, Names.get]
    rw [e]
    apply key
    intro a _
    have hA : Asked cfg m.file k.name a.1 ↔ dotted k.name a.1 ∈ (Py.Dict.get cfg.filesToTests m.file).getD [] := by
      unfold Asked; rw [if_pos h1]
      cases Py.Dict.get cfg.filesToTests m.file <;> simp
    rw [hA, keeps_iff, if_pos h1]
    simp only [Bool.and_eq_true, decide_eq_true_eq]
    constructor
    · rintro ⟨⟨x, y⟩, z, _⟩; exact ⟨y, x, z⟩
    · rintro ⟨y, x, z⟩; exact ⟨⟨x, y⟩, z, by simp [matchTests]⟩
  · by_cases h2 : cfg.tests ≠ []
    · by_cases hc : k.name ∈ cfg.tests
      · have hc' : k.name ∈ cfg.tests.filter fun t => (Py.split1 '.' t).length = 1 := by
          simp [hc, Py.split1_of_not_mem _ _ hk]
        have e : (namesFor cfg m).get k = (k.attrs.filter fun a => Py.startsWith a.1 testPrefix && a.2).map (·.1) := by
          simp only [namesFor, if_neg h1, if_pos h2, testsNames, Names.get, if_pos hc']
        rw [e]
        apply key
        intro a hm
        have hA : Asked cfg m.file k.name a.1 ↔ testPrefix <+: a.1 := by
          unfold Asked; rw [if_neg h1, if_pos h2]; simp [hc]
        rw [hA, keeps_iff, if_neg h1, matchTests_iff _ _ hk (ha a hm)]
        simp only [Bool.and_eq_true, Py.startsWith_iff]
        constructor
        · rintro ⟨⟨x, y⟩, z, _⟩; exact ⟨y, x, z⟩
        · rintro ⟨y, x, z⟩; exact ⟨⟨x, y⟩, z, .inr (.inl hc)⟩
      · have hc' : k.name ∉ cfg.tests.filter fun t => (Py.split1 '.' t).length = 1 := by simp [hc]
        have e : (namesFor cfg m).get k = (k.attrs.filter fun a => decide (dotted k.name a.1 ∈
            cfg.tests.filter fun t => (Py.split1 '.' t).length = 2) && a.2).map (·.1) := by
          simp only [namesFor, if_neg h1, if_pos h2, testsNames, Names.get, if_neg hc']
        rw [e]
        apply key
        intro a hm
        have hA : Asked cfg m.file k.name a.1 ↔ dotted k.name a.1 ∈ cfg.tests := by
          unfold Asked; rw [if_neg h1, if_pos h2]; simp [hc]
        rw [hA, keeps_iff, if_neg h1, matchTests_iff _ _ hk (ha a hm)]
        simp only [Bool.and_eq_true, decide_eq_true_eq, List.mem_filter]
        constructor
        · rintro ⟨⟨x, y⟩, z, _⟩; exact ⟨y, x.1, z⟩
        · rintro ⟨y, x, z⟩
          exact ⟨⟨⟨x, by rw [split_dotted hk (ha a hm)]; rfl⟩, y⟩, z, .inr (.inr x)⟩
    · have e : (namesFor cfg m).get k = (k.attrs.filter fun a => Py.startsWith a.1 testPrefix && a.2).map (·.1) := by
        simp only [namesFor, if_neg h1, if_neg h2, Names.get]
      rw [e]
      apply key
      intro a hm
      have hA : Asked cfg m.file k.name a.1 ↔ testPrefix <+: a.1 := by
        unfold Asked; rw [if_neg h1, if_neg h2]
      rw [hA, keeps_iff, if_neg h1]
      simp only [Bool.and_eq_true, Py.startsWith_iff]
      constructor
      · rintro ⟨⟨x, y⟩, z, _⟩; exact ⟨y, x, z⟩
      · rintro ⟨y, x, z⟩
        refine ⟨⟨x, y⟩, z, ?_⟩
        have : cfg.tests = [] := Classical.not_not.1 h2
        simp [matchTests, this]

/-- **C75.** The tests run are those asked for which pass the patterns, each as often as its class
is bound to a name of its module, in the order of the modules, classes and methods; provided no class
defines `runTest`. -/
theorem c75_selected (fm : Str → Str → Bool) (cfg : Config) (mods : List Module) (plain : ∀ m ∈ mods, Plain m)
    (nr : ∀ m ∈ mods, ∀ k ∈ m.classes, runTest ∉ k.attrs.map (·.1)) :
    flattenList (collect fm cfg mods) = wanted fm cfg mods := by
  rw [collect, flatten_filterTests, flatten_findTests, wanted]
  rw [List.filter_flatMap]
  induction mods with
  | nil => rfl
  | cons m mods ih =>
    rw [List.flatMap_cons, List.flatMap_cons]
    congr 1
    · have hp := plain m (by simp)
      have hn := nr m (by simp)
      rw [List.filter_flatMap]
      unfold Plain at hp
      generalize m.classes = ks at hp hn
      induction ks with
      | nil => rfl
      | cons k ks ih =>
        rw [List.flatMap_cons, List.flatMap_cons]
        congr 1
        · rw [caseNames_plain (hn k (by simp))]
          exact kept_eq fm cfg m k (hp k (by simp)).1 (hp k (by simp)).2
        · exact ih (fun k' h => hp k' (by simp [h])) (fun k' h => hn k' (by simp [h]))
    · exact ih (fun m' h => plain m' (by simp [h])) (fun m' h => nr m' (by simp [h]))

/-- **C75**, without provisos: no test which a pattern excludes, or which no pattern includes, is
run; and with `--tests` no test is run whose class or method is not named. -/
theorem c75_only (fm : Str → Str → Bool) (cfg : Config) (mods : List Module) (c : Case)
    (h : c ∈ flattenList (collect fm cfg mods)) :
    Passes fm cfg c.method ∧
    (cfg.filesToTests = [] → cfg.tests ≠ [] → c.cls ∈ cfg.tests ∨ dotted c.cls c.method ∈ cfg.tests) := by
  rw [collect, flatten_filterTests, List.mem_filter, keeps_iff] at h
  refine ⟨h.2.1, fun hf ht => ?_⟩
  have := h.2.2
  simp only [hf, ne_eq, not_true_eq_false, if_false] at this
  rcases named_of_match this with h | h
  · exact absurd h ht
  · exact h

mutual
theorem full_filterTree (fm : Str → Str → Bool) (cfg : Config) (t t' : Tree) (h : filterTree fm cfg t = some t') : Full t' := by
  cases t with
  | case c => simp only [filterTree] at h; split at h <;> simp at h; subst h; exact .case c
  | other => simp [filterTree] at h
  | suite ts =>
    simp only [filterTree] at h
    have := full_filterList fm cfg ts
    split at h
    · simp at h
    · rename_i ne; simp at h; subst h; exact .suite _ (by intro e; exact ne e) this
theorem full_filterList (fm : Str → Str → Bool) (cfg : Config) (ts : List Tree) : ∀ t ∈ filterList fm cfg ts, Full t := by
  cases ts with
  | nil => simp [filterList]
  | cons t ts =>
    have h2 := full_filterList fm cfg ts
    simp only [filterList]
    split
    · rename_i t' e
      intro x hx
      rcases List.mem_cons.1 hx with rfl | hx
      · exact full_filterTree fm cfg t _ e
      · exact h2 x hx
    · exact h2
end

/-- **C75.** Where tests are filtered, no empty suite is left. -/
theorem c75_no_empty_suite (fm : Str → Str → Bool) (cfg : Config) (mods : List Module)
    (h : cfg.includeTests ≠ [] ∨ cfg.excludeTests ≠ [] ∨ (cfg.filesToTests = [] ∧ cfg.tests ≠ [])) :
    ∀ t ∈ collect fm cfg mods, Full t := by
  intro t ht
  unfold collect filterTests at ht
  rw [if_neg] at ht
  · exact full_filterList fm cfg _ t ht
  · rintro ⟨a, b, c⟩
    rcases h with h | h | ⟨h1, h2⟩
    · exact h a
    · exact h c
    · simp [h1] at b; exact h2 b

/-- A case which meets the provisos: `A.test_a` is asked for by name, `B` by its class, and a pattern
excludes `test_c`. -/
def exMods : List Module :=
  [⟨"f.py".toList, "f".toList, [⟨"A".toList, [("check".toList, true), ("test_a".toList, true)]⟩,
    ⟨"B".toList, [("test_b".toList, true), ("test_c".toList, true), ("test_d".toList, false)]⟩]⟩]

theorem c75_example :
    (∀ m ∈ exMods, Plain m) ∧ (∀ m ∈ exMods, ∀ k ∈ m.classes, runTest ∉ k.attrs.map (·.1)) ∧
    (flattenList (collect (fun a b => a == b) ⟨[], ["A.test_a".toList, "B".toList], [], ["test_c".toList]⟩ exMods)).map
      (fun c => (c.cls, c.method)) = [("A".toList, "test_a".toList), ("B".toList, "test_b".toList)] := by
  refine ⟨?_, by decide +kernel, by decide +kernel⟩
  unfold Plain; decide +kernel

/-- A class which defines `runTest` is run although only another test of its file was asked for. -/
theorem c75_run_test_witness :
    let m : Module := ⟨"f.py".toList, "f".toList, [⟨"A".toList, [("test_a".toList, true)]⟩, ⟨"B".toList, [("runTest".toList, true)]⟩]⟩
    (flattenList (collect (fun a b => a == b) ⟨[("f.py".toList, ["A.test_a".toList])], [], [], []⟩ [m])).map
      (fun c => (c.cls, c.method)) = [("A".toList, "test_a".toList), ("B".toList, "runTest".toList)] := by
  decide +kernel

/-- A method which is not a test method is run when it is named, but not if its class is named too. -/
theorem c75_class_hides_method_witness :
    (flattenList (collect (fun a b => a == b) ⟨[], ["A.check".toList], [], []⟩ exMods)).map (·.method) = ["check".toList] ∧
    (flattenList (collect (fun a b => a == b) ⟨[], ["A.check".toList, "A".toList], [], []⟩ exMods)).map (·.method) = ["test_a".toList] := by
  decide +kernel

end RunTests
