import Verif.RunTests.Parallel
import Verif.RunTests.Select
/-!
# C76: run in several processes, each test is run once
-/
namespace RunTests

/-! ## Specification -/

/-- A test of one of the modules. -/
def TestOf (mods : List Module) (c : Case) : Prop :=
  ∃ m ∈ mods, c.file = m.file ∧ c.mod = m.name ∧ ∃ k ∈ m.classes, c.cls = k.name ∧ (c.method, true) ∈ k.attrs

/-- What is asked of the modules: their files are different and without `|`, and in each the test
classes have different names; names are identifiers; no class defines `runTest`. -/
structure Tidy (mods : List Module) : Prop where
  files : (mods.map (·.file)).Nodup
  noBar : ∀ m ∈ mods, '|' ∉ m.file
  classes : ∀ m ∈ mods, (m.classes.map (·.name)).Nodup
  attrs : ∀ m ∈ mods, ∀ k ∈ m.classes, (k.attrs.map (·.1)).Nodup
  ident : ∀ m ∈ mods, ∀ k ∈ m.classes, '.' ∉ k.name ∧ '|' ∉ k.name ∧ ∀ a ∈ k.attrs, '.' ∉ a.1 ∧ '|' ∉ a.1
  noRunTest : ∀ m ∈ mods, ∀ k ∈ m.classes, runTest ∉ k.attrs.map (·.1)

/-- Every client has ended or died. -/
def Over (s : PState) : Prop := ∀ x ∈ s.clients, x = .ended ∨ x = .dead

/-! ## The batches -/

theorem count_flatten_set (d : List ((Str × Str) × List Case)) (key : Str × Str) (c x : Case) :
    ((Py.Dict.set d key ((Py.Dict.get d key).getD [] ++ [c])).map (·.2)).flatten.count x =
    (d.map (·.2)).flatten.count x + [c].count x := by
  induction d with
  | nil => simp [Py.Dict.set, Py.Dict.get]
  | cons e d ih =>
    rw [Py.Dict.get_cons]
    by_cases h : e.1 = key
    · simp [Py.Dict.set, h, List.count_append, List.count_cons]; omega
    · simp only [Py.Dict.set, h, if_false]
      simp only [List.map_cons, List.flatten_cons, List.count_append]
      omega

theorem group_count (l : List Case) (d : List ((Str × Str) × List Case)) (x : Case) :
    ((l.foldl addToModule d).map (·.2)).flatten.count x = (d.map (·.2)).flatten.count x + l.count x := by
  induction l generalizing d with
  | nil => simp
  | cons c l ih =>
    rw [List.foldl_cons, ih, addToModule, count_flatten_set]
    simp only [List.count_cons, List.count_nil]; omega

/-- The batches hold each test as often as it was collected. -/
theorem elements_perm (split : Split) (ts : List Tree) : (elements split ts).flatten.Perm (flattenList ts) := by
  rw [List.perm_iff_count]
  intro x
  cases split with
  | module_ => simpa [elements] using group_count (flattenList ts) [] x
  | tests =>
    simp only [elements]
    induction flattenList ts with
    | nil => rfl
    | cons c l ih => simp only [List.map_cons, List.flatten_cons, List.count_append, ih, List.count_cons, List.count_nil]; omega

/-- In each entry the tests are those of its key, there are some, and no key comes twice. -/
def Grouped (d : List ((Str × Str) × List Case)) : Prop :=
  Py.Dict.Ok d ∧ ∀ e ∈ d, e.2 ≠ [] ∧ ∀ c ∈ e.2, (c.file, c.mod) = e.1

theorem grouped_add (d : List ((Str × Str) × List Case)) (c : Case) (h : Grouped d) : Grouped (addToModule d c) := by
  refine ⟨Py.Dict.ok_set h.1 _ _, ?_⟩
  intro e he
  rcases (Py.Dict.mem_set h.1 _ _ e).1 he with rfl | ⟨h1, h2⟩
  · refine ⟨by simp, ?_⟩
    intro c' hc
    rcases List.mem_append.1 hc with hc | hc
    · cases hg : Py.Dict.get d (c.file, c.mod) with
      | none => simp [hg] at hc
      | some l => simp [hg] at hc; exact (h.2 _ (Py.Dict.mem_of_get hg)).2 c' hc
    · simp at hc; subst hc; rfl
  · exact h.2 e h1

theorem grouped_all (l : List Case) (d : List ((Str × Str) × List Case)) (h : Grouped d) : Grouped (l.foldl addToModule d) := by
  induction l generalizing d with
  | nil => exact h
  | cons c l ih => exact ih _ (grouped_add d c h)

theorem grouped (ts : List Tree) : Grouped ((flattenList ts).foldl addToModule []) :=
  grouped_all _ _ ⟨Py.Dict.ok_nil, by simp⟩

theorem elements_ne_nil (split : Split) (ts : List Tree) : ∀ b ∈ elements split ts, b ≠ [] := by
  intro b hb
  cases split with
  | module_ =>
    simp only [elements, List.mem_map] at hb
    obtain ⟨e, he, rfl⟩ := hb
    exact ((grouped ts).2 e he).1
  | tests =>
    simp only [elements, List.mem_map] at hb
    obtain ⟨c, _, rfl⟩ := hb
    simp

/-! ## What a client runs -/

theorem nodup_unique {α β : Type} (f : α → β) (l : List α) (h : (l.map f).Nodup) {a b : α} (ha : a ∈ l) (hb : b ∈ l)
    (e : f a = f b) : a = b := by
  induction l with
  | nil => simp at ha
  | cons x l ih =>
    rw [List.map_cons, List.nodup_cons] at h
    rcases List.mem_cons.1 ha with ea | ha <;> rcases List.mem_cons.1 hb with eb | hb
    · rw [ea, eb]
    · exact absurd (List.mem_map.2 ⟨b, hb, by rw [← e, ea]⟩) h.1
    · exact absurd (List.mem_map.2 ⟨a, ha, by rw [e, eb]⟩) h.1
    · exact ih h.2 ha hb

theorem dotted_inj {k m k' m' : Str} (hk : '.' ∉ k) (hm : '.' ∉ m) (hk' : '.' ∉ k') (hm' : '.' ∉ m')
    (h : dotted k m = dotted k' m') : k = k' ∧ m = m' := by
  have := congrArg (Py.split1 '.') h
  rw [split_dotted hk hm, split_dotted hk' hm'] at this
  simpa using this

theorem split_testName {c : Case} (hf : '|' ∉ c.file) (hk : '|' ∉ c.cls) (hm : '|' ∉ c.method) :
    Py.split1 '|' (testName c) = [c.file, dotted c.cls c.method] := by
  rw [testName, Py.split1_append_sep, Py.split1_of_not_mem _ _ hf, Py.split1_of_not_mem]
  · rfl
  · simp [dotted, hk, hm]

/-- The step of `filesToTests`. -/
def addName (d : List (Str × List Str)) (t : Str) : List (Str × List Str) :=
  match Py.split1 '|' t with
  | [f, n] => Py.Dict.set d f ((Py.Dict.get d f).getD [] ++ [n])
  | _ => d

theorem filesToTests_eq (b : List Str) : filesToTests b = b.foldl addName [] := rfl

theorem ok_addName (d : List (Str × List Str)) (t : Str) (h : Py.Dict.Ok d) : Py.Dict.Ok (addName d t) := by
  unfold addName; split
  · exact Py.Dict.ok_set h _ _
  · exact h

theorem ok_files (b : List Str) (d : List (Str × List Str)) (h : Py.Dict.Ok d) : Py.Dict.Ok (b.foldl addName d) := by
  induction b generalizing d with
  | nil => exact h
  | cons t b ih => exact ih _ (ok_addName d t h)

/-- The names of a file: those it had, and those of the batch. -/
theorem get_files (b : List Case) (d : List (Str × List Str))
    (hb : ∀ c ∈ b, '|' ∉ c.file ∧ '|' ∉ c.cls ∧ '|' ∉ c.method) (f n : Str) :
    n ∈ (Py.Dict.get ((b.map testName).foldl addName d) f).getD [] ↔
      n ∈ (Py.Dict.get d f).getD [] ∨ ∃ c ∈ b, c.file = f ∧ dotted c.cls c.method = n := by
  induction b generalizing d with
  | nil => simp
  | cons c b ih =>
    obtain ⟨h1, h2, h3⟩ := hb c (by simp)
    rw [List.map_cons, List.foldl_cons, ih _ (fun c' h => hb c' (by simp [h]))]
    have : addName d (testName c) = Py.Dict.set d c.file ((Py.Dict.get d c.file).getD [] ++ [dotted c.cls c.method]) := by
      simp only [addName, split_testName h1 h2 h3]
    rw [this, Py.Dict.get_set]
    by_cases e : f = c.file
    · subst e; simp; grind
    · have e' : c.file ≠ f := fun h => e h.symm
      simp [e, e']

theorem mem_keys_files (b : List Case) (d : List (Str × List Str))
    (hb : ∀ c ∈ b, '|' ∉ c.file ∧ '|' ∉ c.cls ∧ '|' ∉ c.method) (f : Str) :
    f ∈ ((b.map testName).foldl addName d).map (·.1) ↔ f ∈ d.map (·.1) ∨ ∃ c ∈ b, c.file = f := by
  induction b generalizing d with
  | nil => simp
  | cons c b ih =>
    obtain ⟨h1, h2, h3⟩ := hb c (by simp)
    rw [List.map_cons, List.foldl_cons, ih _ (fun c' h => hb c' (by simp [h]))]
    have : addName d (testName c) = Py.Dict.set d c.file ((Py.Dict.get d c.file).getD [] ++ [dotted c.cls c.method]) := by
      simp only [addName, split_testName h1 h2 h3]
    rw [this, ← Py.Dict.has_iff, ← Py.Dict.has_iff, Py.Dict.has_iff_get, Py.Dict.has_iff_get, Py.Dict.get_set]
    by_cases e : f = c.file
    · subst e; simp
    · have e' : c.file ≠ f := fun h => e h.symm
      simp [e, e']

theorem nodup_flatMap {α β γ : Type} (l : List α) (f : α → List β) (key : α → γ) (key' : β → γ)
    (hl : (l.map key).Nodup) (hf : ∀ a ∈ l, (f a).Nodup) (hk : ∀ a ∈ l, ∀ b ∈ f a, key' b = key a) :
    (l.flatMap f).Nodup := by
  induction l with
  | nil => simp
  | cons a l ih =>
    rw [List.flatMap_cons, List.nodup_append]
    rw [List.map_cons, List.nodup_cons] at hl
    refine ⟨hf a (by simp), ih hl.2 (fun x h => hf x (by simp [h])) (fun x h => hk x (by simp [h])), ?_⟩
    intro x hx y hy e
    subst e
    obtain ⟨a', ha', hy⟩ := List.mem_flatMap.1 hy
    have h1 := hk a (by simp) x hx
    have h2 := hk a' (by simp [ha']) x hy
    exact hl.1 (List.mem_map.2 ⟨a', ha', by rw [← h2, h1]⟩)

theorem wanted_nodup (fm : Str → Str → Bool) (cfg : Config) (mods : List Module) (h1 : (mods.map (·.file)).Nodup)
    (h2 : ∀ m ∈ mods, (m.classes.map (·.name)).Nodup)
    (h3 : ∀ m ∈ mods, ∀ k ∈ m.classes, (k.attrs.map (·.1)).Nodup) : (wanted fm cfg mods).Nodup := by
  unfold wanted
  refine nodup_flatMap _ _ (·.file) (·.file) h1 ?_ ?_
  · intro m hm
    refine nodup_flatMap _ _ (·.name) (·.cls) (h2 m hm) ?_ ?_
    · intro k hk
      have := h3 m hm k hk
      rw [List.nodup_iff_pairwise_ne, List.pairwise_map] at *
      refine List.Pairwise.imp ?_ (this.sublist List.filter_sublist)
      intro a b h e
      exact h (by simpa using congrArg Case.method e)
    · intro k _ c hc
      obtain ⟨a, _, rfl⟩ := List.mem_map.1 hc
      rfl
  · intro m _ c hc
    obtain ⟨k, _, hc⟩ := List.mem_flatMap.1 hc
    obtain ⟨a, _, rfl⟩ := List.mem_map.1 hc
    rfl

/-- The modules of a client. -/
def clientMods (mods : List Module) (files : List Str) : List Module :=
  files.filterMap fun f => mods.find? fun m => m.file == f

theorem clientMods_files (mods : List Module) (files : List Str) : ((clientMods mods files).map (·.file)).Sublist files := by
  induction files with
  | nil => simp [clientMods]
  | cons f fs ih =>
    simp only [clientMods, List.filterMap_cons] at *
    split
    · exact ih.cons f
    · rename_i m e
      have := List.find?_some e
      simp only [beq_iff_eq] at this
      rw [List.map_cons, this]
      exact ih.cons_cons f

theorem mem_clientMods {mods : List Module} (t : (mods.map (·.file)).Nodup) {files : List Str} {m : Module} :
    m ∈ clientMods mods files ↔ m ∈ mods ∧ m.file ∈ files := by
  simp only [clientMods, List.mem_filterMap]
  constructor
  · rintro ⟨f, hf, e⟩
    have h1 := List.mem_of_find?_eq_some e
    have h2 := List.find?_some e
    simp only [beq_iff_eq] at h2
    exact ⟨h1, h2 ▸ hf⟩
  · rintro ⟨h1, h2⟩
    refine ⟨_, h2, ?_⟩
    clear h2
    induction mods with
    | nil => simp at h1
    | cons x l ih =>
      rw [List.map_cons, List.nodup_cons] at t
      by_cases e : x.file = m.file
      · have : x = m := by
          rcases List.mem_cons.1 h1 with h | h
          · exact h.symm
          · exact absurd (List.mem_map.2 ⟨m, h, e.symm⟩) t.1
        subst this; simp
      · have : (x.file == m.file) = false := by simp [e]
        rw [List.find?_cons, this]
        rcases List.mem_cons.1 h1 with h | h
        · exact absurd (congrArg (·.file) h).symm e
        · exact ih t.2 h

/-- **C76.** For a batch of different tests a client runs exactly these tests, each once. -/
theorem c76_batch (mods : List Module) (tidy : Tidy mods) (b : List Case) (nd : b.Nodup) (hb : ∀ c ∈ b, TestOf mods c) :
    (clientRun mods (b.map testName)).Perm b := by
  have bar : ∀ c ∈ b, '|' ∉ c.file ∧ '|' ∉ c.cls ∧ '|' ∉ c.method := by
    intro c hc
    obtain ⟨m, hm, e1, _, k, hk, e2, ha⟩ := hb c hc
    obtain ⟨_, h2, h3⟩ := tidy.ident m hm k hk
    rw [e1, e2]
    exact ⟨tidy.noBar m hm, h2, (h3 _ ha).2⟩
  have okF : Py.Dict.Ok (filesToTests (b.map testName)) := ok_files _ _ Py.Dict.ok_nil
  have keysF := mem_keys_files b [] bar
  have getF := get_files b [] bar
  rw [← filesToTests_eq] at keysF
  simp only [← filesToTests_eq] at getF
  unfold clientRun
  by_cases hne : filesToTests (b.map testName) = []
  · simp only [hne, if_true]
    cases b with
    | nil => exact .refl _
    | cons c b =>
      have := (keysF c.file).2 (.inr ⟨c, by simp, rfl⟩)
      rw [hne] at this; simp at this
  · simp only [hne, if_false]
    have hsub : ∀ m ∈ clientMods mods ((filesToTests (b.map testName)).map (·.1)), m ∈ mods := fun m h => ((mem_clientMods tidy.files).1 h).1
    have hplain : ∀ m ∈ clientMods mods ((filesToTests (b.map testName)).map (·.1)), Plain m := by
      intro m hm k hk
      obtain ⟨h1, _, h3⟩ := tidy.ident m (hsub m hm) k hk
      exact ⟨h1, fun a ha => (h3 a ha).1⟩
    have hnr : ∀ m ∈ clientMods mods ((filesToTests (b.map testName)).map (·.1)), ∀ k ∈ m.classes, runTest ∉ k.attrs.map (·.1) :=
      fun m hm => tidy.noRunTest m (hsub m hm)
    show (flattenList (collect _ _ (clientMods mods ((filesToTests (b.map testName)).map (·.1))))).Perm b
    rw [c75_selected _ _ _ hplain hnr]
    rw [List.perm_ext_iff_of_nodup _ nd]
    · intro c
      simp only [wanted, List.mem_flatMap, List.mem_map, List.mem_filter, decide_eq_true_eq]
      constructor
      · rintro ⟨m, hm, k, hk, a, ⟨ha, _, has, _⟩, rfl⟩
        simp only [Asked, ne_eq, hne, not_false_eq_true, if_true] at has
        obtain ⟨l, hl, hd⟩ := has
        have := (getF m.file (dotted k.name a.1)).1 (by simp [hl, hd])
        simp only [Py.Dict.get_nil, Option.getD_none, List.not_mem_nil, false_or] at this
        obtain ⟨c, hc, e1, e2⟩ := this
        obtain ⟨m', hm', f1, f2, k', hk', f3, ha'⟩ := hb c hc
        have mm : m' = m := by
          exact nodup_unique (·.file) mods tidy.files hm' (hsub m hm) (by simp [← f1, e1])
        subst mm
        have i1 := tidy.ident m' hm' k hk
        have i2 := tidy.ident m' hm' k' hk'
        rw [f3] at e2
        obtain ⟨g1, g2⟩ := dotted_inj i2.1 (i2.2.2 _ ha').1 i1.1 (i1.2.2 a ha).1 e2
        have : c = ⟨m'.file, m'.name, k.name, a.1⟩ := by
          cases c; simp only [Case.mk.injEq] at *; exact ⟨f1, f2, f3.trans g1, g2⟩
        rw [← this]; exact hc
      · intro hc
        obtain ⟨m, hm, e1, e2, k, hk, e3, ha⟩ := hb c hc
        refine ⟨m, (mem_clientMods tidy.files).2 ⟨hm, (keysF m.file).2 (.inr ⟨c, hc, e1⟩)⟩, k, hk, (c.method, true), ⟨ha, rfl, ?_, ?_⟩, ?_⟩
        · simp only [Asked, ne_eq, hne, not_false_eq_true, if_true]
          have := (getF m.file (dotted k.name c.method)).2 (.inr ⟨c, hc, e1, by rw [e3]⟩)
          cases hg : Py.Dict.get (filesToTests (b.map testName)) m.file with
          | none => simp [hg] at this
          | some l => exact ⟨l, rfl, by simpa [hg] using this⟩
        · simp [Passes]
        · cases c; simp_all
    · exact wanted_nodup _ _ _ ((clientMods_files mods _).nodup okF) (fun m hm => tidy.classes m (hsub m hm))
        (fun m hm => tidy.attrs m (hsub m hm))

/-! ## Every schedule -/

/-- The tests a client has still to run. -/
def Status.left : Status → List Case
  | .running l => l
  | _ => []

/-- The tests a batch, or a queue, comes to. -/
def expand (mods : List Module) (q : List (List Str)) : List Case := q.flatMap (clientRun mods)

theorem flatMap_set_count {α : Type} (l : List α) (f : α → List Case) (i : Nat) (a b : α) (x : Case) (h : l[i]? = some a) :
    ((l.set i b).flatMap f).count x + (f a).count x = (l.flatMap f).count x + (f b).count x := by
  induction l generalizing i with
  | nil => simp at h
  | cons y l ih =>
    cases i with
    | zero => simp at h; subst h; simp [List.count_append]; omega
    | succ i => simp at h; have := ih i h; simp only [List.set_cons_succ, List.flatMap_cons, List.count_append]; omega

/-- Where each test is: queued, with a client, run, or lost. -/
def total (mods : List Module) (s : PState) (x : Case) : Nat :=
  (expand mods s.queue).count x + (s.clients.flatMap Status.left).count x + (s.ran.map (·.2)).count x + s.lost.count x

theorem total_step (mods : List Module) (s : PState) (a : PAct) (x : Case) (hq : ∀ b ∈ s.queue, b ≠ []) :
    total mods (s.step mods a) x = total mods s x := by
  cases a with
  | ask i =>
    simp only [PState.step]
    split
    · rename_i hi
      split
      · have := flatMap_set_count s.clients Status.left i _ .ended x hi
        simp [total, Status.left] at *; omega
      · rename_i b q e
        have hb : b ≠ [] := hq b (by simp [e])
        have := flatMap_set_count s.clients Status.left i _ (.running (clientRun mods b)) x hi
        simp [hb, total, Status.left, e, expand, List.count_append] at *; omega
    · rfl
  | run i =>
    simp only [PState.step]
    split
    · rename_i hi
      have := flatMap_set_count s.clients Status.left i _ .asking x hi
      simp [total, Status.left] at *; omega
    · rename_i t l hi
      have := flatMap_set_count s.clients Status.left i _ (.running l) x hi
      simp [total, Status.left, List.count_append, List.count_cons] at *; omega
    · rfl
  | die i =>
    simp only [PState.step]
    split
    · rename_i l hi
      have := flatMap_set_count s.clients Status.left i _ .dead x hi
      simp [total, Status.left, List.count_append] at *; omega
    · rename_i hi
      have := flatMap_set_count s.clients Status.left i _ .dead x hi
      simp [total, Status.left] at *; omega
    · rfl

theorem queue_step (mods : List Module) (s : PState) (a : PAct) : ∀ b ∈ (s.step mods a).queue, b ∈ s.queue := by
  intro b
  cases a with
  | ask i =>
    simp only [PState.step]
    split
    · split
      · exact id
      · rename_i b' q e
        by_cases hb : b' = []
        · simp [hb, e]; exact .inr
        · simp [hb, e]; exact .inr
    · exact id
  | run i => simp only [PState.step]; split <;> exact id
  | die i => simp only [PState.step]; split <;> exact id

/-- A client which has ended found the queue empty. -/
def EndedEmpty (s : PState) : Prop := .ended ∈ s.clients → s.queue = []

theorem endedEmpty_step (mods : List Module) (s : PState) (a : PAct) (hq : ∀ b ∈ s.queue, b ≠ []) (h : EndedEmpty s) :
    EndedEmpty (s.step mods a) := by
  have key : ∀ (i : Nat) (v : Status), v ≠ .ended → .ended ∈ s.clients.set i v → Status.ended ∈ s.clients := by
    intro i v hv hm
    rcases List.mem_or_eq_of_mem_set hm with h | h
    · exact h
    · exact absurd h.symm hv
  cases a with
  | ask i =>
    simp only [PState.step]
    split
    · split
      · rename_i e; intro _; exact e
      · rename_i b q e
        have hb : b ≠ [] := hq b (by simp [e])
        simp only [hb, if_false]
        intro hm
        have := h (key i _ (by simp) hm)
        rw [this] at e; simp at e
    · exact h
  | run i =>
    simp only [PState.step]
    split
    · intro hm; exact h (key i _ (by simp) hm)
    · intro hm; exact h (key i _ (by simp) hm)
    · exact h
  | die i =>
    simp only [PState.step]
    split
    · intro hm; exact h (key i _ (by simp) hm)
    · intro hm; exact h (key i _ (by simp) hm)
    · exact h

theorem steps_inv (mods : List Module) (as : List PAct) (s : PState) (hq : ∀ b ∈ s.queue, b ≠ []) (h : EndedEmpty s) :
    EndedEmpty (s.steps mods as) ∧ ∀ x, total mods (s.steps mods as) x = total mods s x := by
  induction as generalizing s with
  | nil => exact ⟨h, fun _ => rfl⟩
  | cons a as ih =>
    have hq' : ∀ b ∈ (s.step mods a).queue, b ≠ [] := fun b hb => hq b (queue_step mods s a b hb)
    obtain ⟨h1, h2⟩ := ih (s.step mods a) hq' (endedEmpty_step mods s a hq h)
    exact ⟨h1, fun x => by rw [PState.steps, List.foldl_cons]; exact (h2 x).trans (total_step mods s a x hq)⟩

theorem init_left (n : Nat) : (List.replicate n Status.asking).flatMap Status.left = [] := by
  induction n with
  | zero => rfl
  | succ n ih => simp [List.replicate_succ, Status.left]

theorem expand_perm (mods : List Module) (tidy : Tidy mods) (els : List (List Case)) (nd : els.flatten.Nodup)
    (hb : ∀ c ∈ els.flatten, TestOf mods c) :
    (expand mods (els.map fun b => b.map testName)).Perm els.flatten := by
  induction els with
  | nil => exact .refl _
  | cons b els ih =>
    simp only [List.flatten_cons] at nd hb
    rw [List.nodup_append] at nd
    simp only [expand, List.map_cons, List.flatMap_cons, List.flatten_cons]
    exact (c76_batch mods tidy b nd.1 (fun c h => hb c (by simp [h]))).append
      (ih nd.2.1 (fun c h => hb c (List.mem_append.2 (.inr h))))

theorem plan_some {debugging : Bool} {jobs : Nat} {split : Split} {ts : List Tree} {n : Nat} {q : List (List Str)}
    (hp : plan debugging jobs split ts = some (n, q)) :
    q = (elements split ts).map (fun b => b.map testName) ∧ 2 ≤ n := by
  unfold plan at hp
  by_cases hd : debugging = true
  · simp [hd] at hp
  · rw [if_neg hd] at hp
    simp at hp
    exact ⟨hp.2.2.symm, hp.2.1 ▸ hp.1⟩

/-- What is asked of a run: the tests collected are different tests of tidy modules. -/
structure Ready (mods : List Module) (ts : List Tree) : Prop where
  tidy : Tidy mods
  nodup : (flattenList ts).Nodup
  ofMods : ∀ c ∈ flattenList ts, TestOf mods c

/-- What the runner collects from tidy modules is so. -/
theorem ready_collect (fm : Str → Str → Bool) (cfg : Config) (mods : List Module) (tidy : Tidy mods) :
    Ready mods (collect fm cfg mods) := by
  have e := c75_selected fm cfg mods (fun m hm k hk => ⟨(tidy.ident m hm k hk).1, fun a ha => ((tidy.ident m hm k hk).2.2 a ha).1⟩)
    tidy.noRunTest
  refine ⟨tidy, ?_, ?_⟩
  · rw [e]; exact wanted_nodup _ _ _ tidy.files tidy.classes tidy.attrs
  · rw [e]
    intro c hc
    simp only [wanted, List.mem_flatMap, List.mem_map, List.mem_filter, decide_eq_true_eq] at hc
    obtain ⟨m, hm, k, hk, a, ⟨ha, h1, _⟩, rfl⟩ := hc
    exact ⟨m, hm, rfl, rfl, k, hk, rfl, by rw [← h1]; exact ha⟩

theorem start_total {mods : List Module} {ts : List Tree} (r : Ready mods ts) {debugging : Bool} {jobs : Nat} {split : Split}
    {n : Nat} {q : List (List Str)} (hp : plan debugging jobs split ts = some (n, q)) (as : List PAct) :
    EndedEmpty ((PState.init n q).steps mods as) ∧
    ∀ x, total mods ((PState.init n q).steps mods as) x = (flattenList ts).count x := by
  have hq := (plan_some hp).1
  have hn := (plan_some hp).2
  have perm := elements_perm split ts
  have hne : ∀ b ∈ (PState.init n q).queue, b ≠ [] := by
    intro b hb
    simp only [PState.init, hq, List.mem_map] at hb
    obtain ⟨b', h1, rfl⟩ := hb
    simpa using elements_ne_nil split ts b' h1
  obtain ⟨h1, h2⟩ := steps_inv mods as (PState.init n q) hne (by intro h; simp [PState.init] at h)
  refine ⟨h1, fun x => ?_⟩
  rw [h2 x]
  have e := (expand_perm mods r.tidy (elements split ts) (perm.symm.nodup r.nodup)
    (fun c h => r.ofMods c (perm.mem_iff.1 h)))
  have := List.perm_iff_count.1 (e.trans perm) x
  simp only [total, PState.init, init_left, List.map_nil, List.count_nil, hq]
  omega

/-- **C76.** However the clients are scheduled, and whether or not some die: no test is run twice,
and no test is run which was not collected. -/
theorem c76_at_most_once {mods : List Module} {ts : List Tree} (r : Ready mods ts) {debugging : Bool} {jobs : Nat}
    {split : Split} {n : Nat} {q : List (List Str)} (hp : plan debugging jobs split ts = some (n, q)) (as : List PAct) :
    (((PState.init n q).steps mods as).ran.map (·.2)).Nodup ∧
    ∀ c ∈ ((PState.init n q).steps mods as).ran.map (·.2), c ∈ flattenList ts := by
  have h := (start_total r hp as).2
  have le : ∀ x, (((PState.init n q).steps mods as).ran.map (·.2)).count x ≤ (flattenList ts).count x := by
    intro x; have := h x; simp only [total] at this; omega
  refine ⟨?_, ?_⟩
  · rw [List.nodup_iff_count]
    intro x
    exact Nat.le_trans (le x) (List.nodup_iff_count.1 r.nodup x)
  · intro c hc
    have := List.count_pos_iff.2 hc
    exact List.count_pos_iff.1 (Nat.lt_of_lt_of_le this (le c))

/-- **C76.** When all clients have ended, every test collected was run, once. -/
theorem c76_all {mods : List Module} {ts : List Tree} (r : Ready mods ts) {debugging : Bool} {jobs : Nat}
    {split : Split} {n : Nat} {q : List (List Str)} (hp : plan debugging jobs split ts = some (n, q)) (as : List PAct)
    (over : ∀ x ∈ ((PState.init n q).steps mods as).clients, x = .ended) (alive : ∀ i, .die i ∉ as) :
    (((PState.init n q).steps mods as).ran.map (·.2)).Perm (flattenList ts) := by
  obtain ⟨he, h⟩ := start_total r hp as
  have lost : ((PState.init n q).steps mods as).lost = [] := by
    have : ∀ (as : List PAct) (s : PState), (∀ i, .die i ∉ as) → s.lost = [] → (s.steps mods as).lost = [] := by
      intro as
      induction as with
      | nil => intro s _ h; exact h
      | cons a as ih =>
        intro s hd h
        refine ih (s.step mods a) (fun i hi => hd i (by simp [hi])) ?_
        cases a with
        | ask i => simp only [PState.step]; split <;> (try split) <;> (try split) <;> exact h
        | run i => simp only [PState.step]; split <;> exact h
        | die i => exact absurd (List.mem_cons_self) (hd i)
    exact this as _ alive rfl
  have len : ((PState.init n q).steps mods as).clients.length = n := by
    have : ∀ (as : List PAct) (s : PState), (s.steps mods as).clients.length = s.clients.length := by
      intro as
      induction as with
      | nil => intro s; rfl
      | cons a as ih =>
        intro s
        refine (ih (s.step mods a)).trans ?_
        cases a <;> simp only [PState.step] <;> split <;> (try split) <;> (try split) <;> simp
    rw [this]; simp [PState.init]
  have hn := (plan_some hp).2
  have hempty : ((PState.init n q).steps mods as).queue = [] := by
    apply he
    cases hc : ((PState.init n q).steps mods as).clients with
    | nil => rw [hc] at len; simp at len; omega
    | cons x l => have := over x (by simp [hc]); subst this; simp
  have hleft : (((PState.init n q).steps mods as).clients.flatMap Status.left) = [] := by
    rw [List.flatMap_eq_nil_iff]; intro x hx; rw [over x hx]; rfl
  rw [List.perm_iff_count]
  intro x
  have := h x
  simp only [total, hempty, lost, hleft, expand, List.flatMap_nil, List.count_nil] at this
  omega

/-- **C76.** If clients died, but not all, the tests not run are those the dead ones held. -/
theorem c76_some_died {mods : List Module} {ts : List Tree} (r : Ready mods ts) {debugging : Bool} {jobs : Nat}
    {split : Split} {n : Nat} {q : List (List Str)} (hp : plan debugging jobs split ts = some (n, q)) (as : List PAct)
    (over : Over ((PState.init n q).steps mods as)) (one : .ended ∈ ((PState.init n q).steps mods as).clients) :
    (((PState.init n q).steps mods as).ran.map (·.2) ++ ((PState.init n q).steps mods as).lost).Perm (flattenList ts) := by
  obtain ⟨he, h⟩ := start_total r hp as
  have hleft : (((PState.init n q).steps mods as).clients.flatMap Status.left) = [] := by
    rw [List.flatMap_eq_nil_iff]; intro x hx; rcases over x hx with h | h <;> rw [h] <;> rfl
  rw [List.perm_iff_count]
  intro x
  have := h x
  simp only [total, he one, hleft, expand, List.flatMap_nil, List.count_nil, List.count_append] at this ⊢
  omega

/-! ### It comes to an end -/

/-- What a client has still to do, counted. -/
def Status.weight : Status → Nat
  | .asking => 1
  | .running l => l.length + 2
  | _ => 0

/-- What is still to be done, counted. -/
def PState.weight (mods : List Module) (s : PState) : Nat :=
  (s.queue.map fun b => (clientRun mods b).length + 2).sum + (s.clients.map Status.weight).sum

theorem sum_set (l : List Status) (i : Nat) (a b : Status) (h : l[i]? = some a) :
    ((l.set i b).map Status.weight).sum + a.weight = (l.map Status.weight).sum + b.weight := by
  induction l generalizing i with
  | nil => simp at h
  | cons y l ih =>
    cases i with
    | zero => simp at h; subst h; simp; omega
    | succ i => simp at h; have := ih i h; simp only [List.set_cons_succ, List.map_cons, List.sum_cons]; omega

/-- **C76.** The run cannot hang or go on for ever: as long as a client has neither ended nor died
some step of it is possible, and each step which does something leaves less to do. -/
theorem c76_ends (mods : List Module) (s : PState) :
    (¬ Over s → ∃ a, (∀ i, a ≠ .die i) ∧ (s.step mods a).weight mods < s.weight mods) ∧
    (∀ a, s.step mods a = s ∨ (s.step mods a).weight mods < s.weight mods) := by
  have step : ∀ a, s.step mods a = s ∨ (s.step mods a).weight mods < s.weight mods := by
    intro a
    cases a with
    | ask i =>
      simp only [PState.step]
      split
      · rename_i hi
        right
        split
        · rename_i e; have := sum_set s.clients i _ .ended hi; simp [PState.weight, Status.weight, e] at *; omega
        · rename_i b q e
          by_cases hb : b = []
          · have := sum_set s.clients i _ .ended hi; simp [hb, PState.weight, Status.weight, e] at *; omega
          · have := sum_set s.clients i _ (.running (clientRun mods b)) hi
            simp [hb, PState.weight, Status.weight, e] at *; omega
      · exact .inl rfl
    | run i =>
      simp only [PState.step]
      split
      · rename_i hi; right; have := sum_set s.clients i _ .asking hi; simp [PState.weight, Status.weight] at *; omega
      · rename_i t l hi; right; have := sum_set s.clients i _ (.running l) hi; simp [PState.weight, Status.weight] at *; omega
      · exact .inl rfl
    | die i =>
      simp only [PState.step]
      split
      · rename_i l hi; right; have := sum_set s.clients i _ .dead hi; simp [PState.weight, Status.weight] at *; omega
      · rename_i hi; right; have := sum_set s.clients i _ .dead hi; simp [PState.weight, Status.weight] at *; omega
      · exact .inl rfl
  refine ⟨fun h => ?_, step⟩
  simp only [Over, Classical.not_forall] at h
  obtain ⟨x, hx, hne⟩ := h
  obtain ⟨i, hi, hix⟩ := List.getElem_of_mem hx
  have e : s.clients[i]? = some x := by rw [List.getElem?_eq_getElem hi, hix]
  cases x with
  | ended => simp at hne
  | dead => simp at hne
  | asking =>
    refine ⟨.ask i, by simp, ?_⟩
    simp only [PState.step, e]
    split
    · rename_i e'; have := sum_set s.clients i _ .ended e; simp [PState.weight, Status.weight, e'] at *; omega
    · rename_i b q e'
      by_cases hb : b = []
      · have := sum_set s.clients i _ .ended e; simp [hb, PState.weight, Status.weight, e'] at *; omega
      · have := sum_set s.clients i _ (.running (clientRun mods b)) e
        simp [hb, PState.weight, Status.weight, e'] at *; omega
  | running l =>
    refine ⟨.run i, by simp, ?_⟩
    cases l with
    | nil => simp only [PState.step, e]; have := sum_set s.clients i _ .asking e; simp [PState.weight, Status.weight] at *; omega
    | cons t l => simp only [PState.step, e]; have := sum_set s.clients i _ (.running l) e; simp [PState.weight, Status.weight] at *; omega

/-! ### A module is not split -/

/-- The tests of a file are with one client: `R` says which batches hold tests of the file. -/
structure Alone (mods : List Module) (file : Str) (s : PState) : Prop where
  /-- at most one batch, queued or given, has tests of the file -/
  one : ((s.given.map (·.2) ++ s.queue).filter fun b => (clientRun mods b).any (·.file == file)).length ≤ 1
  ran : ∀ e ∈ s.ran, ∃ b, (e.1, b) ∈ s.given ∧ e.2 ∈ clientRun mods b
  left : ∀ i l, s.clients[i]? = some (.running l) → ∃ b, (i, b) ∈ s.given ∧ ∀ t ∈ l, t ∈ clientRun mods b

theorem alone_step (mods : List Module) (file : Str) (s : PState) (a : PAct) (h : Alone mods file s) :
    Alone mods file (s.step mods a) := by
  have keep : ∀ (i : Nat) (v : Status) (g : List (Nat × List Str)), (∀ e ∈ s.given, e ∈ g) →
      (∀ l, v = .running l → ∃ b, (i, b) ∈ g ∧ ∀ t ∈ l, t ∈ clientRun mods b) →
      ∀ j l, (s.clients.set i v)[j]? = some (.running l) → ∃ b, (j, b) ∈ g ∧ ∀ t ∈ l, t ∈ clientRun mods b := by
    intro i v g hg hv j l hj
    rw [List.getElem?_set] at hj
    by_cases e : i = j
    · subst e
      rw [if_pos rfl] at hj
      split at hj
      · simp at hj; exact hv l hj
      · simp at hj
    · rw [if_neg e] at hj
      obtain ⟨b, h1, h2⟩ := h.left j l hj
      exact ⟨b, hg _ h1, h2⟩
  cases a with
  | ask i =>
    simp only [PState.step]
    split
    · split
      · exact ⟨h.one, h.ran, keep i .ended _ (fun _ h => h) (by simp)⟩
      · rename_i b q e
        by_cases hb : b = []
        · simp only [hb, if_true]
          refine ⟨?_, h.ran, keep i .ended _ (fun _ h => h) (by simp)⟩
          have := h.one
          rw [e] at this
          refine Nat.le_trans (List.Sublist.length_le ?_) this
          exact List.Sublist.filter _ (List.Sublist.append (List.Sublist.refl _) (List.sublist_cons_self b q))
        · simp only [hb, if_false]
          refine ⟨?_, ?_, keep i _ _ (fun e h => by simp [h]) ?_⟩
          · have := h.one
            rw [e] at this
            simpa using this
          · intro e he
            obtain ⟨b', h1, h2⟩ := h.ran e he
            exact ⟨b', by simp [h1], h2⟩
          · intro l hl
            simp at hl; subst hl
            exact ⟨b, by simp, fun t h => h⟩
    · exact h
  | run i =>
    simp only [PState.step]
    split
    · exact ⟨h.one, h.ran, keep i .asking _ (fun _ h => h) (by simp)⟩
    · rename_i t l hi
      obtain ⟨b, hb, ht⟩ := h.left i _ hi
      refine ⟨h.one, ?_, keep i _ _ (fun _ h => h) ?_⟩
      · intro e he
        rcases List.mem_append.1 he with he | he
        · exact h.ran e he
        · simp at he; subst he; exact ⟨b, hb, ht t (by simp)⟩
      · intro l' hl; simp at hl; subst hl; exact ⟨b, hb, fun x hx => ht x (by simp [hx])⟩
    · exact h
  | die i =>
    simp only [PState.step]
    split
    · exact ⟨h.one, h.ran, keep i .dead _ (fun _ h => h) (by simp)⟩
    · exact ⟨h.one, h.ran, keep i .dead _ (fun _ h => h) (by simp)⟩
    · exact h

theorem length_le_one_of_unique {α : Type} (l : List α) (p : α → Bool) (h : (l.filter p).length ≤ 1)
    (i j : Nat) (a b : α) (ha : l[i]? = some a) (hb : l[j]? = some b) (pa : p a = true) (pb : p b = true) : i = j := by
  induction l generalizing i j with
  | nil => simp at ha
  | cons x l ih =>
    have mem : ∀ (k : Nat) (c : α), l[k]? = some c → p c = true → 0 < (l.filter p).length := by
      intro k c hk hc
      exact List.length_pos_of_mem (List.mem_filter.2 ⟨List.mem_of_getElem? hk, hc⟩)
    cases i with
    | zero =>
      cases j with
      | zero => rfl
      | succ j =>
        simp at ha hb; subst ha
        have := mem j b hb pb
        simp [pa] at h; grind
    | succ i =>
      cases j with
      | zero =>
        simp at ha hb; subst hb
        have := mem i a ha pa
        simp [pb] at h; grind
      | succ j =>
        simp at ha hb
        have : (l.filter p).length ≤ 1 := Nat.le_trans (by simp [List.filter_cons]; split <;> simp) h
        exact congrArg (· + 1) (ih this i j ha hb)

/-- **C76.** Split by modules, all tests of a file are run by one client. -/
theorem c76_module {mods : List Module} {ts : List Tree} (r : Ready mods ts) {debugging : Bool} {jobs : Nat}
    {n : Nat} {q : List (List Str)} (hp : plan debugging jobs .module_ ts = some (n, q)) (as : List PAct)
    (i j : Nat) (c d : Case) (hc : (i, c) ∈ ((PState.init n q).steps mods as).ran)
    (hd : (j, d) ∈ ((PState.init n q).steps mods as).ran) (e : c.file = d.file) : i = j := by
  have hq := (plan_some hp).1
  have perm := elements_perm .module_ ts
  have hnd := perm.symm.nodup r.nodup
  -- the file of a case decides its module
  have fileMod : ∀ c ∈ flattenList ts, ∀ d ∈ flattenList ts, c.file = d.file → c.mod = d.mod := by
    intro c hc d hd e
    obtain ⟨m, hm, e1, e2, _⟩ := r.ofMods c hc
    obtain ⟨m', hm', e1', e2', _⟩ := r.ofMods d hd
    have := nodup_unique (·.file) mods r.tidy.files hm hm' (by simp [← e1, ← e1', e])
    rw [e2, e2', this]
  have start : Alone mods c.file (PState.init n q) := by
    refine ⟨?_, by simp [PState.init], ?_⟩
    · simp only [PState.init, List.map_nil, List.nil_append, hq, List.filter_map, List.length_map, elements]
      have hg := grouped ts
      have hmem : ∀ e ∈ (flattenList ts).foldl addToModule [], ∀ x ∈ e.2, x ∈ flattenList ts := by
        intro e he x hx
        have : x ∈ (elements .module_ ts).flatten := List.mem_flatten.2 ⟨e.2, List.mem_map.2 ⟨e, he, rfl⟩, hx⟩
        exact perm.mem_iff.1 this
      have hsub : ∀ e ∈ (flattenList ts).foldl addToModule [], (clientRun mods (e.2.map testName)).Perm e.2 := by
        intro e he
        refine c76_batch mods r.tidy e.2 ?_ (fun x hx => r.ofMods x (hmem e he x hx))
        have : e.2 ∈ elements .module_ ts := List.mem_map.2 ⟨e, he, rfl⟩
        exact (List.sublist_flatten_of_mem this).nodup hnd
      generalize (flattenList ts).foldl addToModule [] = D at hg hmem hsub
      obtain ⟨hok, hg⟩ := hg
      -- two entries with tests of the file have the same key
      have uniq : ∀ a ∈ D, ∀ b ∈ D, (clientRun mods (a.2.map testName)).any (·.file == c.file) = true →
          (clientRun mods (b.2.map testName)).any (·.file == c.file) = true → a.1 = b.1 := by
        intro a ha b hb pa pb
        simp only [List.any_eq_true, beq_iff_eq] at pa pb
        obtain ⟨x, hx, ex⟩ := pa
        obtain ⟨y, hy, ey⟩ := pb
        have hx := (hsub a ha).mem_iff.1 hx
        have hy := (hsub b hb).mem_iff.1 hy
        have h1 := (hg a ha).2 x hx
        have h2 := (hg b hb).2 y hy
        rw [← h1, ← h2, ex, ey, fileMod x (hmem a ha x hx) y (hmem b hb y hy) (by rw [ex, ey])]
      clear hsub hmem hg
      simp only [Py.Dict.Ok] at hok
      generalize hf : (fun e : (Str × Str) × List Case => (clientRun mods (e.2.map testName)).any (·.file == c.file)) = p
      have : ∀ a ∈ D, ∀ b ∈ D, p a = true → p b = true → a.1 = b.1 := by subst hf; exact uniq
      have goal : (D.filter p).length ≤ 1 := by
        clear uniq
        induction D with
        | nil => simp
        | cons a D ih =>
          rw [List.map_cons, List.nodup_cons] at hok
          have ih := ih hok.2 (fun x hx y hy => this x (by simp [hx]) y (by simp [hy]))
          by_cases pa : p a
          · have : D.filter p = [] := by
              rw [List.filter_eq_nil_iff]
              intro b hb pb
              have := this a (by simp) b (by simp [hb]) pa pb
              exact hok.1 (List.mem_map.2 ⟨b, hb, this.symm⟩)
            simp [pa, this]
          · simp [pa]; exact ih
      subst hf
      simpa [Function.comp_def] using goal
    · intro k l hl
      simp only [PState.init] at hl
      have := List.mem_of_getElem? hl
      simp at this
  have final : Alone mods c.file ((PState.init n q).steps mods as) := by
    have : ∀ (as : List PAct) (s : PState), Alone mods c.file s → Alone mods c.file (s.steps mods as) := by
      intro as
      induction as with
      | nil => intro s h; exact h
      | cons a as ih => intro s h; exact ih _ (alone_step mods _ s a h)
    exact this as _ start
  obtain ⟨b1, g1, m1⟩ := final.ran _ hc
  obtain ⟨b2, g2, m2⟩ := final.ran _ hd
  obtain ⟨k1, l1, e1⟩ := List.getElem_of_mem g1
  obtain ⟨k2, l2, e2⟩ := List.getElem_of_mem g2
  have hone : ((((PState.init n q).steps mods as).given.map (·.2)).filter fun b => (clientRun mods b).any (·.file == c.file)).length ≤ 1 := by
    refine Nat.le_trans (List.Sublist.length_le ?_) final.one
    exact List.Sublist.filter _ (List.sublist_append_left _ _)
  have := length_le_one_of_unique _ _ hone k1 k2 b1 b2 (by simp [List.getElem?_eq_getElem l1, e1])
    (by simp [List.getElem?_eq_getElem l2, e2])
    (List.any_eq_true.2 ⟨c, m1, by simp⟩) (List.any_eq_true.2 ⟨d, m2, by simp [e]⟩)
  subst this
  rw [e1] at e2
  simpa using congrArg Prod.fst e2

/-! ## When it is done in parallel -/

/-- **C76.** The tests are left to one process when the run is debugged, or fewer than two jobs are
asked for or of use; otherwise no more jobs are started than were asked for or there are batches. -/
theorem c76_plan (debugging : Bool) (jobs : Nat) (split : Split) (ts : List Tree) :
    (plan debugging jobs split ts = none ↔ debugging = true ∨ jobs < 2 ∨ (elements split ts).length < 2) ∧
    (∀ n q, plan debugging jobs split ts = some (n, q) → 2 ≤ n ∧ n ≤ jobs ∧ n ≤ q.length) := by
  constructor
  · simp only [plan]
    cases debugging <;> simp
    by_cases h : (elements split ts).length < jobs <;> simp [h] <;> omega
  · intro n q h
    obtain ⟨h1, h2⟩ := plan_some h
    refine ⟨h2, ?_⟩
    cases debugging <;> simp [plan] at h
    obtain ⟨_, h, _⟩ := h
    rw [h1, List.length_map]
    split at h <;> omega

/-- Two files, one with two tests. -/
def exPar : List Module :=
  [⟨"a.py".toList, "a".toList, [⟨"A".toList, [("test_1".toList, true), ("test_2".toList, true)]⟩]⟩,
   ⟨"b.py".toList, "b".toList, [⟨"A".toList, [("test_1".toList, true)]⟩]⟩]

/-- A run which meets the hypotheses: two clients, by modules. -/
theorem c76_example :
    Tidy exPar ∧
    plan false 3 .module_ (collect (fun _ _ => false) ⟨[], [], [], []⟩ exPar) =
      some (2, [["a.py|A.test_1".toList, "a.py|A.test_2".toList], ["b.py|A.test_1".toList]]) ∧
    (((PState.init 2 [["a.py|A.test_1".toList, "a.py|A.test_2".toList], ["b.py|A.test_1".toList]]).steps exPar
      [.ask 1, .ask 0, .run 1, .run 0, .run 1, .run 0, .run 1, .ask 0, .ask 1]).ran.map fun e => (e.1, testName e.2)) =
      [(1, "a.py|A.test_1".toList), (0, "b.py|A.test_1".toList), (1, "a.py|A.test_2".toList)] := by
  refine ⟨⟨?_, ?_, ?_, ?_, ?_, ?_⟩, ?_, ?_⟩ <;> decide +kernel

/-- A class bound to two names of its module is collected twice, and in parallel each of the two is
run twice. -/
theorem c76_alias_witness :
    let m : Module := ⟨"a.py".toList, "a".toList, [⟨"A".toList, [("test_1".toList, true)]⟩, ⟨"A".toList, [("test_1".toList, true)]⟩]⟩
    plan false 2 .tests (collect (fun _ _ => false) ⟨[], [], [], []⟩ [m]) =
      some (2, [["a.py|A.test_1".toList], ["a.py|A.test_1".toList]]) ∧
    ((PState.init 2 [["a.py|A.test_1".toList], ["a.py|A.test_1".toList]]).steps [m]
      [.ask 0, .ask 1, .run 0, .run 0, .run 1, .run 1]).ran.length = 4 := by
  decide +kernel

/-- The tests of a file with `|` in its name are silently not run. -/
theorem c76_bar_witness :
    let m : Module := ⟨"a|b.py".toList, "b".toList, [⟨"A".toList, [("test_1".toList, true), ("test_2".toList, true)]⟩]⟩
    plan false 2 .tests (collect (fun _ _ => false) ⟨[], [], [], []⟩ [m]) =
      some (2, [["a|b.py|A.test_1".toList], ["a|b.py|A.test_2".toList]]) ∧
    clientRun [m] ["a|b.py|A.test_1".toList] = [] ∧ clientRun [m] ["a|b.py|A.test_2".toList] = [] := by
  decide +kernel

end RunTests
