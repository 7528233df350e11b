import Verif.Pytest.Model
/-!
C118: with pytest, the tests asked for are run, and the result of each is told.
-/

namespace Pytest
open Py

/-! ### Specification -/

/-- A name given for a file names a test: its own name, its name without parameters, either of these after the name of its class, or its class. -/
inductive Names (item : Item) : Str → Prop where
  | whole : Names item item.name
  | plain {b p : Str} : item.name = b ++ '[' :: p → '[' ∉ b → b ≠ [] → Names item b
  | inClass {c : Str} : item.cls = some c → Names item (c ++ '.' :: item.name)
  | plainInClass {c b p : Str} : item.cls = some c → item.name = b ++ '[' :: p → '[' ∉ b → b ≠ [] → Names item (c ++ '.' :: b)
  | cls {c : Str} : item.cls = some c → Names item c

/-- The paths a file given stands for. -/
def Denotes (canon resolve : Str → Str) (f p : Str) : Prop :=
  p = f ∨ p = canon f ∨ p = canon (resolve f) ∨ p = canon (resolve (canon f))

/-- A test was asked for. -/
def Asked (canon resolve : Str → Str) (given : List (Str × List Str)) (item : Item) : Prop :=
  ∃ f tests, (f, tests) ∈ given ∧ Denotes canon resolve f (canon item.path) ∧ ∃ t ∈ tests, Names item t

/-- No path is meant by two files with different tests. -/
def Apart (canon resolve : Str → Str) (given : List (Str × List Str)) : Prop :=
  ∀ f t g t' p, (f, t) ∈ given → (g, t') ∈ given → Denotes canon resolve f p → Denotes canon resolve g p → t = t'

/-! ### Which tests run -/

theorem base_some {n b : Str} : base n = some b ↔ ∃ p, n = b ++ '[' :: p ∧ '[' ∉ b ∧ b ≠ [] := by
  unfold base
  constructor
  · intro h
    split at h
    · rename_i i hi
      split at h
      · rename_i hpos
        cases h
        obtain ⟨hlt, hp, hall⟩ := List.findIdx?_eq_some_iff_getElem.mp hi
        refine ⟨n.drop (i + 1), ?_, ?_, ?_⟩
        · have hc : n[i] = '[' := by simpa using hp
          rw [← hc, ← List.drop_eq_getElem_cons hlt, List.take_append_drop]
        · intro hm
          obtain ⟨j, hj, hjc⟩ := List.getElem_of_mem hm
          have hji : j < i := by rw [List.length_take] at hj; omega
          have := hall j hji
          rw [List.getElem_take] at hjc
          rw [hjc] at this
          exact this rfl
        · intro h0
          have := congrArg List.length h0
          rw [List.length_take, List.length_nil] at this
          omega
      · cases h
    · cases h
  · rintro ⟨p, rfl, hno, hne⟩
    have : (b ++ '[' :: p).findIdx? (· == '[') = some b.length := by
      rw [List.findIdx?_eq_some_iff_getElem]
      refine ⟨by simp, by simp, ?_⟩
      intro j hj
      rw [List.getElem_append_left hj]
      intro h
      have h : b[j] = '[' := by simpa using h
      exact hno (h ▸ List.getElem_mem hj)
    rw [this]
    dsimp only
    rw [if_pos (List.length_pos_iff.mpr hne), List.take_left]

theorem fits_iff (item : Item) (t : Str) : fits item t = true ↔ Names item t := by
  have hb := fun b => @base_some item.name b
  have hchar : fits item t = true ↔ t = item.name ∨ base item.name = some t ∨ ∃ c, item.cls = some c ∧
      (t = c ++ '.' :: item.name ∨ (∃ b, base item.name = some b ∧ t = c ++ '.' :: b) ∨ t = c) := by
    unfold fits
    cases base item.name <;> cases item.cls <;> simp <;> grind
  rw [hchar]
  constructor
  · rintro (h | h | ⟨c, hc, h | ⟨b, h, h'⟩ | h⟩)
    · rw [h]; exact .whole
    · obtain ⟨p, h3, h4, h5⟩ := base_some.mp h; exact .plain h3 h4 h5
    · rw [h]; exact .inClass hc
    · obtain ⟨p, h3, h4, h5⟩ := base_some.mp h; rw [h']; exact .plainInClass hc h3 h4 h5
    · rw [h]; exact .cls hc
  · intro h
    cases h with
    | whole => exact .inl rfl
    | plain h1 h2 h3 => exact .inr (.inl (base_some.mpr ⟨_, h1, h2, h3⟩))
    | inClass hc => exact .inr (.inr ⟨_, hc, .inl rfl⟩)
    | plainInClass hc h1 h2 h3 => exact .inr (.inr ⟨_, hc, .inr (.inl ⟨_, base_some.mpr ⟨_, h1, h2, h3⟩, rfl⟩)⟩)
    | cls hc => exact .inr (.inr ⟨_, hc, .inr (.inr rfl)⟩)

theorem mem_set {d : Filter} {k : Str} {v : List Str} {e : Str × List Str} (h : e ∈ Dict.set d k v) : e = (k, v) ∨ e ∈ d := by
  induction d with
  | nil => rw [Dict.set, List.mem_singleton] at h; exact .inl h
  | cons x d ih =>
    obtain ⟨a, w⟩ := x
    rw [Dict.set] at h
    split at h
    · rcases List.mem_cons.mp h with h | h
      · rename_i hk; rw [h]; exact .inl (by simp)
      · exact .inr (List.mem_cons_of_mem _ h)
    · rcases List.mem_cons.mp h with h | h
      · exact .inr (h ▸ List.mem_cons_self ..)
      · rcases ih h with h | h
        · exact .inl h
        · exact .inr (List.mem_cons_of_mem _ h)

theorem mem_update {d l : Filter} {e : Str × List Str} (h : e ∈ update d l) : e ∈ l ∨ e ∈ d := by
  induction l generalizing d with
  | nil => exact .inr h
  | cons x l ih =>
    rcases ih (d := Dict.set d x.1 x.2) h with h | h
    · exact .inl (List.mem_cons_of_mem _ h)
    · rcases mem_set h with h | h
      · exact .inl (by rw [h]; exact List.mem_cons_self ..)
      · exact .inr h

theorem has_set {d : Filter} {k a : Str} {v : List Str} (h : a = k ∨ (Dict.get d a).isSome) : (Dict.get (Dict.set d k v) a).isSome := by
  rw [Dict.get_set]
  split
  · rfl
  · rename_i hne
    rcases h with h | h
    · exact absurd h hne
    · exact h

theorem has_update {d l : Filter} {a : Str} (h : (∃ v, (a, v) ∈ l) ∨ (Dict.get d a).isSome) : (Dict.get (update d l) a).isSome := by
  induction l generalizing d with
  | nil =>
    rcases h with ⟨_, h⟩ | h
    · cases h
    · exact h
  | cons x l ih =>
    refine ih (d := Dict.set d x.1 x.2) ?_
    rcases h with ⟨v, h⟩ | h
    · rcases List.mem_cons.mp h with h | h
      · subst h; exact .inr (has_set (.inl rfl))
      · exact .inl ⟨v, h⟩
    · exact .inr (has_set (.inr h))

theorem build_eq (canon : Str → Str) (given : List (Str × List Str)) :
    build canon given = update [] (given.flatMap fun e => [(e.1, e.2), (canon e.1, e.2)]) := by
  unfold build update
  have key : ∀ d : Filter, given.foldl (fun d e => Dict.set (Dict.set d e.1 e.2) (canon e.1) e.2) d =
      (given.flatMap fun e => [(e.1, e.2), (canon e.1, e.2)]).foldl (fun d e => Dict.set d e.1 e.2) d := by
    induction given with
    | nil => intro d; rfl
    | cons e l ih => intro d; rw [List.foldl_cons, ih]; rfl
  exact key []

theorem load_mem {canon resolve : Str → Str} {given : List (Str × List Str)} {p : Str} {tests : List Str}
    (h : (p, tests) ∈ load canon resolve (build canon given)) : ∃ f, (f, tests) ∈ given ∧ Denotes canon resolve f p := by
  have hb : ∀ q, (q, tests) ∈ build canon given → ∃ f, (f, tests) ∈ given ∧ (q = f ∨ q = canon f) := by
    intro q hq
    rw [build_eq] at hq
    rcases mem_update hq with hq | hq
    · obtain ⟨e, he, hq⟩ := List.mem_flatMap.mp hq
      rcases List.mem_cons.mp hq with hq | hq
      · cases hq; exact ⟨_, he, .inl rfl⟩
      · cases List.mem_singleton.mp hq; exact ⟨_, he, .inr rfl⟩
    · cases hq
  unfold Denotes
  rcases mem_update h with h | h
  · rcases mem_update h with h | h
    · obtain ⟨⟨q, t⟩, hq, he⟩ := List.mem_map.mp h
      cases he
      obtain ⟨f, hf, rfl | rfl⟩ := hb q hq
      · exact ⟨_, hf, by simp⟩
      · exact ⟨_, hf, by simp⟩
    · cases h
  · obtain ⟨f, hf, h⟩ := hb p h
    rcases h with h | h
    · exact ⟨f, hf, .inl h⟩
    · exact ⟨f, hf, .inr (.inl h)⟩

theorem load_has {canon resolve : Str → Str} {given : List (Str × List Str)} {f p : Str} {tests : List Str}
    (hf : (f, tests) ∈ given) (hp : Denotes canon resolve f p) : (Dict.get (load canon resolve (build canon given)) p).isSome := by
  have hb : ∀ q, (q = f ∨ q = canon f) → (Dict.get (build canon given) q).isSome := by
    intro q hq
    rw [build_eq]
    refine has_update (.inl ⟨tests, List.mem_flatMap.mpr ⟨_, hf, ?_⟩⟩)
    rcases hq with rfl | rfl <;> simp
  have h2 : ∀ q, (q = f ∨ q = canon f) → (Dict.get (load canon resolve (build canon given)) (canon (resolve q))).isSome := by
    intro q hq
    obtain ⟨v, hv⟩ := Option.isSome_iff_exists.mp (hb q hq)
    have hin : (Dict.get (update [] ((build canon given).map fun e => (canon (resolve e.1), e.2))) (canon (resolve q))).isSome :=
      has_update (.inl ⟨v, List.mem_map.mpr ⟨_, Dict.mem_of_get hv, rfl⟩⟩)
    obtain ⟨w, hw⟩ := Option.isSome_iff_exists.mp hin
    exact has_update (.inl ⟨w, Dict.mem_of_get hw⟩)
  rcases hp with h | h | h | h
  · rw [h]; exact has_update (.inr (hb _ (.inl rfl)))
  · rw [h]; exact has_update (.inr (hb _ (.inr rfl)))
  · rw [h]; exact h2 _ (.inl rfl)
  · rw [h]; exact h2 _ (.inr rfl)

/-- **C118**: the tests run are those asked for, in the order they were collected, each as often as it was. -/
theorem c118_run {canon resolve : Str → Str} {given : List (Str × List Str)} (hne : given ≠ []) (ap : Apart canon resolve given) (items : List Item) :
    ∃ p : Item → Bool, (∀ item, p item = true ↔ Asked canon resolve given item) ∧
      modifyItems canon (load canon resolve (build canon given)) items = items.filter p := by
  refine ⟨fun item => match Dict.get (load canon resolve (build canon given)) (canon item.path) with
    | none => false
    | some tests => tests.any (fits item), ?_, ?_⟩
  · intro item
    unfold Asked
    dsimp only
    constructor
    · intro h
      split at h
      · cases h
      · rename_i tests hg
        obtain ⟨f, hf, hd⟩ := load_mem (Dict.mem_of_get hg)
        obtain ⟨t, ht, hfit⟩ := List.any_eq_true.mp h
        exact ⟨f, tests, hf, hd, t, ht, (fits_iff item t).mp hfit⟩
    · rintro ⟨f, tests, hf, hd, t, ht, hn⟩
      obtain ⟨tests', hg⟩ := Option.isSome_iff_exists.mp (load_has hf hd)
      obtain ⟨g, hgm, hgd⟩ := load_mem (Dict.mem_of_get hg)
      have : tests = tests' := ap f tests g tests' _ hf hgm hd hgd
      subst this
      rw [hg]
      dsimp only
      rw [List.any_eq_true]
      exact ⟨t, ht, (fits_iff item t).mpr hn⟩
  · unfold modifyItems
    have hnot : ¬ (load canon resolve (build canon given)).isEmpty = true := ?_
    · rw [if_neg hnot]
      congr 1
    intro h
    obtain ⟨⟨f, tests⟩, hf⟩ := List.exists_mem_of_ne_nil _ hne
    have := load_has (canon := canon) (resolve := resolve) hf (.inl rfl)
    rw [List.isEmpty_iff.mp h] at this
    cases this

/-- **C118**: where no tests are named, all that were collected run. -/
theorem c118_all (canon resolve : Str → Str) (items : List Item) : modifyItems canon (load canon resolve (build canon [])) items = items := rfl

/-! ### What is told -/

/-- A test as pytest runs it: its set-up, then the call if the set-up passed, then the end. -/
structure Ran where
  setup : Report
  call : Report
  teardown : Report

def Ran.Ok (t : Ran) : Prop :=
  t.setup.when_ = .setup ∧ t.call.when_ = .call ∧ t.teardown.when_ = .teardown ∧
  t.call.test = t.setup.test ∧ t.teardown.test = t.setup.test

def Ran.reports (t : Ran) : List Report :=
  if t.setup.outcome = .passed then [t.setup, t.call, t.teardown] else [t.setup, t.teardown]

/-- What a report means for the user: an expected failure that did not fail counts as passed. -/
def Good (r : Report) : Prop := r.outcome = .passed ∨ (r.wasxfail = true ∧ r.outcome = .failed)
def Bad (r : Report) : Prop := r.outcome = .failed ∧ r.wasxfail = false

theorem outcome_cases (r : Report) : (Good r ∧ outcomeOf r = .passed) ∨ (r.outcome = .skipped ∧ outcomeOf r = .skipped) ∨
    (Bad r ∧ outcomeOf r = .failed) := by
  unfold Good Bad outcomeOf
  cases r.wasxfail <;> cases r.outcome <;> simp

/-- **C118**: of one report: a part that passed is told as `ok`, once, with the call; a skip as `skip`; a failure of the call as `fail` and one of the
set-up or the end as `error`. -/
theorem c118_status (r : Report) :
    (Good r → (logreport false r).map (·.status) = if r.when_ = .call then some .ok else none) ∧
    (r.outcome = .skipped → (logreport false r).map (·.status) = some .skip) ∧
    (Bad r → (logreport false r).map (·.status) = some (if r.when_ = .call then .fail else .error)) ∧
    ∀ x, logreport false r = some x → x.test = r.test := by
  have hl : (logreport false r).map (·.status) = status r := by
    unfold logreport
    cases hs : status r <;> rfl
  refine ⟨?_, ?_, ?_, ?_⟩
  · intro h
    rw [hl]
    rcases outcome_cases r with ⟨_, ho⟩ | ⟨ho, _⟩ | ⟨ho, _⟩
    · unfold status; rw [ho]; cases r.when_ <;> simp
    · unfold Good at h; rw [ho] at h; simp at h
    · unfold Good at h; rw [ho.1, ho.2] at h; simp at h
  · intro h
    rw [hl]
    unfold status outcomeOf
    simp [h]
  · intro h
    rw [hl]
    unfold status outcomeOf
    rw [h.1, h.2]
    cases r.when_ <;> simp
  · intro x hx
    unfold logreport at hx
    rw [if_neg (by decide)] at hx
    split at hx
    · cases hx
    · cases hx; rfl

/-- **C118**: of each test something is told, of that test, and first what became of it: `ok` only where its set-up and its call passed, `fail` only where
its call failed, `error` only where its set-up failed, `skip` only where one of these was skipped. More is only told where its end did not pass.
(Proviso: a set-up that does not pass is not taken as passed: it has no mark of an expected failure.) -/
theorem c118_told {t : Ran} (ok : t.Ok) (hx : t.setup.outcome ≠ .passed → t.setup.wasxfail = true → t.setup.outcome = .skipped) :
    ∃ first rest, t.reports.filterMap (logreport false) = first :: rest ∧
      (∀ x ∈ first :: rest, x.test = t.setup.test) ∧
      (first.status = .ok → t.setup.outcome = .passed ∧ Good t.call) ∧
      (first.status = .fail → t.setup.outcome = .passed ∧ Bad t.call) ∧
      (first.status = .error → Bad t.setup) ∧
      (first.status = .skip → t.setup.outcome = .skipped ∨ t.call.outcome = .skipped) ∧
      (rest ≠ [] → ¬ Good t.teardown) := by
  obtain ⟨hw1, hw2, hw3, ht2, ht3⟩ := ok
  obtain ⟨a1, a2, a3, a4⟩ := c118_status t.setup
  obtain ⟨b1, b2, b3, b4⟩ := c118_status t.call
  obtain ⟨c1, c2, c3, c4⟩ := c118_status t.teardown
  rw [hw1] at a1 a3
  rw [hw2] at b1 b3
  rw [hw3] at c1 c3
  -- what the end adds
  have hend : ∃ rest, [t.teardown].filterMap (logreport false) = rest ∧ (∀ x ∈ rest, x.test = t.setup.test) ∧ (rest ≠ [] → ¬ Good t.teardown) := by
    refine ⟨_, rfl, ?_, ?_⟩
    · intro x hx
      obtain ⟨r, hr, hrx⟩ := List.mem_filterMap.mp hx
      rw [List.mem_singleton.mp hr] at hrx
      rw [c4 x hrx, ht3]
    · intro hne hg
      have h := c1 hg
      rw [if_neg (by decide)] at h
      have h : logreport false t.teardown = none := by
        cases hl : logreport false t.teardown with
        | none => rfl
        | some y => rw [hl] at h; cases h
      apply hne
      simp [h]
  obtain ⟨rest, hrest, hrt, hrg⟩ := hend
  unfold Ran.reports
  by_cases hs : t.setup.outcome = .passed
  · rw [if_pos hs]
    have hsn : logreport false t.setup = none := by
      have h := a1 (.inl hs)
      rw [if_neg (by decide)] at h
      cases hl : logreport false t.setup with
      | none => rfl
      | some y => rw [hl] at h; cases h
    have hcall : ∃ x, logreport false t.call = some x ∧ ((x.status = .ok ∧ Good t.call) ∨ (x.status = .fail ∧ Bad t.call) ∨
        (x.status = .skip ∧ t.call.outcome = .skipped)) := by
      rcases outcome_cases t.call with ⟨h, _⟩ | ⟨h, _⟩ | ⟨h, _⟩
      · have h2 := b1 h
        rw [if_pos rfl] at h2
        obtain ⟨x, hx, hst⟩ := Option.map_eq_some_iff.mp h2
        exact ⟨x, hx, .inl ⟨hst, h⟩⟩
      · obtain ⟨x, hx, hst⟩ := Option.map_eq_some_iff.mp (b2 h)
        exact ⟨x, hx, .inr (.inr ⟨hst, h⟩)⟩
      · have h2 := b3 h
        rw [if_pos rfl] at h2
        obtain ⟨x, hx, hst⟩ := Option.map_eq_some_iff.mp h2
        exact ⟨x, hx, .inr (.inl ⟨hst, h⟩)⟩
    obtain ⟨x, hx, hcase⟩ := hcall
    refine ⟨x, rest, ?_, ?_, ?_, ?_, ?_, ?_, hrg⟩
    · rw [List.filterMap_cons, hsn]
      dsimp only
      rw [List.filterMap_cons, hx]
      dsimp only
      rw [hrest]
    · intro y hy
      rcases List.mem_cons.mp hy with rfl | hy
      · rw [b4 _ hx, ht2]
      · exact hrt y hy
    all_goals
      intro h
      rcases hcase with ⟨h1, h2⟩ | ⟨h1, h2⟩ | ⟨h1, h2⟩ <;> rw [h] at h1 <;> first | cases h1 | skip
    · exact ⟨hs, h2⟩
    · exact ⟨hs, h2⟩
    · exact .inr h2
  · rw [if_neg hs]
    have hset : ∃ x, logreport false t.setup = some x ∧ ((x.status = .error ∧ Bad t.setup) ∨ (x.status = .skip ∧ t.setup.outcome = .skipped)) := by
      cases ho : t.setup.outcome with
      | passed => exact absurd ho hs
      | skipped =>
        obtain ⟨x, hx, hst⟩ := Option.map_eq_some_iff.mp (a2 ho)
        exact ⟨x, hx, .inr ⟨hst, rfl⟩⟩
      | failed =>
        have hb : Bad t.setup := by
          refine ⟨ho, ?_⟩
          cases hxf : t.setup.wasxfail with
          | false => rfl
          | true => have := hx hs hxf; rw [ho] at this; cases this
        have h2 := a3 hb
        rw [if_neg (by decide)] at h2
        obtain ⟨x, hx, hst⟩ := Option.map_eq_some_iff.mp h2
        exact ⟨x, hx, .inl ⟨hst, hb⟩⟩
    obtain ⟨x, hx, hcase⟩ := hset
    refine ⟨x, rest, ?_, ?_, ?_, ?_, ?_, ?_, hrg⟩
    · rw [List.filterMap_cons, hx]
      dsimp only
      rw [hrest]
    · intro y hy
      rcases List.mem_cons.mp hy with rfl | hy
      · exact a4 _ hx
      · exact hrt y hy
    all_goals
      intro h
      rcases hcase with ⟨h1, h2⟩ | ⟨h1, h2⟩ <;> rw [h] at h1 <;> first | cases h1 | skip
    · exact h2
    · exact .inl h2

/-- **C118**: nothing is told from the processes of xdist: the main one tells it. -/
theorem c118_node (r : Report) : logreport true r = none := rfl

/-- The errors of a report: those written, then its sections of errors. -/
def errors (r : Report) : Str := r.err ++ (r.sections.filter fun s => errSections.contains s.1).flatMap (·.2)

theorem contents_err (out err : Str) (l : List (Str × Str)) :
    (contents out err l).2 = err ++ (l.filter fun s => errSections.contains s.1).flatMap (·.2) := by
  induction l generalizing out err with
  | nil => simp [contents]
  | cons s l ih =>
    obtain ⟨type, value⟩ := s
    rw [contents]
    split
    · rename_i hv
      rw [ih, List.filter_cons]
      have hv := List.isEmpty_iff.mp hv
      split <;> simp [hv]
    · split
      · rename_i hc
        rw [ih, List.filter_cons, if_pos hc]
        simp
      · rename_i hc
        rw [ih, List.filter_cons, if_neg hc]

/-- **C118**: the errors told have all errors written and the exception, in order. -/
theorem c118_errors {r : Report} {x : Told} (h : logreport false r = some x) (hs : r.outcome ≠ .skipped) :
    x.err = errors r ++ (if errors r ≠ [] ∧ r.exc ≠ [] then ruler else []) ++ r.exc := by
  have ho : outcomeOf r ≠ .skipped := by
    rcases outcome_cases r with ⟨_, h⟩ | ⟨h, _⟩ | ⟨_, h⟩
    · rw [h]; decide
    · exact absurd h hs
    · rw [h]; decide
  unfold logreport at h
  rw [if_neg (by decide)] at h
  split at h
  · cases h
  · cases h
    dsimp only
    rw [contents_err]
    change (if (outcomeOf r != .skipped && !r.exc.isEmpty) = true then (if (errors r).isEmpty = true then errors r else errors r ++ ruler) ++ r.exc else errors r) = _
    have ho' : (outcomeOf r != .skipped) = true := by simpa using ho
    rw [ho', Bool.true_and]
    cases he : r.exc with
    | nil => simp
    | cons a l =>
      cases hr : errors r with
      | nil => simp
      | cons b m => simp

/-- **C118**, output (part of it): where pytest has no output of its own to give, the output told is what was written. -/
theorem c118_output_partial {r : Report} {x : Told} (h : logreport false r = some x)
    (hno : ∀ s ∈ r.sections, s.2 = [] ∨ errSections.contains s.1 = true) : x.out = r.out := by
  have key : ∀ (l : List (Str × Str)) (out err : Str), (∀ s ∈ l, s.2 = [] ∨ errSections.contains s.1 = true) → (contents out err l).1 = out := by
    intro l
    induction l with
    | nil => intros; rfl
    | cons s l ih =>
      intro out err hno
      obtain ⟨type, value⟩ := s
      have hl := fun s hs => hno s (List.mem_cons_of_mem _ hs)
      rw [contents]
      split
      · exact ih _ _ hl
      · split
        · exact ih _ _ hl
        · rename_i hv hc
          rcases hno (type, value) (List.mem_cons_self ..) with h | h
          · dsimp only at h; rw [h] at hv; exact absurd rfl hv
          · exact absurd h hc
  unfold logreport at h
  rw [if_neg (by decide)] at h
  split at h
  · cases h
  · cases h; exact key _ _ _ hno

/-! ### Examples and witnesses -/

def item (n : Str) : Item := ⟨c!"/p/test_a.py", n, some c!"TestA"⟩

theorem c118_run_example : modifyItems id (load id id (build id [(c!"/p/test_a.py", [c!"TestA.test_x", c!"test_z"])]))
    [item c!"test_x[1]", item c!"test_x[2]", item c!"test_y", item c!"test_z", ⟨c!"/p/test_b.py", c!"test_x", some c!"TestA"⟩] =
    [item c!"test_x[1]", item c!"test_x[2]", item c!"test_z"] := by decide

/-- Its hypotheses can be met. -/
example : Apart id id [(c!"/p/test_a.py", [c!"TestA.test_x"]), (c!"/p/test_b.py", [c!"test_y"])] := by
  intro f t g t' p hf hg hd hd'
  have h1 : p = f := by unfold Denotes at hd; simpa using hd
  have h2 : p = g := by unfold Denotes at hd'; simpa using hd'
  subst h1; subst h2
  simp at hf hg
  rcases hf with hf | hf <;> rcases hg with hg | hg
  · rw [hf.2, hg.2]
  · exact absurd (hf.1.symm.trans hg.1) (by decide)
  · exact absurd (hf.1.symm.trans hg.1) (by decide)
  · rw [hf.2, hg.2]

theorem c118_told_example :
    ([⟨c!"t", .setup, .passed, false, [], [], [], []⟩, ⟨c!"t", .call, .failed, false, c!"o", c!"e", [], c!"x"⟩,
      ⟨c!"t", .teardown, .passed, false, [], [], [], []⟩] : List Report).filterMap (logreport false) =
    [⟨.fail, c!"t", c!"o", c!"e" ++ ruler ++ c!"x"⟩] := by decide

/-- What pytest has of the output of the set-up is lost, and so is what was written to the stream, where it has output of the call too; the errors are
told again with the output. -/
theorem c118_output_witness :
    (logreport false ⟨c!"t", .call, .passed, false, c!"written", c!"err", [(c!"Captured stdout setup", c!"one"), (c!"Captured stdout call", c!"two")], []⟩) =
    some ⟨.ok, c!"t", c!"errtwo", c!"err"⟩ := by decide

/-- Tests named for a file and other tests named for a link to that file: those named for the file itself are not run. -/
theorem c118_link_witness (resolve : Str → Str) (h1 : resolve c!"/link.py" = c!"/real.py") (h2 : resolve c!"/real.py" = c!"/real.py") :
    modifyItems id (load id resolve (build id [(c!"/real.py", [c!"test_a"]), (c!"/link.py", [c!"test_b"])])) [⟨c!"/real.py", c!"test_a", none⟩] = [] := by
  have hb : build id [(c!"/real.py", [c!"test_a"]), (c!"/link.py", [c!"test_b"])] = [(c!"/real.py", [c!"test_a"]), (c!"/link.py", [c!"test_b"])] := by decide
  rw [hb]
  unfold load
  simp only [List.map_cons, List.map_nil, h1, h2, id]
  decide

/-- Tests named together with a directory: none of the tests in its files is run. -/
theorem c118_dir_witness : modifyItems id (load id id (build id [(c!"/p", [c!"test_x"])])) [item c!"test_x"] = [] := by decide

end Pytest
