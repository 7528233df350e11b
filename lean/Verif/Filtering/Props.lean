import Verif.Filtering.Model
/-!
C26 (globs), C27 (rules), C28 (roots).
-/

namespace Filtering

/-! ### C26: specification -/

def star2 : Str := c!"**"

/-- One component against one pattern that is not `**`. -/
def CompMatches (env : Env) (p x : Str) : Prop :=
  if ∃ c ∈ env.normcase p, c = '*' ∨ c = '?' ∨ c = '[' then env.fnmatch (env.normcase x) (env.normcase p) = true
  else env.normcase p = env.normcase x

/-- The documented meaning: components match one by one, `**` stands for any number of components (a final `**` for
at least one). -/
inductive Matches (env : Env) : List Str → List Str → Prop
  | done : Matches env [] []
  | comp {p x ps xs} : env.normcase p ≠ star2 → CompMatches env p x → Matches env ps xs → Matches env (p :: ps) (x :: xs)
  | last {p xs} : env.normcase p = star2 → xs ≠ [] → Matches env [p] xs
  | star {p ps xs} (pre : List Str) : env.normcase p = star2 → ps ≠ [] → Matches env ps xs → Matches env (p :: ps) (pre ++ xs)

theorem Matches.ne_nil {env : Env} {ps xs : List Str} (h : Matches env ps xs) (hp : ps ≠ []) : xs ≠ [] := by
  induction h with
  | done => exact absurd rfl hp
  | comp => simp
  | last _ h => exact h
  | star pre _ hne _ ih => intro hx; exact ih hne (List.append_eq_nil_iff.1 hx).2

theorem hasMagic_iff (p : Str) : hasMagic p = true ↔ ∃ c ∈ p, c = '*' ∨ c = '?' ∨ c = '[' := by
  simp [hasMagic, or_assoc]

theorem hasMagic_star2 : hasMagic star2 = true := by decide

/-- `_check_matches` decides the documented meaning, for every pattern and path. -/
theorem c26_components (env : Env) (ps xs : List Str) : checkMatches env ps xs = true ↔ Matches env ps xs := by
  induction ps generalizing xs with
  | nil =>
    cases xs with
    | nil => simp [checkMatches, Matches.done]
    | cons x xs =>
      simp only [checkMatches, Bool.false_eq_true, false_iff]
      intro h; cases h
  | cons p ps ih =>
    cases xs with
    | nil =>
      simp only [checkMatches, Bool.false_eq_true, false_iff]
      intro h; exact h.ne_nil (by simp) rfl
    | cons x xs =>
      rw [checkMatches]
      by_cases hs : env.normcase p = star2
      · have hm : hasMagic (env.normcase p) = true := by rw [hs]; decide
        simp only [hm, Bool.not_true, Bool.false_eq_true, if_false]
        rw [if_pos (show env.normcase p = c!"**" from hs)]
        cases hps : ps with
        | nil =>
          simp only [List.isEmpty_nil, if_true, true_iff]
          exact .last hs (by simp)
        | cons q qs =>
          rw [← hps]
          have hne : ps ≠ [] := by rw [hps]; simp
          rw [if_neg (by simpa using hne)]
          rw [Bool.or_eq_true, List.any_eq_true, ih xs]
          constructor
          · rintro (⟨i, _, hi⟩ | h)
            · have := Matches.star ((x :: xs).take i) hs hne ((ih _).1 hi)
              rwa [List.take_append_drop] at this
            · exact .star [x] hs hne h
          · intro h
            generalize hl : (x :: xs) = l at h
            cases h with
            | comp h1 => exact absurd hs h1
            | last => exact absurd rfl hne
            | star pre _ _ h3 =>
              left
              refine ⟨pre.length, ?_, ?_⟩
              · rw [List.mem_range]
                have := List.length_pos_iff.2 (h3.ne_nil hne)
                rw [List.length_append]; omega
              · rw [List.drop_left]
                exact (ih _).2 h3
      · have key : Matches env (p :: ps) (x :: xs) ↔ CompMatches env p x ∧ Matches env ps xs := by
          constructor
          · intro h
            generalize hl : (x :: xs) = l at h
            cases h with
            | comp _ h2 h3 => cases hl; exact ⟨h2, h3⟩
            | last h1 => exact absurd h1 hs
            | star pre h1 => exact absurd h1 hs
          · rintro ⟨h1, h2⟩; exact .comp hs h1 h2
        rw [key]
        unfold CompMatches
        simp only [← hasMagic_iff]
        by_cases hm : hasMagic (env.normcase p) = true
        · simp only [hm, Bool.not_true, Bool.false_eq_true, if_false, if_true]
          rw [if_neg (show ¬ env.normcase p = c!"**" from hs)]
          by_cases hf : env.fnmatch (env.normcase x) (env.normcase p) = true
          · simp [hf, ih]
          · simp [hf]
        · simp only [Bool.not_eq_true] at hm
          simp only [hm, Bool.not_false, if_true, Bool.false_eq_true, if_false]
          by_cases hf : env.normcase p = env.normcase x
          · simp [hf, ih]
          · simp [hf]

theorem dropEmpty_nil_cons (xs : List Str) : dropEmpty ([] :: xs) = xs := by simp [dropEmpty]
theorem dropEmpty_of_ne {xs : List Str} (h : xs.head? ≠ some []) : dropEmpty xs = xs := by
  cases xs with
  | nil => rfl
  | cons x xs =>
    simp only [List.head?_cons, ne_eq, Option.some.injEq] at h
    simp [dropEmpty, h]

/-- Unix: an absolute path against an absolute pattern (`/a/**/b`) or a relative one (`**/b`). -/
theorem c26_unix {env : Env} (hsep : env.altsep = none) {comps pats : List Str} (hc : comps ≠ []) (hp : pats ≠ [])
    (hcs : ∀ c ∈ comps, env.sep ∉ c) (hps : ∀ p ∈ pats, env.sep ∉ p)
    (hdrive : ∀ rest, Py.join1 env.sep comps ≠ ':' :: rest) :
    (globMatches env (env.sep :: Py.join1 env.sep comps) (env.sep :: Py.join1 env.sep pats) = true ↔ Matches env pats comps) ∧
    (pats.head? ≠ some [] →
      (globMatches env (env.sep :: Py.join1 env.sep comps) (Py.join1 env.sep pats) = true ↔ Matches env pats comps)) := by
  have hsplit : ∀ ws : List Str, ws ≠ [] → (∀ w ∈ ws, env.sep ∉ w) →
      dropEmpty (Py.split1 env.sep (env.sep :: Py.join1 env.sep ws)) = ws := by
    intro ws h1 h2
    rw [show env.sep :: Py.join1 env.sep ws = [] ++ env.sep :: Py.join1 env.sep ws from rfl,
      Py.split1_append _ _ _ (by simp), Py.split1_join1 _ _ h1 h2, dropEmpty_nil_cons]
  have hg : ∀ pat, globMatches env (env.sep :: Py.join1 env.sep comps) pat =
      checkMatches env (dropEmpty (Py.split1 env.sep pat)) comps := by
    intro pat
    unfold globMatches
    simp only [hsep]
    have : splitDrive (env.sep :: Py.join1 env.sep comps) = (none, env.sep :: Py.join1 env.sep comps) := by
      unfold splitDrive
      split
      · rename_i d rest heq
        simp only [List.cons.injEq] at heq
        exact absurd heq.2 (hdrive rest)
      · rfl
    rw [this]
    simp only [hsplit comps hc hcs]
  constructor
  · rw [hg, hsplit pats hp hps, c26_components]
  · intro hh
    rw [hg, Py.split1_join1 _ _ hp hps, dropEmpty_of_ne hh, c26_components]

/-- Windows: with a drive in both, the drives must be equal ignoring case; either separator may be used. -/
theorem c26_drive {env : Env} (hsep : env.altsep = none) {comps pats : List Str} {d e : Char} (hc : comps ≠ [])
    (hp : pats ≠ []) (hcs : ∀ c ∈ comps, env.sep ∉ c) (hps : ∀ p ∈ pats, env.sep ∉ p) :
    globMatches env (d :: ':' :: env.sep :: Py.join1 env.sep comps) (e :: ':' :: env.sep :: Py.join1 env.sep pats) = true ↔
      env.lower d = env.lower e ∧ Matches env pats comps := by
  have hsplit : ∀ ws : List Str, ws ≠ [] → (∀ w ∈ ws, env.sep ∉ w) →
      dropEmpty (Py.split1 env.sep (env.sep :: Py.join1 env.sep ws)) = ws := by
    intro ws h1 h2
    rw [show env.sep :: Py.join1 env.sep ws = [] ++ env.sep :: Py.join1 env.sep ws from rfl,
      Py.split1_append _ _ _ (by simp), Py.split1_join1 _ _ h1 h2, dropEmpty_nil_cons]
  unfold globMatches
  simp only [hsep, splitDrive, hsplit comps hc hcs, hsplit pats hp hps]
  by_cases h : env.lower d = env.lower e
  · simp [h, c26_components]
  · simp [h]

theorem c26_altsep (env : Env) (a : Char) (h : env.altsep = some a) (path pat : Str) :
    globMatches env path pat =
      globMatches { env with altsep := none } (Py.replaceChar a env.sep path) (Py.replaceChar a env.sep pat) := by
  have hck : ∀ ps xs, checkMatches { env with altsep := none } ps xs = checkMatches env ps xs := by
    intro ps xs
    rw [Bool.eq_iff_iff, c26_components, c26_components]
    constructor
    · intro h; induction h with
      | done => exact .done
      | comp h1 h2 _ ih => exact .comp h1 h2 ih
      | last h1 h2 => exact .last h1 h2
      | star pre h1 h2 _ ih => exact .star pre h1 h2 ih
    · intro h; induction h with
      | done => exact .done
      | comp h1 h2 _ ih => exact .comp h1 h2 ih
      | last h1 h2 => exact .last h1 h2
      | star pre h1 h2 _ ih => exact .star pre h1 h2 ih
  unfold globMatches
  simp only [h, hck]

/-- a glob matcher for one component in which `*` matches everything, for the examples -/
def sampleEnv : Env := { fnmatch := fun x p => p = c!"*" || p = x }

instance (env : Env) (p x : Str) : Decidable (CompMatches env p x) := by unfold CompMatches; infer_instance

example : globMatches sampleEnv c!"/proj/sub/deep/mod.py" c!"/proj/**/mod.py" = true := by decide
example : globMatches sampleEnv c!"/proj/sub/mod.py" c!"/proj/*" = false := by decide
example : globMatches sampleEnv c!"/a/x/b" c!"a/*/b" = true := by decide
example : Matches sampleEnv [c!"proj", star2, c!"mod.py"] [c!"proj", c!"mod.py"] :=
  .comp (by decide) (by decide) (.star [] rfl (by simp) (.comp (by decide) (by decide) .done))
/-- a final `**` needs a component: the directory itself is not matched -/
example : globMatches sampleEnv c!"/proj" c!"/proj/**" = false := by decide

/-! ### C27 -/

/-- The first filter that matches decides; none matching, no decision. -/
theorem c27_first (env : Env) (file module : Str) (fs : List Filter) :
    (∀ b, excludeByFilter env file module fs = some b ↔
      ∃ pre f post, fs = pre ++ f :: post ∧ f.exclude = b ∧ matchesFilter env file module f = true ∧
        ∀ g ∈ pre, matchesFilter env file module g = false) ∧
    (excludeByFilter env file module fs = none ↔ ∀ f ∈ fs, matchesFilter env file module f = false) := by
  induction fs with
  | nil => simp [excludeByFilter]
  | cons f fs ih =>
    rw [excludeByFilter]
    by_cases h : matchesFilter env file module f = true
    · rw [if_pos h]
      constructor
      · intro b
        constructor
        · intro hb; exact ⟨[], f, fs, rfl, Option.some.inj hb, h, by simp⟩
        · rintro ⟨pre, g, post, he, hb, hg, hpre⟩
          cases pre with
          | nil => simp only [List.nil_append, List.cons.injEq] at he; rw [he.1, hb]
          | cons p ps =>
            simp only [List.cons_append, List.cons.injEq] at he
            have := hpre p (by simp)
            rw [← he.1, h] at this; cases this
      · simp [h]
    · rw [if_neg h]
      have hf : matchesFilter env file module f = false := by simpa using h
      constructor
      · intro b
        rw [ih.1 b]
        constructor
        · rintro ⟨pre, g, post, rfl, hb, hg, hpre⟩
          refine ⟨f :: pre, g, post, rfl, hb, hg, ?_⟩
          intro x hx
          rcases List.mem_cons.1 hx with rfl | hx
          · exact hf
          · exact hpre x hx
        · rintro ⟨pre, g, post, he, hb, hg, hpre⟩
          cases pre with
          | nil =>
            simp only [List.nil_append, List.cons.injEq] at he
            rw [← he.1, hf] at hg; cases hg
          | cons p ps =>
            simp only [List.cons_append, List.cons.injEq] at he
            exact ⟨ps, g, post, he.2, hb, hg, fun x hx => hpre x (by simp [hx])⟩
      · rw [ih.2]; simp [hf]

/-- `r` is the longest of the list that satisfies `m`, the first one among equals. -/
def Longest (m : Filter → Bool) (l : List Filter) (r : Filter) : Prop :=
  ∃ pre post, l = pre ++ r :: post ∧ m r = true ∧ (∀ x ∈ pre, m x = true → x.name.length < r.name.length) ∧
    ∀ x ∈ post, m x = true → x.name.length ≤ r.name.length

/-- `r` is the first of the list that satisfies `m`. -/
def First (m : Filter → Bool) (l : List Filter) (r : Filter) : Prop :=
  ∃ pre post, l = pre ++ r :: post ∧ m r = true ∧ ∀ x ∈ pre, m x = false

theorem longest_exists (m : Filter → Bool) (l : List Filter) (h : ∃ x ∈ l, m x = true) : ∃ r, Longest m l r := by
  induction l with
  | nil => obtain ⟨x, hx, _⟩ := h; cases hx
  | cons a l ih =>
    by_cases hl : ∃ x ∈ l, m x = true
    · obtain ⟨r, pre, post, rfl, hr, h1, h2⟩ := ih hl
      by_cases ha : m a = true ∧ r.name.length ≤ a.name.length
      · refine ⟨a, [], pre ++ r :: post, rfl, ha.1, by simp, ?_⟩
        intro x hx hm
        rcases List.mem_append.1 hx with hx | hx
        · exact Nat.le_trans (Nat.le_of_lt (h1 x hx hm)) ha.2
        · rcases List.mem_cons.1 hx with rfl | hx
          · exact ha.2
          · exact Nat.le_trans (h2 x hx hm) ha.2
      · refine ⟨r, a :: pre, post, rfl, hr, ?_, h2⟩
        intro x hx hm
        rcases List.mem_cons.1 hx with rfl | hx
        · exact Nat.lt_of_not_le fun hle => ha ⟨hm, hle⟩
        · exact h1 x hx hm
    · obtain ⟨x, hx, hm⟩ := h
      have : x = a := by
        rcases List.mem_cons.1 hx with h | h
        · exact h
        · exact absurd ⟨x, h, hm⟩ hl
      subst this
      exact ⟨x, [], l, rfl, hm, by simp, fun y hy hmy => absurd ⟨y, hy, hmy⟩ hl⟩

theorem bySize_same_length (l : List Filter) (n : Nat) :
    (bySize l).filter (fun f => decide (f.name.length = n)) = l.filter (fun f => decide (f.name.length = n)) := by
  have hperm : (bySize l).Perm l := List.mergeSort_perm _ _
  have hsub : (l.filter (fun f => decide (f.name.length = n))).Sublist (bySize l) := by
    unfold bySize
    refine List.sublist_mergeSort ?_ ?_ ?_ List.filter_sublist
    · intro a b c h1 h2; simp only [decide_eq_true_eq] at *; omega
    · intro a b; simp only [Bool.or_eq_true, decide_eq_true_eq]; omega
    · rw [List.pairwise_iff_forall_sublist]
      intro a b hab
      have ha : a ∈ l.filter (fun f => decide (f.name.length = n)) := hab.subset (by simp)
      have hb : b ∈ l.filter (fun f => decide (f.name.length = n)) := hab.subset (by simp)
      simp only [List.mem_filter, decide_eq_true_eq] at ha hb ⊢
      omega
  have hsub2 : (l.filter (fun f => decide (f.name.length = n))).Sublist ((bySize l).filter (fun f => decide (f.name.length = n))) := by
    have := hsub.filter (fun f => decide (f.name.length = n))
    rwa [List.filter_filter, show (fun a : Filter => decide (a.name.length = n) && decide (a.name.length = n)) =
      (fun a => decide (a.name.length = n)) from by funext a; simp] at this
  exact (hsub2.eq_of_length ((hperm.filter _).length_eq).symm).symm

/-- Sorting by size makes the first match the longest match. -/
theorem bySize_first (m : Filter → Bool) (l : List Filter) (r : Filter) (h : Longest m l r) : First m (bySize l) r := by
  obtain ⟨pre, post, hl, hr, h1, h2⟩ := h
  have hlen : ∀ x ∈ l, m x = true → x.name.length ≤ r.name.length := by
    intro x hx hm
    rw [hl] at hx
    rcases List.mem_append.1 hx with hx | hx
    · exact Nat.le_of_lt (h1 x hx hm)
    · rcases List.mem_cons.1 hx with rfl | hx
      · exact Nat.le_refl _
      · exact h2 x hx hm
  have hperm : (bySize l).Perm l := List.mergeSort_perm _ _
  have hrm : r ∈ bySize l := hperm.mem_iff.2 (by rw [hl]; simp)
  -- first match of the sorted list
  have hfirst : ∃ q, First m (bySize l) q := by
    have : ∀ k : List Filter, (∃ x ∈ k, m x = true) → ∃ q, First m k q := by
      intro k
      induction k with
      | nil => rintro ⟨x, hx, _⟩; cases hx
      | cons a k ih =>
        intro hx
        by_cases ha : m a = true
        · exact ⟨a, [], k, rfl, ha, by simp⟩
        · obtain ⟨x, hx, hm⟩ := hx
          rcases List.mem_cons.1 hx with rfl | hx
          · exact absurd hm ha
          · obtain ⟨q, p1, p2, rfl, hq, hp⟩ := ih ⟨x, hx, hm⟩
            refine ⟨q, a :: p1, p2, rfl, hq, ?_⟩
            intro y hy
            rcases List.mem_cons.1 hy with rfl | hy
            · simpa using ha
            · exact hp y hy
    exact this _ ⟨r, hrm, hr⟩
  obtain ⟨q, p1, p2, hs, hq, hp⟩ := hfirst
  have hsorted : (bySize l).Pairwise (fun a b => b.name.length ≤ a.name.length) := by
    have := List.pairwise_mergeSort (le := fun a b : Filter => decide (b.name.length ≤ a.name.length))
      (by intro a b c h1 h2; simp only [decide_eq_true_eq] at *; omega)
      (by intro a b; simp only [Bool.or_eq_true, decide_eq_true_eq]; omega) l
    simpa [bySize] using this
  have hqr : q.name.length = r.name.length := by
    have hql : q.name.length ≤ r.name.length := hlen q (hperm.mem_iff.1 (by rw [hs]; simp)) hq
    have : r.name.length ≤ q.name.length := by
      rw [hs] at hrm hsorted
      rcases List.mem_append.1 hrm with h | h
      · have := hp r h; rw [hr] at this; cases this
      · rcases List.mem_cons.1 h with h | h
        · rw [h]; exact Nat.le_refl _
        · have := (List.pairwise_append.1 hsorted).2.1
          exact (List.pairwise_cons.1 this).1 r h
    omega
  -- q and r are both the first match of that length
  have hq2 : ((bySize l).filter (fun f => decide (f.name.length = r.name.length))).find? m = some q := by
    rw [hs, List.filter_append, List.filter_cons_of_pos (by simp [hqr]), List.find?_append]
    rw [List.find?_eq_none.2 (by intro x hx; rw [List.mem_filter] at hx; simp [hp x hx.1])]
    simp [hq]
  have hr2 : (l.filter (fun f => decide (f.name.length = r.name.length))).find? m = some r := by
    rw [hl, List.filter_append, List.filter_cons_of_pos (by simp), List.find?_append]
    rw [List.find?_eq_none.2 (by
      intro x hx
      rw [List.mem_filter] at hx
      intro hm
      have := h1 x hx.1 hm
      simp only [decide_eq_true_eq] at hx
      omega)]
    simp [hr]
  rw [bySize_same_length, hr2] at hq2
  have : r = q := Option.some.inj hq2
  subst this
  exact ⟨p1, p2, hs, hq, hp⟩

theorem First.exclude {env : Env} {file module : Str} {l : List Filter} {r : Filter}
    (h : First (matchesFilter env file module) l r) (rest : List Filter) :
    excludeByFilter env file module (l ++ rest) = some r.exclude := by
  obtain ⟨pre, post, rfl, hr, hp⟩ := h
  rw [(c27_first env file module _).1]
  exact ⟨pre, r, post ++ rest, by simp, rfl, hr, hp⟩

theorem exclude_append_of_none {env : Env} {file module : Str} {l : List Filter}
    (h : ∀ f ∈ l, matchesFilter env file module f = false) (rest : List Filter) :
    excludeByFilter env file module (l ++ rest) = excludeByFilter env file module rest := by
  induction l with
  | nil => rfl
  | cons a l ih =>
    rw [List.cons_append, excludeByFilter, if_neg (by simp [h a (by simp)]), ih fun f hf => h f (by simp [hf])]

/-- The client's rules: the longest matching directory rule decides (the first one among equals); if none matches,
the first matching glob rule in the client's order; if none matches, the longest matching module rule; if none
matches, there is no decision. -/
theorem c27_rules (env : Env) (isdir : Str → Bool) (rules : List Rule) (file module : Str) :
    let m := matchesFilter env file module
    let D := ofClass isdir .directory rules
    let G := ofClass isdir .glob rules
    let M := ofClass isdir .module rules
    let out := excludeByFilter env file module (convertRules isdir rules)
    (∀ r, Longest m D r → out = some r.exclude) ∧
    ((∀ f ∈ D, m f = false) → ∀ r, First m G r → out = some r.exclude) ∧
    ((∀ f ∈ D, m f = false) → (∀ f ∈ G, m f = false) → ∀ r, Longest m M r → out = some r.exclude) ∧
    ((∀ f ∈ D, m f = false) → (∀ f ∈ G, m f = false) → (∀ f ∈ M, m f = false) → out = none) ∧
    ((∃ f ∈ D, m f = true) → ∃ r, Longest m D r) ∧ ((∃ f ∈ M, m f = true) → ∃ r, Longest m M r) := by
  simp only
  have hb : ∀ l : List Filter, (∀ f ∈ l, matchesFilter env file module f = false) →
      ∀ f ∈ bySize l, matchesFilter env file module f = false :=
    fun l h f hf => h f ((List.mergeSort_perm _ _).mem_iff.1 hf)
  unfold convertRules
  refine ⟨?_, ?_, ?_, ?_, longest_exists _ _, longest_exists _ _⟩
  · intro r h
    rw [List.append_assoc]
    exact (bySize_first _ _ r h).exclude _
  · intro h1 r h
    rw [List.append_assoc, exclude_append_of_none (hb _ h1)]
    exact h.exclude _
  · intro h1 h2 r h
    rw [List.append_assoc, exclude_append_of_none (hb _ h1), exclude_append_of_none h2]
    have := (bySize_first _ _ r h).exclude []
    simpa using this
  · intro h1 h2 h3
    rw [List.append_assoc, exclude_append_of_none (hb _ h1), exclude_append_of_none h2]
    exact (c27_first env file module _).2.2 (hb _ h3)

/-- Which rules are directory, glob and module rules, and what each stands for. -/
theorem c27_classes (isdir : Str → Bool) (rules : List Rule) (f : Filter) :
    (f ∈ ofClass isdir .directory rules ↔ ∃ r ∈ rules, ∃ p inc, r.path = some p ∧ r.include_ = some inc ∧
      '*' ∉ p ∧ '?' ∉ p ∧ f.exclude = !inc ∧ f.isPath = true ∧
      f.name = if isdir p = true then
          (if Py.endsWith p ['/'] = false ∧ Py.endsWith p ['\\'] = false then p ++ c!"/**" else p ++ c!"**") else p) ∧
    (f ∈ ofClass isdir .glob rules ↔ ∃ r ∈ rules, ∃ p inc, r.path = some p ∧ r.include_ = some inc ∧
      ('*' ∈ p ∨ '?' ∈ p) ∧ f.exclude = !inc ∧ f.isPath = true ∧ f.name = p) ∧
    (f ∈ ofClass isdir .module rules ↔ ∃ r ∈ rules, ∃ n inc, r.path = none ∧ r.module = some n ∧ r.include_ = some inc ∧
      f.exclude = !inc ∧ f.isPath = false ∧ f.name = n) := by
  have hmem : ∀ c, f ∈ ofClass isdir c rules ↔ ∃ r ∈ rules, convertRule isdir r = some (c, f) := by
    intro c
    unfold ofClass
    simp only [List.mem_filterMap]
    constructor
    · rintro ⟨⟨c', g⟩, ⟨r, hr, hc⟩, hx⟩
      split at hx
      · rename_i h; cases hx; simp only at h; subst h; exact ⟨r, hr, hc⟩
      · cases hx
    · rintro ⟨r, hr, hc⟩
      exact ⟨(c, f), ⟨r, hr, hc⟩, by simp⟩
  obtain ⟨fn, fe, fp⟩ := f
  refine ⟨?_, ?_, ?_⟩ <;> rw [hmem]
  · refine exists_congr fun r => and_congr_right fun hr => ?_
    obtain ⟨ri, rp, rm⟩ := r
    cases ri with
    | none => simp [convertRule]
    | some inc =>
      cases rp with
      | none => cases rm <;> simp [convertRule]
      | some p =>
        simp only [convertRule]
        by_cases hst : '*' ∈ p
        · simp [hst]
        · by_cases hq : '?' ∈ p
          · simp [hq]
          · have hc1 : p.contains '*' = false := by simpa using hst
            have hc2 : p.contains '?' = false := by simpa using hq
            rw [hc1, hc2]
            have hg : (if isdir p = true then (if (!Py.endsWith p ['/'] && !Py.endsWith p ['\\']) = true then p ++ ['/'] else p) ++ c!"**" else p)
                = (if isdir p = true then
                    (if Py.endsWith p ['/'] = false ∧ Py.endsWith p ['\\'] = false then p ++ c!"/**" else p ++ c!"**") else p) := by
              cases h1 : Py.endsWith p ['/'] <;> cases h2 : Py.endsWith p ['\\'] <;> simp
            rw [hg]
            simp only [Bool.not_false, Bool.and_self, if_true, Option.some.injEq, Prod.mk.injEq, Filter.mk.injEq, true_and]
            constructor
            · rintro ⟨rfl, rfl, rfl⟩; exact ⟨p, inc, rfl, rfl, hst, hq, rfl, rfl, rfl⟩
            · rintro ⟨_, _, rfl, rfl, _, _, rfl, rfl, rfl⟩; exact ⟨rfl, rfl, rfl⟩
  · refine exists_congr fun r => and_congr_right fun hr => ?_
    obtain ⟨ri, rp, rm⟩ := r
    cases ri with
    | none => simp [convertRule]
    | some inc =>
      cases rp with
      | none => cases rm <;> simp [convertRule]
      | some p =>
        simp only [convertRule]
        by_cases hst : '*' ∈ p
        · simp [hst, eq_comm]; grind
        · by_cases hq : '?' ∈ p
          · simp [hq, eq_comm]; grind
          · simp [hst, hq]
  · refine exists_congr fun r => and_congr_right fun hr => ?_
    obtain ⟨ri, rp, rm⟩ := r
    cases ri with
    | none => simp [convertRule]
    | some inc =>
      cases rp with
      | none => cases rm <;> simp [convertRule, eq_comm]; grind
      | some p => simp only [convertRule]; split <;> simp

/-- When a rule matches: a path rule by its glob, a module rule when its dotted name is the module's or that of a
package around it. -/
theorem c27_matches (env : Env) (file module : Str) (f : Filter) :
    matchesFilter env file module f = true ↔
      if f.isPath = true then globMatches env file f.name = true
      else Py.split1 '.' f.name <+: Py.split1 '.' module := by
  unfold matchesFilter
  cases f.isPath with
  | true => simp
  | false =>
    simp only [Bool.false_eq_true, if_false, Bool.or_eq_true, decide_eq_true_eq, Py.startsWith_iff]
    exact Py.split1_prefix_iff '.' f.name module

example : matchesFilter sampleEnv [] c!"pkg.sub.mod" { name := c!"pkg.sub", exclude := true, isPath := false } = true := by decide
example : matchesFilter sampleEnv [] c!"pkgother" { name := c!"pkg", exclude := true, isPath := false } = false := by decide

/-- a directory rule inside another: the inner one wins, in either order -/
def nestedRules : List Rule := [{ include_ := some false, path := some c!"/a" }, { path := some c!"/a/b" }]

example : excludeByFilter sampleEnv c!"/a/b/f.py" c!"m" (convertRules (fun _ => true) nestedRules) = some false :=
  (c27_rules sampleEnv (fun _ => true) nestedRules c!"/a/b/f.py" c!"m").1 { name := c!"/a/b/**", exclude := false, isPath := true }
    ⟨[{ name := c!"/a/**", exclude := true, isPath := true }], [], rfl, by decide, by decide, by decide⟩

example : excludeByFilter sampleEnv c!"/a/b/f.py" c!"m" (convertRules (fun _ => true) nestedRules.reverse) = some false :=
  (c27_rules sampleEnv (fun _ => true) nestedRules.reverse c!"/a/b/f.py" c!"m").1 { name := c!"/a/b/**", exclude := false, isPath := true }
    ⟨[], [{ name := c!"/a/**", exclude := true, isPath := true }], rfl, by decide, by decide, by decide⟩

/-- "Longest" is by characters of the rule with `/**` added: a rule naming a file with a very short name loses to
the rule of its directory. -/
theorem c27_short_file_name :
    excludeByFilter sampleEnv c!"/a/x" c!"m"
      (convertRules (fun p => p = c!"/a") [{ path := some c!"/a/x" }, { include_ := some false, path := some c!"/a" }]) = some true :=
  (c27_rules sampleEnv (fun p => p = c!"/a") _ c!"/a/x" c!"m").1 { name := c!"/a/**", exclude := true, isPath := true }
    ⟨[{ name := c!"/a/x", exclude := false, isPath := true }], [], rfl, by decide, by decide, by decide⟩

/-! ### C28 -/

/-- An absolute path with these components. -/
def render (sep : Char) (cs : List Str) : Str := cs.flatMap (fun c => sep :: c)

/-- Components of paths: not empty, without the separator. -/
def GoodPath (sep : Char) (cs : List Str) : Prop := cs ≠ [] ∧ ∀ c ∈ cs, c ≠ [] ∧ sep ∉ c

theorem render_prefix (sep : Char) : ∀ (r f : List Str), (∀ c ∈ r, sep ∉ c) → (∀ c ∈ f, sep ∉ c) →
    (render sep r ++ [sep] <+: render sep f ++ [sep] ↔ r <+: f) := by
  intro r
  induction r with
  | nil =>
    intro f _ _
    simp only [render, List.flatMap_nil, List.nil_append, List.nil_prefix, iff_true]
    cases f with
    | nil => exact ⟨[], rfl⟩
    | cons a f => exact ⟨a ++ (render sep f ++ [sep]), by simp [render]⟩
  | cons a r ih =>
    intro f hr hf
    cases f with
    | nil =>
      constructor
      · rintro ⟨t, ht⟩
        simp only [render, List.flatMap_cons, List.flatMap_nil, List.nil_append, List.cons_append, List.append_assoc,
          List.cons.injEq, true_and, List.append_eq_nil_iff] at ht
        exact absurd ht.2.2 (by simp)
      · intro h; exact absurd (List.prefix_nil.1 h) (by simp)
    | cons b f =>
      have ha := hr a (by simp)
      have hb := hf b (by simp)
      have key : ∀ (x y : List Char) (u v : List Char), sep ∉ x → sep ∉ y →
          (x ++ sep :: u <+: y ++ sep :: v ↔ x = y ∧ u <+: v) := by
        intro x
        induction x with
        | nil =>
          intro y u v _ hy
          cases y with
          | nil => simp
          | cons c y =>
            simp only [List.mem_cons, not_or] at hy
            simp only [List.nil_append, List.cons_append, List.cons_prefix_cons]
            simp [hy.1]
        | cons d x ihx =>
          intro y u v hx hy
          simp only [List.mem_cons, not_or] at hx
          cases y with
          | nil =>
            simp only [List.nil_append, List.cons_append, List.cons_prefix_cons]
            constructor
            · rintro ⟨h, _⟩; exact absurd h.symm hx.1
            · rintro ⟨h, _⟩; cases h
          | cons c y =>
            simp only [List.mem_cons, not_or] at hy
            simp only [List.cons_append, List.cons_prefix_cons, ihx y u v hx.2 hy.2, List.cons.injEq]
            exact and_assoc.symm
      have hform : ∀ (w : Str) (ws : List Str), ∃ u, render sep (w :: ws) ++ [sep] = sep :: (w ++ sep :: u) ∧
          sep :: u = render sep ws ++ [sep] := by
        intro w ws
        cases ws with
        | nil => exact ⟨[], by simp [render], by simp [render]⟩
        | cons z zs => exact ⟨z ++ (render sep zs ++ [sep]), by simp [render], by simp [render]⟩
      obtain ⟨u, hu1, hu2⟩ := hform a r
      obtain ⟨v, hv1, hv2⟩ := hform b f
      rw [hu1, hv1, List.cons_prefix_cons, key a b u v ha hb]
      have := ih f (fun c hc => hr c (by simp [hc])) (fun c hc => hf c (by simp [hc]))
      rw [← hu2, ← hv2, List.cons_prefix_cons] at this
      simp only [true_and] at this
      rw [this, List.cons_prefix_cons]
      simp

theorem render_inj (sep : Char) (r f : List Str) (hr : ∀ c ∈ r, sep ∉ c) (hf : ∀ c ∈ f, sep ∉ c)
    (h : render sep r = render sep f) : r = f := by
  have h1 := (render_prefix sep r f hr hf).1 (by rw [h]; exact List.prefix_refl _)
  have h2 := (render_prefix sep f r hf hr).1 (by rw [h]; exact List.prefix_refl _)
  exact h1.eq_of_length (Nat.le_antisymm h1.length_le h2.length_le)

/-- The test of one root: the file is the root or lies under it. -/
theorem underRoot_iff (sep : Char) (r f : List Str) (hr : ∀ c ∈ r, sep ∉ c) (hf : GoodPath sep f) :
    underRoot sep (render sep f) (render sep r ++ [sep]) = true ↔ r <+: f := by
  have hfs : ∀ c ∈ f, sep ∉ c := fun c hc => (hf.2 c hc).2
  unfold underRoot
  simp only [ne_eq, List.append_eq_nil_iff, List.cons_ne_self, and_false, not_false_eq_true, decide_true, Bool.true_and,
    Bool.or_eq_true, Py.startsWith_iff, decide_eq_true_eq, reduceCtorEq]
  constructor
  · rintro (h | h)
    · exact (render_prefix sep r f hr hfs).1 (h.trans (List.prefix_append _ _))
    · exact (render_prefix sep r f hr hfs).1 (by rw [h]; exact List.prefix_refl _)
  · intro h
    obtain ⟨t, rfl⟩ := h
    cases t with
    | nil => right; simp
    | cons b t => left; exact ⟨b ++ render sep t, by simp [render]⟩

theorem render_length_lt (sep : Char) (p l f : List Str) (hp : p <+: f) (hl : l <+: f)
    : (render sep l ++ [sep]).length < (render sep p ++ [sep]).length ↔ l.length < p.length := by
  have hmono : ∀ (a b : List Str), a <+: b → (render sep a).length ≤ (render sep b).length ∧
      (a.length < b.length → (render sep a).length < (render sep b).length) := by
    rintro a b ⟨t, rfl⟩
    cases t with
    | nil => simp
    | cons c t => simp [render]
  simp only [List.length_append, List.length_cons, List.length_nil, Nat.add_lt_add_iff_right]
  rcases List.prefix_or_prefix_of_prefix hp hl with h | h
  · have h1 := (hmono p l h).1
    have := h.length_le
    omega
  · constructor
    · intro hlt
      rcases Nat.lt_or_ge l.length p.length with h2 | h2
      · exact h2
      · have : l = p := h.eq_of_length (by have := h.length_le; omega)
        subst this; omega
    · exact (hmono l p h).2

theorem foldl_max_le (l : List Nat) (a n : Nat) : l.foldl max a ≤ n ↔ a ≤ n ∧ ∀ x ∈ l, x ≤ n := by
  induction l generalizing a with
  | nil => simp
  | cons b l ih =>
    simp only [List.foldl_cons, ih, List.mem_cons, forall_eq_or_imp, Nat.max_le, and_assoc]

/-- The whole decision, for a configuration given by path components. With project roots configured, a file is user
code exactly when it is under a project root that is deeper than every library root it is under; with none
configured, exactly when it is under no library root. -/
theorem c28_roots (sep : Char) (norm : Str → Str) (P L : List (List Str)) (f : List Str) (file : Str)
    (hf : GoodPath sep f) (hP : ∀ r ∈ P, ∀ c ∈ r, sep ∉ c) (hL : ∀ r ∈ L, ∀ c ∈ r, sep ∉ c)
    (hn : norm file = render sep f) (hfile : ∀ rest, file ≠ '<' :: rest) :
    inProjectRoots sep norm (P.map (fun r => render sep r ++ [sep])) (L.map (fun r => render sep r ++ [sep])) file = true ↔
      if P = [] then ∀ l ∈ L, ¬l <+: f
      else ∃ p ∈ P, p <+: f ∧ ∀ l ∈ L, l <+: f → l.length < p.length := by
  have hlt : ∀ w, Py.startsWith file ('<' :: w) = false := by
    intro w
    rw [Bool.eq_false_iff, ne_eq, Py.startsWith_iff]
    rintro ⟨t, ht⟩
    exact hfile _ ht.symm
  have h1 : Py.startsWith file c!"<ipython" = false := hlt _
  have h2 : Py.startsWith file c!"<" = false := hlt _
  unfold inProjectRoots
  simp only [h1, h2, Bool.false_eq_true, if_false, hn]
  have hfil : ∀ R : List (List Str), (∀ r ∈ R, ∀ c ∈ r, sep ∉ c) → ∀ x,
      x ∈ (R.map (fun r => render sep r ++ [sep])).filter (underRoot sep (render sep f)) ↔
        ∃ r ∈ R, r <+: f ∧ x = render sep r ++ [sep] := by
    intro R hR x
    rw [List.mem_filter, List.mem_map]
    constructor
    · rintro ⟨⟨r, hr, rfl⟩, hu⟩
      exact ⟨r, hr, (underRoot_iff sep r f (hR r hr) hf).1 hu, rfl⟩
    · rintro ⟨r, hr, hpf, rfl⟩
      exact ⟨⟨r, hr, rfl⟩, (underRoot_iff sep r f (hR r hr) hf).2 hpf⟩
  have hemp : ∀ R : List (List Str), (∀ r ∈ R, ∀ c ∈ r, sep ∉ c) →
      (((R.map (fun r => render sep r ++ [sep])).filter (underRoot sep (render sep f))).isEmpty = true ↔ ∀ r ∈ R, ¬r <+: f) := by
    intro R hR
    rw [List.isEmpty_iff, List.eq_nil_iff_forall_not_mem]
    constructor
    · intro h r hr hpf; exact h _ ((hfil R hR _).2 ⟨r, hr, hpf, rfl⟩)
    · intro h x hx; obtain ⟨r, hr, hpf, _⟩ := (hfil R hR x).1 hx; exact h r hr hpf
  have hP' := hfil P hP
  have hL' := hfil L hL
  by_cases hPe : P = []
  · subst hPe
    simp only [List.map_nil, List.isEmpty_nil, if_true]
    exact hemp L hL
  · rw [if_neg hPe, if_neg (by simpa using hPe)]
    split
    · rename_i he
      have := (hemp P hP).1 he
      simp only [Bool.false_eq_true, false_iff]
      rintro ⟨p, hp, hpf, _⟩
      exact this p hp hpf
    · rename_i he
      rw [hemp P hP] at he
      split
      · rename_i hle
        have hle := (hemp L hL).1 hle
        simp only [true_iff]
        have : ∃ p ∈ P, p <+: f := by
          apply Classical.byContradiction
          intro hc; exact he fun p hp hpf => hc ⟨p, hp, hpf⟩
        obtain ⟨p, hp, hpf⟩ := this
        exact ⟨p, hp, hpf, fun l hl hlf => absurd hlf (hle l hl)⟩
      · rename_i hle
        rw [hemp L hL] at hle
        rw [decide_eq_true_eq]
        show maxLen _ < maxLen _ ↔ _
        rw [← Nat.not_le]
        unfold maxLen
        rw [foldl_max_le]
        simp only [Nat.zero_le, true_and, List.mem_map]
        constructor
        · intro hnot
          apply Classical.byContradiction
          intro hc
          apply hnot
          rintro n ⟨x, hx, rfl⟩
          obtain ⟨p, hp, hpf, rfl⟩ := (hP' x).1 hx
          have : ∃ l ∈ L, l <+: f ∧ ¬ l.length < p.length := by
            apply Classical.byContradiction
            intro hc'
            exact hc ⟨p, hp, hpf, fun l hl hlf => Classical.byContradiction fun h => hc' ⟨l, hl, hlf, h⟩⟩
          obtain ⟨l, hl, hlf, hlen⟩ := this
          have hge := mt (render_length_lt sep p l f hpf hlf).1 hlen
          have hmax := (foldl_max_le (((L.map (fun r => render sep r ++ [sep])).filter (underRoot sep (render sep f))).map List.length) 0 _).1 (Nat.le_refl _)
          have := hmax.2 _ (List.mem_map.2 ⟨_, (hL' _).2 ⟨l, hl, hlf, rfl⟩, rfl⟩)
          omega
        · rintro ⟨p, hp, hpf, hall⟩ hle2
          have h1 := hle2 _ ⟨_, (hP' _).2 ⟨p, hp, hpf, rfl⟩, rfl⟩
          have h2 : (((L.map (fun r => render sep r ++ [sep])).filter (underRoot sep (render sep f))).map List.length).foldl max 0 ≤
              (render sep p ++ [sep]).length - 1 := by
            rw [foldl_max_le]
            refine ⟨Nat.zero_le _, ?_⟩
            intro n hn'
            obtain ⟨x, hx, rfl⟩ := List.mem_map.1 hn'
            obtain ⟨l, hl, hlf, rfl⟩ := (hL' x).1 hx
            have := (render_length_lt sep p l f hpf hlf).2 (hall l hl hlf)
            omega
          have h3 : 0 < (render sep p ++ [sep]).length := by simp
          omega

/-- The roots as stored are the configured directories (empty ones dropped). -/
theorem c28_fix_roots (sep : Char) (norm : Str → Str) (roots : List Str) (R : List (List Str))
    (h : (roots.filter (· ≠ [])).map norm = R.map (render sep)) :
    fixRoots sep norm roots = R.map (fun r => render sep r ++ [sep]) := by
  unfold fixRoots
  have : (roots.filter (· ≠ [])).map (fun r => norm r ++ [sep]) = ((roots.filter (· ≠ [])).map norm).map (· ++ [sep]) := by
    simp [List.map_map, Function.comp_def]
  rw [this, h]
  simp [List.map_map, Function.comp_def]

/-- Synthetic names: IPython cells are user code, every other `<...>` is not. -/
theorem c28_synthetic (sep : Char) (norm : Str → Str) (P L : List Str) (rest : Str) :
    inProjectRoots sep norm P L ('<' :: rest) = Py.startsWith rest c!"ipython" := by
  unfold inProjectRoots
  have h : Py.startsWith ('<' :: rest) c!"<ipython" = Py.startsWith rest c!"ipython" := by
    rw [Bool.eq_iff_iff, Py.startsWith_iff, Py.startsWith_iff]
    show '<' :: c!"ipython" <+: '<' :: rest ↔ _
    rw [List.cons_prefix_cons]; simp
  rw [h]
  cases Py.startsWith rest c!"ipython" with
  | true => simp
  | false =>
    have : Py.startsWith ('<' :: rest) c!"<" = true := by
      rw [Py.startsWith_iff]; exact ⟨rest, rfl⟩
    simp [this]

example : inProjectRoots '/' id (fixRoots '/' id [c!"/home/me/proj"]) (fixRoots '/' id [c!"/usr/lib", c!"/home/me/proj/venv"])
    c!"/home/me/proj/a.py" = true := by decide
example : inProjectRoots '/' id (fixRoots '/' id [c!"/home/me/proj"]) (fixRoots '/' id [c!"/usr/lib", c!"/home/me/proj/venv"])
    c!"/home/me/proj/venv/b.py" = false := by decide
example : GoodPath '/' [c!"home", c!"me", c!"proj", c!"a.py"] := by
  refine ⟨by simp, ?_⟩
  decide

/-- The file system root as project root matches nothing: its path already ends with the separator. -/
theorem c28_slash_root : inProjectRoots '/' id (fixRoots '/' id [c!"/"]) [] c!"/home/me/a.py" = false := by decide

end Filtering
