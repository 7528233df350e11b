import Verif.Extensions.Spec
/-!
C133: every extension of a type is found, once.

Full statement: every answer, in every thread and every schedule, is the list of all extensions of the type. It is false of the code when the
first calls of two threads meet (`c133_lost_witness`, `c133_twice_witness`) and when a module fails with another error than `ImportError`
(`c133_other_witness`). Proved: calls one after the other, and all calls for a type after a first one that was not disturbed.
-/

namespace Extensions

open Spec

/-! ### Names -/

theorem startsWith_isPrefixOf (s p : Str) : Py.startsWith s p = p.isPrefixOf s := by
  rw [Bool.eq_iff_iff, List.isPrefixOf_iff_prefix]
  exact Py.startsWith_iff ..

theorem last_part (c : Char) (s : Str) : (Py.split1 c s).getLastD [] = (s.reverse.takeWhile (· ≠ c)).reverse := by
  have hno : c ∉ s.reverse.takeWhile (· ≠ c) := by
    intro h
    have := List.all_takeWhile (p := fun x => decide (x ≠ c)) (l := s.reverse)
    rw [List.all_eq_true] at this
    simpa using this c h
  have happ := List.takeWhile_append_dropWhile (p := fun x => decide (x ≠ c)) (l := s.reverse)
  generalize s.reverse.takeWhile (· ≠ c) = b at hno happ ⊢
  cases hd : s.reverse.dropWhile (fun x => decide (x ≠ c)) with
  | nil =>
    rw [hd, List.append_nil] at happ
    have : s = b.reverse := by rw [happ]; simp
    rw [this, Py.split1_of_not_mem _ _ (by simpa using hno)]
    rfl
  | cons x a =>
    have hx : x = c := by
      have := List.head?_dropWhile_not (fun x => decide (x ≠ c)) s.reverse
      rw [hd] at this
      simpa using this
    subst hx
    rw [hd] at happ
    have : s = a.reverse ++ x :: b.reverse := by
      have := congrArg List.reverse happ
      simpa using this.symm
    rw [this, Py.split1_append_sep, Py.split1_of_not_mem _ b.reverse (by simpa using hno)]
    simp

theorem wanted_eq (f : Found) : wanted f = IsPlugin f := by
  unfold wanted IsPlugin
  rw [startsWith_isPrefixOf, last_part]

theorem iterAttr_eq (m : Mod) : iterAttr m = m.attrs.filter (Public m) := by
  unfold iterAttr
  congr 1
  funext a
  unfold Public
  rw [startsWith_isPrefixOf]
  congr 1
  · cases hn : a.name with
    | nil => rfl
    | cons x l =>
      simp only [List.isPrefixOf, List.head?_cons, bne, Bool.and_true]
      congr 1
      rw [Bool.eq_iff_iff]
      simp only [beq_iff_eq, Option.some.injEq]
      exact eq_comm
  · cases hm : m.all with
    | none => rfl
    | some l => simp

theorem handler_eq (w : World) (t : Nat) (a : Attr) : handler w t a = a.cls.filter fun c => a.ctor && w.sub c t && decide (c ≠ t) := by
  unfold handler
  cases a.cls with
  | none => rfl
  | some c =>
    simp only [Option.filter]
    by_cases h1 : w.sub c t <;> by_cases h2 : c = t <;> cases a.ctor <;> simp_all

theorem extensions_eq (w : World) (t : Nat) : extensions w t = (modules w).flatMap fun m => (iterAttr m).filterMap (handler w t) := by
  unfold extensions
  congr 1
  funext m
  rw [iterAttr_eq]
  congr 1
  funext a
  rw [handler_eq]

/-! ### One call after the other -/

/-- `b` is reached from `a` -/
def Reach (w : World) (t : Nat) (a b : St × Pc) : Prop := ∃ n, steps w t n a = b

theorem steps_add (w : World) (t m n : Nat) (a : St × Pc) : steps w t (m + n) a = steps w t n (steps w t m a) := by
  induction m generalizing a with
  | zero => rw [Nat.zero_add, steps]
  | succ m ih => rw [Nat.succ_add, steps, steps, ih]

theorem Reach.trans {w : World} {t : Nat} {a b c : St × Pc} (h1 : Reach w t a b) (h2 : Reach w t b c) : Reach w t a c := by
  obtain ⟨m, h1⟩ := h1
  obtain ⟨n, h2⟩ := h2
  exact ⟨m + n, by rw [steps_add, h1, h2]⟩

theorem Reach.one {w : World} {t : Nat} {s s' : St} {p p' : Pc} (h : step w t s p = (s', p')) : Reach w t (s, p) (s', p') :=
  ⟨1, by rw [steps, steps]; exact h⟩

/-- nothing is loaded yet, or all, and what is cached is right -/
def Good (w : World) (s : St) : Prop :=
  (s.loaded = none ∧ s.cache = []) ∨ (s.loaded = some (modules w) ∧ ∀ t l, Py.Dict.get s.cache t = some l → l = extensions w t)

theorem reach_load (w : World) (t : Nat) (fs : List Found) (h : ∀ f ∈ fs, f.imp ≠ .other) (pre : List Mod) (c : List (Nat × List Nat)) :
    Reach w t (⟨some pre, c⟩, .load fs) (⟨some (pre ++ (fs.filter fun f => IsPlugin f && decide (f.imp = .ok)).map (·.mod)), c⟩, .look) := by
  induction fs generalizing pre with
  | nil => exact .one (by simp [step])
  | cons f fs ih =>
    have hf := h f (by simp)
    have ih := ih (fun g hg => h g (by simp [hg]))
    have hw := wanted_eq f
    by_cases hp : IsPlugin f = true
    · rw [hp] at hw
      cases hi : f.imp with
      | ok =>
        refine .trans (.one (s' := ⟨some (pre ++ [f.mod]), c⟩) (p' := .load fs) (by simp [step, hw, hi])) ?_
        have := ih (pre ++ [f.mod])
        simpa [List.filter_cons, hp, hi] using this
      | importError =>
        refine .trans (.one (s' := ⟨some pre, c⟩) (p' := .load fs) (by simp [step, hw, hi])) ?_
        simpa [List.filter_cons, hp, hi] using ih pre
      | other => exact absurd hi hf
    · have hp' : IsPlugin f = false := by simpa using hp
      rw [hp'] at hw
      refine .trans (.one (s' := ⟨some pre, c⟩) (p' := .load fs) (by simp [step, hw])) ?_
      simpa [List.filter_cons, hp'] using ih pre

theorem reach_attrs (w : World) (t i : Nat) (as : List Attr) (L : Option (List Mod)) (c : List (Nat × List Nat)) (l : List Nat)
    (hl : Py.Dict.get c t = some l) : ∃ c', Reach w t (⟨L, c⟩, .fill i as) (⟨L, c'⟩, .fill i []) ∧
      Py.Dict.get c' t = some (l ++ as.filterMap (handler w t)) ∧ ∀ u, u ≠ t → Py.Dict.get c' u = Py.Dict.get c u := by
  induction as generalizing c l with
  | nil => exact ⟨c, ⟨0, rfl⟩, by simpa using hl, fun _ _ => rfl⟩
  | cons a as ih =>
    cases hh : handler w t a with
    | none =>
      obtain ⟨c', h1, h2, h3⟩ := ih c l hl
      exact ⟨c', .trans (.one (by simp [step, hh])) h1, by simpa [hh] using h2, h3⟩
    | some x =>
      obtain ⟨c', h1, h2, h3⟩ := ih (Py.Dict.set c t (l ++ [x])) (l ++ [x]) (by rw [Py.Dict.get_set, if_pos rfl])
      refine ⟨c', .trans (.one (by simp [step, hh, hl])) h1, by simpa [hh] using h2, fun u hu => ?_⟩
      rw [h3 u hu, Py.Dict.get_set, if_neg hu]

theorem reach_mods (w : World) (t : Nat) (ms rest : List Mod) (pre : List Mod) (hms : ms = pre ++ rest) (c : List (Nat × List Nat)) (l : List Nat)
    (hl : Py.Dict.get c t = some l) : ∃ c', Reach w t (⟨some ms, c⟩, .fill pre.length []) (⟨some ms, c'⟩,
        .done (l ++ rest.flatMap fun m => (iterAttr m).filterMap (handler w t))) ∧
      Py.Dict.get c' t = some (l ++ rest.flatMap fun m => (iterAttr m).filterMap (handler w t)) ∧
      ∀ u, u ≠ t → Py.Dict.get c' u = Py.Dict.get c u := by
  induction rest generalizing pre c l with
  | nil =>
    refine ⟨c, .one ?_, by simpa using hl, fun _ _ => rfl⟩
    simp [step, hms, hl]
  | cons m rest ih =>
    obtain ⟨c1, h1, h2, h3⟩ := reach_attrs w t (pre.length + 1) (iterAttr m) (some ms) c l hl
    obtain ⟨c2, k1, k2, k3⟩ := ih (pre ++ [m]) (by rw [hms]; simp) c1 _ h2
    refine ⟨c2, .trans (.one (s' := ⟨some ms, c⟩) (p' := .fill (pre.length + 1) (iterAttr m)) ?_) (.trans h1 ?_), ?_, fun u hu => ?_⟩
    · simp [step, hms]
    · simpa using k1
    · simpa using k2
    · rw [k3 u hu, h3 u hu]

theorem reach_look (w : World) (t : Nat) (s : St) (hl : s.loaded = some (modules w))
    (hc : ∀ t l, Py.Dict.get s.cache t = some l → l = extensions w t) :
    ∃ s', Reach w t (s, .look) (s', .done (extensions w t)) ∧ s'.loaded = some (modules w) ∧
      Py.Dict.get s'.cache t = some (extensions w t) ∧ ∀ u l, Py.Dict.get s'.cache u = some l → l = extensions w u := by
  obtain ⟨L, c⟩ := s
  simp only at hl hc
  subst hl
  cases hg : Py.Dict.get c t with
  | some l =>
    have := hc t l hg
    subst this
    exact ⟨⟨some (modules w), c⟩, .one (by simp [step, hg]), rfl, hg, hc⟩
  | none =>
    obtain ⟨c', h1, h2, h3⟩ := reach_mods w t (modules w) (modules w) [] rfl (Py.Dict.set c t []) [] (by rw [Py.Dict.get_set, if_pos rfl])
    rw [List.nil_append, ← extensions_eq] at h1 h2
    refine ⟨⟨_, c'⟩, .trans (.one (s' := ⟨some (modules w), c⟩) (p' := .create) (by simp [step, hg])) (.trans (.one (by simp [step, hg])) h1), rfl, h2, fun u l hu => ?_⟩
    by_cases e : u = t
    · subst e
      rw [h2] at hu
      exact (Option.some.inj hu).symm
    · rw [h3 u e, Py.Dict.get_set, if_neg e] at hu
      exact hc u l hu

/-- C133. A call that is not disturbed returns every extension of the type, once and in order, and leaves everything loaded. -/
theorem c133_call_partial (w : World) (hw : NoOther w) (s : St) (hs : Good w s) (t : Nat) :
    ∃ s', Reach w t (s, .start) (s', .done (extensions w t)) ∧ Good w s' ∧ Py.Dict.get s'.cache t = some (extensions w t) ∧
      s'.loaded = some (modules w) := by
  rcases hs with ⟨h1, h2⟩ | ⟨h1, h2⟩
  · obtain ⟨L, c⟩ := s
    simp only at h1 h2
    subst h1 h2
    have hload := reach_load w t w.found hw [] []
    obtain ⟨s', k1, k2, k3, k4⟩ := reach_look w t ⟨some (modules w), []⟩ rfl (by intro t l h; cases h)
    exact ⟨s', .trans (.one (by simp [step])) (.trans hload k1), .inr ⟨k2, k4⟩, k3, k2⟩
  · obtain ⟨s', k1, k2, k3, k4⟩ := reach_look w t s h1 h2
    exact ⟨s', .trans (.one (by simp [step, h1])) k1, .inr ⟨k2, k4⟩, k3, k2⟩

/-- calls made one after the other, with their answers -/
inductive Calls (w : World) : St → List (Nat × List Nat) → St → Prop
  | nil (s) : Calls w s [] s
  | cons {s t l s' r s''} : Reach w t (s, .start) (s', .done l) → Calls w s' r s'' → Calls w s ((t, l) :: r) s''

theorem steps_done (w : World) (t n : Nat) (s : St) (l : List Nat) : steps w t n (s, .done l) = (s, .done l) := by
  induction n with
  | zero => rfl
  | succ n ih => rw [steps]; exact ih

theorem reach_unique {w : World} {t : Nat} {a : St × Pc} {s s' : St} {l l' : List Nat} (h : Reach w t a (s, .done l)) (h' : Reach w t a (s', .done l')) :
    s = s' ∧ l = l' := by
  obtain ⟨n, h⟩ := h
  obtain ⟨m, h'⟩ := h'
  have e1 := steps_add w t n m a
  have e2 := steps_add w t m n a
  rw [h, steps_done] at e1
  rw [h', steps_done, Nat.add_comm] at e2
  rw [e1] at e2
  cases e2
  exact ⟨rfl, rfl⟩

theorem c133_good {w : World} (hw : NoOther w) {s s' : St} {r : List (Nat × List Nat)} (hs : Good w s) (h : Calls w s r s') :
    Good w s' ∧ ∀ e ∈ r, e.2 = extensions w e.1 := by
  induction h with
  | nil => exact ⟨hs, by simp⟩
  | @cons s t l s1 r s2 h1 _ ih =>
    obtain ⟨x, k1, k2, -, -⟩ := c133_call_partial w hw _ hs t
    obtain ⟨rfl, rfl⟩ := reach_unique h1 k1
    obtain ⟨i1, i2⟩ := ih k2
    refine ⟨i1, fun e he => ?_⟩
    rcases List.mem_cons.mp he with rfl | he
    · rfl
    · exact i2 e he

/-- C133. Whatever types were asked for before, one call after the other: every answer is every extension of the type. -/
theorem c133_calls_partial (w : World) (hw : NoOther w) (r : List (Nat × List Nat)) (s' : St) (h : Calls w {} r s') :
    ∀ e ∈ r, e.2 = extensions w e.1 := (c133_good hw (.inl ⟨rfl, rfl⟩) h).2

/-! ### Threads -/

/-- where a call may be once everything is loaded -/
def Late (t0 : Nat) : Nat × Pc → Prop
  | (_, .start) | (_, .look) => True
  | (t, .create) | (t, .fill _ _) => t ≠ t0
  | (_, .done _) => True
  | (_, _) => False

structure Warm (w : World) (t0 : Nat) (s : Sys) : Prop where
  loaded : s.st.loaded = some (modules w)
  cached : Py.Dict.get s.st.cache t0 = some (extensions w t0)
  late : ∀ x ∈ s.threads, Late t0 x
  ans : ∀ l, (t0, Pc.done l) ∈ s.threads → l = extensions w t0

theorem warm_step {w : World} {t0 : Nat} {s : Sys} (h : Warm w t0 s) (i : Nat) : Warm w t0 (sched w s i) := by
  unfold sched
  split
  case h_2 => exact h
  rename_i t pc hi
  have hmem := List.mem_of_getElem? hi
  have hlate := h.late _ hmem
  have build : ∀ (st' : St) (pc' : Pc), st'.loaded = some (modules w) → Py.Dict.get st'.cache t0 = some (extensions w t0) → Late t0 (t, pc') →
      (∀ l, t = t0 → pc' = .done l → l = extensions w t0) → Warm w t0 ⟨st', s.threads.set i (t, pc')⟩ := by
    intro st' pc' h1 h2 h3 h4
    refine ⟨h1, h2, ?_, ?_⟩
    · intro x hx
      rcases List.mem_or_eq_of_mem_set hx with hx | rfl
      · exact h.late x hx
      · exact h3
    · intro l hx
      rcases List.mem_or_eq_of_mem_set hx with hx | hx
      · exact h.ans l hx
      · simp only [Prod.mk.injEq] at hx
        exact h4 l hx.1.symm hx.2.symm
  cases pc with
  | start =>
    simp only [step, h.loaded]
    exact build _ _ h.loaded h.cached trivial (fun l _ hl => (by cases hl))
  | load fs => exact hlate.elim
  | raised => exact hlate.elim
  | look =>
    simp only [step]
    cases hg : Py.Dict.get s.st.cache t with
    | some l =>
      refine build _ _ h.loaded h.cached trivial (fun l' ht hl => ?_)
      cases hl
      subst ht
      rw [h.cached] at hg
      exact (Option.some.inj hg).symm
    | none =>
      refine build _ _ h.loaded h.cached ?_ (fun l _ hl => (by cases hl))
      show t ≠ t0
      rintro rfl
      rw [h.cached] at hg
      cases hg
  | create =>
    have ht : t ≠ t0 := hlate
    simp only [step]
    split
    · exact build _ _ h.loaded h.cached ht (fun l _ hl => (by cases hl))
    · refine build _ _ h.loaded ?_ ht (fun l _ hl => (by cases hl))
      simp only
      rw [Py.Dict.get_set, if_neg (fun e => ht e.symm)]
      exact h.cached
  | fill k as =>
    have ht : t ≠ t0 := hlate
    cases as with
    | cons a as =>
      simp only [step]
      split
      · refine build _ _ h.loaded ?_ ht (fun l _ hl => (by cases hl))
        simp only
        rw [Py.Dict.get_set, if_neg (fun e => ht e.symm)]
        exact h.cached
      · exact build _ _ h.loaded h.cached ht (fun l _ hl => (by cases hl))
    | nil =>
      simp only [step]
      split
      · exact build _ _ h.loaded h.cached ht (fun l _ hl => (by cases hl))
      · exact build _ _ h.loaded h.cached trivial (fun l e _ => absurd e ht)
  | done l =>
    simp only [step]
    refine build _ _ h.loaded h.cached trivial (fun l' ht hl => ?_)
    cases hl
    subst ht
    exact h.ans l hmem

/-- C133. Once a type was asked for without disturbance, every later answer for it is right in every schedule of threads that ask for any types. -/
theorem c133_threads_partial (w : World) (hw : NoOther w) (s s' : St) (hs : Good w s) (t : Nat) (l : List Nat)
    (h : Reach w t (s, .start) (s', .done l)) (ts : List Nat) (acts : List Nat) (a : List Nat)
    (ha : (t, Pc.done a) ∈ (run w ⟨s', ts.map fun u => (u, .start)⟩ acts).threads) : a = extensions w t := by
  obtain ⟨x, k1, k2, k3, k4⟩ := c133_call_partial w hw s hs t
  obtain ⟨rfl, rfl⟩ := reach_unique h k1
  have h0 : Warm w t ⟨s', ts.map fun u => (u, .start)⟩ := by
    refine ⟨k4, k3, ?_, ?_⟩
    · intro x hx
      obtain ⟨u, _, rfl⟩ := List.mem_map.mp hx
      trivial
    · intro l hx
      obtain ⟨u, _, he⟩ := List.mem_map.mp hx
      cases he
  have : ∀ acts s, Warm w t s → Warm w t (run w s acts) := by
    intro acts
    induction acts with
    | nil => intro s h; exact h
    | cons i acts ih => intro s h; exact ih _ (warm_step h i)
  exact (this acts _ h0).ans a ha

/-! ### Cases, and what happens when the first calls meet -/

def sample : World where
  found := [⟨c!"ext.types", true, .ok, ⟨[], none⟩⟩, ⟨c!"ext.types.pydevd_plugin_a", false, .ok, ⟨[⟨c!"A", some 1, true⟩, ⟨c!"Base", some 0, true⟩,
      ⟨c!"_B", some 2, true⟩], none⟩⟩,
    ⟨c!"ext.types.helper", false, .ok, ⟨[⟨c!"H", some 3, true⟩], none⟩⟩, ⟨c!"ext.pydevd_plugin_b", false, .importError, ⟨[], none⟩⟩,
    ⟨c!"ext.pydevd_plugin_c", false, .ok, ⟨[⟨c!"C", some 4, true⟩, ⟨c!"D", some 5, false⟩, ⟨c!"E", some 6, true⟩], some [c!"C", c!"D"]⟩⟩]
  sub := fun _ t => t == 0

theorem c133_example : NoOther sample ∧ extensions sample 0 = [1, 4] ∧ (steps sample 0 40 ({}, .start)).2 = .done [1, 4] := by
  refine ⟨by unfold NoOther; decide, by decide, by decide +kernel⟩

/-- Two threads ask for the first time: the second finds the list of modules begun, and caches that there are no extensions. From then on every
answer is empty, also when all modules are loaded. -/
theorem c133_lost_witness : (run sample ⟨{}, [(0, .start), (0, .start), (0, .start)]⟩
      ([0] ++ List.replicate 5 1 ++ List.replicate 40 0 ++ List.replicate 40 2)).threads = [(0, .done []), (0, .done []), (0, .done [])] := by
  decide +kernel

/-- Two threads both find that nothing is cached: every extension is there twice, for good. -/
theorem c133_twice_witness : (run sample ⟨⟨some (modules sample), []⟩, [(0, .start), (0, .start), (0, .start)]⟩
      ([0, 0, 1, 1] ++ List.replicate 40 0 ++ List.replicate 40 1 ++ List.replicate 4 2)).threads =
    [(0, .done [1, 4]), (0, .done [1, 4, 1, 4]), (0, .done [1, 4, 1, 4])] := by
  decide +kernel

/-- A module that fails with another error than `ImportError`: the call fails, and the modules after it are never loaded. -/
theorem c133_other_witness :
    let w : World := { sample with found := ⟨c!"ext.pydevd_plugin_0", false, .other, ⟨[], none⟩⟩ :: sample.found }
    (steps w 0 40 ({}, .start)).2 = .raised ∧ (steps w 0 40 ((steps w 0 40 ({}, .start)).1, .start)).2 = .done [] ∧ extensions w 0 = [1, 4] := by
  refine ⟨by decide +kernel, by decide +kernel, by decide⟩

end Extensions
