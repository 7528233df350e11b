import Verif.Breakpoints.Spec
/-! Helper lemmas for C17. -/

namespace Breakpoints
open Spec Py

/-- The entries of one file. -/
def proj (f : File) (d : List (Nat × File × Bp)) : List (Nat × Bp) :=
  d.filterMap (fun e => if e.2.1 = f then some (e.1, e.2.2) else none)

theorem proj_nil (f : File) : proj f [] = [] := rfl

theorem proj_cons (f : File) (e : Nat × File × Bp) (d : List (Nat × File × Bp)) :
    proj f (e :: d) = if e.2.1 = f then (e.1, e.2.2) :: proj f d else proj f d := by
  simp only [proj, List.filterMap_cons]; split <;> simp_all

theorem mem_proj {f : File} {d : List (Nat × File × Bp)} {i : Nat} {b : Bp} :
    (i, b) ∈ proj f d ↔ (i, f, b) ∈ d := by
  simp only [proj, List.mem_filterMap]
  constructor
  · rintro ⟨⟨j, g, c⟩, he, h⟩
    simp only at h
    split at h
    · rename_i hg; subst hg; cases h; exact he
    · cases h
  · intro h
    exact ⟨_, h, by simp⟩

theorem proj_set_same (d : List (Nat × File × Bp)) (f : File) (i : Nat) (b : Bp)
    (h : ∀ g c, (i, g, c) ∈ d → g = f) : proj f (Dict.set d i (f, b)) = Dict.set (proj f d) i b := by
  induction d with
  | nil => simp [Dict.set, proj]
  | cons e d ih =>
    obtain ⟨j, g, c⟩ := e
    have ih' := ih (fun g c hm => h g c (by simp [hm]))
    simp only [Dict.set]
    by_cases hj : j = i
    · subst hj
      have hg := h g c (by simp)
      subst hg
      simp [proj_cons, Dict.set]
    · simp only [hj, if_false, proj_cons, ih']
      split
      · simp [Dict.set, hj]
      · rfl

theorem proj_set_other (d : List (Nat × File × Bp)) (f g : File) (i : Nat) (b : Bp) (hfg : g ≠ f)
    (h : ∀ x c, (i, x, c) ∈ d → x = f) : proj g (Dict.set d i (f, b)) = proj g d := by
  induction d with
  | nil => simp [Dict.set, proj, Ne.symm hfg]
  | cons e d ih =>
    obtain ⟨j, x, c⟩ := e
    have ih' := ih (fun x c hm => h x c (by simp [hm]))
    simp only [Dict.set]
    by_cases hj : j = i
    · subst hj
      have hx := h x c (by simp)
      subst hx
      simp [proj_cons, Ne.symm hfg]
    · simp only [hj, if_false, proj_cons, ih']

theorem proj_erase (d : List (Nat × File × Bp)) (f : File) (i : Nat) :
    proj f (Dict.erase d i) = Dict.erase (proj f d) i := by
  induction d with
  | nil => rfl
  | cons e d ih =>
    simp only [Dict.erase, List.filter_cons] at *
    by_cases h : e.1 = i
    · simp only [h, bne_self_eq_false, Bool.false_eq_true, if_false, ih, proj_cons]
      split <;> simp
    · have hb : (e.1 != i) = true := by simpa using h
      simp only [hb, if_true, proj_cons, ih]
      split
      · simp [hb]
      · rfl

theorem erase_of_not_has (d : List (Nat × File × Bp)) (i : Nat) (h : Dict.get d i = none) : Dict.erase d i = d := by
  rw [Dict.get_none_iff] at h
  rw [Dict.erase, List.filter_eq_self]
  intro e he
  simp only [bne_iff_ne, ne_eq]
  rintro rfl
  exact h (List.mem_map.2 ⟨e, he, rfl⟩)

theorem get_foldl_set (m : List (Nat × Bp)) (d : List (Nat × Bp)) (l : Nat) :
    Dict.get (m.foldl (fun d e => Dict.set d e.2.line e.2) d) l =
      match (m.filter (fun e => e.2.line = l)).getLast? with
      | some e => some e.2
      | none => Dict.get d l := by
  induction m generalizing d with
  | nil => simp
  | cons e m ih =>
    rw [List.foldl_cons, ih, List.filter_cons]
    by_cases h : e.2.line = l
    · simp only [h, decide_true, if_true]
      cases hm : m.filter (fun e => e.2.line = l) with
      | nil => simp [Dict.get_set]
      | cons x xs =>
        rw [List.getLast?_cons_cons]
        simp [List.getLast?_cons]
    · simp only [h, decide_false, Bool.false_eq_true, if_false]
      split
      · rfl
      · rw [Dict.get_set, if_neg (Ne.symm h)]

theorem get_breakDict (m : List (Nat × Bp)) (l : Nat) :
    Dict.get (breakDict m) l = (m.filter (fun e => e.2.line = l)).getLast?.map (·.2) := by
  rw [breakDict, get_foldl_set]
  split
  · rename_i h; simp [h]
  · rename_i h; simp [h, Dict.get_nil]

theorem get_breakDict_proj (d : List (Nat × File × Bp)) (f : File) (l : Nat) :
    Dict.get (breakDict (proj f d)) l = lastAt d f l := by
  rw [get_breakDict, lastAt]
  have : (proj f d).filter (fun e => e.2.line = l) =
      (d.filter (fun e => e.2.1 = f ∧ e.2.2.line = l)).map (fun e => (e.1, e.2.2)) := by
    induction d with
    | nil => rfl
    | cons e d ih =>
      rw [proj_cons, List.filter_cons]
      by_cases hf : e.2.1 = f <;> by_cases hl : e.2.2.line = l
      · simp [hf, hl, ih]
      · simp [hf, hl, ih]
      · simp [hf, ih]
      · simp [hf, ih]
  rw [this]
  rw [List.getLast?_map, Option.map_map]; rfl

theorem target_reach (env : Env) (p : Params) (adj : Bool) : Reach env p.name (target env p adj).1 := by
  unfold target
  split
  · rename_i f l h; exact .inr ⟨p.line, l, h⟩
  · exact .inl rfl

/-- The relation between the store and the specification. -/
structure Rel (env : Env) (s : State) (σ : Store) : Prop where
  ids : ∀ a f, Reach env a f → (s.ids f).getD [] = proj f (σ (env.norm a))
  noIds : ∀ f, (¬ ∃ a, Reach env a f) → s.ids f = none
  lines : ∀ f, s.lines f = (s.ids f).map breakDict
  received : ∀ n i f b, (i, f, b) ∈ σ n → ∃ p, Dict.get s.received (n, i) = some (f, p)
  recvReach : ∀ n i f p, ((n, i), (f, p)) ∈ s.received → ∃ a, env.norm a = n ∧ Reach env a f
  recvOk : Dict.Ok s.received
  ok : ∀ n, Dict.Ok (σ n)

theorem rel_start (env : Env) : Rel env {} (fun _ => []) := by
  constructor <;> simp [Dict.Ok, proj_nil]

theorem mem_erase {κ ν : Type} [DecidableEq κ] {d : List (κ × ν)} {k : κ} {e : κ × ν} :
    e ∈ Dict.erase d k ↔ e ∈ d ∧ e.1 ≠ k := by simp [Dict.erase]

theorem rel_step (env : Env) (ho : Owned env) {s : State} {σ : Store} (hr : Rel env s σ) (o : Op)
    (hok : OpOk env σ o) : Rel env (step env s o) (specStep env σ o) := by
  obtain ⟨h1, h2, h3, h4, h5, h6, h7⟩ := hr
  cases o with
  | add p adj =>
    have hre := target_reach env p adj
    simp only [OpOk] at hok
    simp only [step, addBreakpoint, specStep]
    revert hre hok
    generalize target env p adj = t
    obtain ⟨f, l, rep, ok⟩ := t
    intro hok hre
    simp only at hok hre ⊢
    have hmem : ∀ g c, (p.id, g, c) ∈ σ (env.norm p.name) → g = f := fun g c hm =>
      hok g c (Dict.get_of_mem (h7 _) hm)
    have hrecv : ∀ n i g b, (i, g, b) ∈ σ n →
        ∃ q, Dict.get (Dict.set s.received (env.norm p.name, p.id) (f, p)) (n, i) = some (g, q) := by
      intro n i g b hm
      rw [Dict.get_set]
      split
      · rename_i hk
        cases hk
        exact ⟨p, by rw [hmem g b hm]⟩
      · exact h4 n i g b hm
    have hrr : ∀ n i g q, ((n, i), (g, q)) ∈ Dict.set s.received (env.norm p.name, p.id) (f, p) →
        ∃ a, env.norm a = n ∧ Reach env a g := by
      intro n i g q hm
      rw [Dict.mem_set h6] at hm
      rcases hm with h | ⟨h, _⟩
      · cases h; exact ⟨p.name, rfl, hre⟩
      · exact h5 n i g q h
    cases ok with
    | false =>
      simp only [Bool.not_false, if_true, Bool.false_eq_true, if_false]
      exact ⟨h1, h2, h3, hrecv, hrr, Dict.ok_set h6 _ _, h7⟩
    | true =>
      simp only [Bool.not_true, Bool.false_eq_true, if_false, if_true]
      have hold := h1 p.name f hre
      constructor
      · intro a g hg
        simp only [setFile]
        by_cases hgf : g = f
        · subst hgf
          have hn : env.norm a = env.norm p.name := ho a p.name g hg hre
          simp only [hn, if_true, Option.getD_some]
          rw [proj_set_same _ _ _ _ hmem, hold]
        · simp only [hgf, if_false]
          rw [h1 a g hg]
          split
          · rename_i hn
            rw [proj_set_other _ _ _ _ _ hgf (by rw [hn]; exact hmem)]
          · rfl
      · intro g hg
        have : g ≠ f := by rintro rfl; exact hg ⟨_, hre⟩
        simp only [setFile, this, if_false]
        exact h2 g hg
      · intro g
        simp only [setFile]
        split
        · simp
        · exact h3 g
      · intro n i g b hm
        split at hm
        · rename_i hn
          subst hn
          rw [Dict.mem_set (h7 _)] at hm
          rcases hm with h | ⟨h, _⟩
          · cases h; exact ⟨p, by simp [Dict.get_set]⟩
          · exact hrecv _ i g b h
        · exact hrecv n i g b hm
      · exact hrr
      · exact Dict.ok_set h6 _ _
      · intro n
        split
        · exact Dict.ok_set (h7 _) _ _
        · exact h7 n
  | remove name id =>
    simp only [OpOk] at hok
    simp only [step, removeBreakpoint, specStep]
    have hreach : Reach env name (env.canon name) := .inl rfl
    have hold := h1 name _ hreach
    rw [hold]
    have hrecv : ∀ n i g b, (i, g, b) ∈ (if n = env.norm name then Dict.erase (σ n) id else σ n) →
        ∃ q, Dict.get (Dict.erase s.received (env.norm name, id)) (n, i) = some (g, q) := by
      intro n i g b hm
      rw [Dict.get_erase]
      split at hm
      · rename_i hn
        rw [mem_erase] at hm
        have : (n, i) ≠ (env.norm name, id) := by
          intro h; exact hm.2 (Prod.ext_iff.1 h).2
        rw [if_neg this]
        exact h4 n i g b hm.1
      · rename_i hn
        have : (n, i) ≠ (env.norm name, id) := by
          intro h; exact hn (Prod.ext_iff.1 h).1
        rw [if_neg this]
        exact h4 n i g b hm
    have hrr : ∀ n i g q, ((n, i), (g, q)) ∈ Dict.erase s.received (env.norm name, id) →
        ∃ a, env.norm a = n ∧ Reach env a g := by
      intro n i g q hm
      rw [mem_erase] at hm
      exact h5 n i g q hm.1
    have hok7 : ∀ n, Dict.Ok (if n = env.norm name then Dict.erase (σ n) id else σ n) := by
      intro n; split
      · exact Dict.ok_erase (h7 n) _
      · exact h7 n
    -- other files are untouched by the erasure
    have hother : ∀ a g, Reach env a g → g ≠ env.canon name →
        proj g (if env.norm a = env.norm name then Dict.erase (σ (env.norm a)) id else σ (env.norm a)) =
          proj g (σ (env.norm a)) := by
      intro a g hg hne
      split
      · rename_i hn
        rw [proj_erase, hn]
        rw [Dict.erase, List.filter_eq_self]
        rintro ⟨i, b⟩ hm
        simp only [bne_iff_ne, ne_eq]
        rintro rfl
        have := mem_proj.1 hm
        exact hne (hok g b (Dict.get_of_mem (h7 _) this))
      · rfl
    split
    · rename_i hhas
      refine ⟨?_, ?_, ?_, hrecv, hrr, Dict.ok_erase h6 _, hok7⟩
      · intro a g hg
        simp only [setFile]
        by_cases hgf : g = env.canon name
        · subst hgf
          have hn : env.norm a = env.norm name := ho a name _ hg hreach
          simp only [hn, if_true, Option.getD_some]
          rw [proj_erase]
        · simp only [hgf, if_false]
          rw [h1 a g hg, hother a g hg hgf]
      · intro g hg
        have : g ≠ env.canon name := by rintro rfl; exact hg ⟨_, hreach⟩
        simp only [setFile, this, if_false]
        exact h2 g hg
      · intro g
        simp only [setFile]
        split
        · simp
        · exact h3 g
    · rename_i hhas
      refine ⟨?_, h2, h3, hrecv, hrr, Dict.ok_erase h6 _, hok7⟩
      intro a g hg
      rw [h1 a g hg]
      by_cases hgf : g = env.canon name
      · subst hgf
        have hn : env.norm a = env.norm name := ho a name _ hg hreach
        simp only [hn, if_true]
        rw [proj_erase, Dict.erase]
        symm
        rw [List.filter_eq_self]
        rintro ⟨i, b⟩ hm
        simp only [bne_iff_ne, ne_eq]
        rintro rfl
        exact hhas ((Dict.has_iff _ _).2 (List.mem_map.2 ⟨_, hm, rfl⟩))
      · rw [hother a g hg hgf]
  | removeAll name =>
    simp only [step, removeAll, popFiles, specStep]
    have hfiles : ∀ f, f ∈ (s.received.filter (fun e => e.1.1 == env.norm name)).map (fun e => e.2.1) ↔
        ∃ i p, ((env.norm name, i), (f, p)) ∈ s.received := by
      intro f
      simp only [List.mem_map, List.mem_filter, beq_iff_eq]
      constructor
      · rintro ⟨⟨⟨n, i⟩, g, p⟩, ⟨hm, hn⟩, rfl⟩
        simp only at hn; subst hn
        exact ⟨i, p, hm⟩
      · rintro ⟨i, p, hm⟩
        exact ⟨_, ⟨hm, rfl⟩, rfl⟩
    constructor
    · intro a f hf
      by_cases hn : env.norm a = env.norm name
      · simp only [hn, if_true, proj_nil]
        split
        · rfl
        · rename_i hno
          rw [h1 a f hf, List.eq_nil_iff_forall_not_mem]
          rintro ⟨i, b⟩ hm
          obtain ⟨p, hp⟩ := h4 _ _ _ _ (mem_proj.1 hm)
          exact hno ((hfiles f).2 ⟨i, p, by rw [← hn]; exact Dict.mem_of_get hp⟩)
      · simp only [hn, if_false]
        split
        · rename_i hyes
          obtain ⟨i, p, hm⟩ := (hfiles f).1 hyes
          obtain ⟨b, hb, hbf⟩ := h5 _ _ _ _ hm
          exact absurd ((ho a b f hf hbf).trans hb) hn
        · exact h1 a f hf
    · intro f hf
      simp only
      split
      · rfl
      · exact h2 f hf
    · intro f
      simp only
      split
      · rfl
      · exact h3 f
    · intro n i f b hm
      split at hm
      · cases hm
      · rename_i hn
        obtain ⟨p, hp⟩ := h4 n i f b hm
        refine ⟨p, Dict.get_of_mem (Dict.ok_filter h6 _) ?_⟩
        rw [List.mem_filter]
        exact ⟨Dict.mem_of_get hp, by simpa using hn⟩
    · intro n i f p hm
      exact h5 n i f p (List.mem_filter.1 hm).1
    · exact Dict.ok_filter h6 _
    · intro n
      split
      · exact Dict.ok_nil
      · exact h7 n
  | clear => exact rel_start env

theorem rel_run (env : Env) (ho : Owned env) (ops : List Op) (s : State) (σ : Store) (hr : Rel env s σ)
    (hv : Valid env σ ops) : Rel env (ops.foldl (step env) s) (ops.foldl (specStep env) σ) := by
  induction ops generalizing s σ with
  | nil => exact hr
  | cons o os ih => exact ih _ _ (rel_step env ho hr o hv.1) hv.2

theorem lookup_rel (env : Env) {s : State} {σ : Store} (hr : Rel env s σ) {a : Name} {f : File}
    (ha : Reach env a f) (l : Nat) : lookup s f l = lastAt (σ (env.norm a)) f l := by
  rw [lookup, hr.lines f, ← get_breakDict_proj, ← hr.ids a f ha]
  cases s.ids f with
  | none => rfl
  | some m => rfl

end Breakpoints
