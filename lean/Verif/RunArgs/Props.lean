import Verif.RunArgs.Spec
/-!
C123: the command line of the test runner.
-/

namespace RunArgs
open Spec

/-! ### Options -/

theorem longopts_eq : longopts = names.map (· ++ ['=']) := by decide

theorem names_nodup : names.Nodup := by decide

theorem prefix_eq {w m : Str} (hw : '=' ∉ w) : w <+: m ++ ['='] ↔ w <+: m := by
  constructor
  · rintro ⟨r, hr⟩
    rcases List.eq_nil_or_concat r with rfl | ⟨r', x, rfl⟩
    · exfalso; apply hw
      rw [List.append_nil] at hr
      rw [hr]; simp
    · rw [List.concat_eq_append, ← List.append_assoc] at hr
      obtain ⟨h, _⟩ := List.append_inj' hr rfl
      exact ⟨r', h⟩
  · intro h; exact h.trans (List.prefix_append _ _)

theorem eq_singleton {α : Type} {l : List α} {x : α} (hn : l.Nodup) (hx : x ∈ l) (h : ∀ y ∈ l, y = x) : l = [x] := by
  match l with
  | [] => simp at hx
  | [a] => rw [h a (by simp)]
  | a :: b :: r =>
    exfalso
    have h1 := h a (by simp)
    have h2 := h b (by simp)
    rw [h1, h2] at hn
    simp at hn

theorem mem_poss {w u : Str} (hw : '=' ∉ w) :
    u ∈ longopts.filter (fun o => Py.startsWith o w) ↔ ∃ m ∈ names, u = m ++ ['='] ∧ w <+: m := by
  rw [List.mem_filter, longopts_eq, List.mem_map]
  constructor
  · rintro ⟨⟨m, hm, rfl⟩, h⟩
    exact ⟨m, hm, rfl, (prefix_eq hw).1 ((Py.startsWith_iff _ _).1 h)⟩
  · rintro ⟨m, hm, rfl, h⟩
    exact ⟨⟨m, hm, rfl⟩, (Py.startsWith_iff _ _).2 ((prefix_eq hw).2 h)⟩

theorem longHasArgs_iff {w full : Str} {b : Bool} (hw : '=' ∉ w) : longHasArgs w longopts = some (b, full) ↔ b = true ∧ Means w full := by
  have hnot : w ∉ longopts.filter (fun o => Py.startsWith o w) := by
    intro h
    obtain ⟨m, _, he, _⟩ := (mem_poss hw).1 h
    apply hw; rw [he]; simp
  have hin : w ++ ['='] ∈ longopts.filter (fun o => Py.startsWith o w) ↔ w ∈ names := by
    rw [mem_poss hw]
    constructor
    · rintro ⟨m, hm, he, _⟩
      rw [List.append_cancel_right he]; exact hm
    · intro h; exact ⟨w, h, rfl, List.prefix_refl _⟩
  have hm : ∀ n, Means w n → n ++ ['='] ∈ longopts.filter (fun o => Py.startsWith o w) := by
    intro n hn
    refine (mem_poss hw).2 ⟨n, hn.1, rfl, ?_⟩
    rcases hn.2 with h | h
    · rw [h]; exact List.prefix_refl _
    · exact h.1
  unfold longHasArgs
  dsimp only
  split
  · rename_i he
    constructor
    · intro h; cases h
    · rintro ⟨_, h⟩
      have := hm _ h
      rw [he] at this; simp at this
  split
  · rename_i _ h1
    have hmem := hin.1 h1
    constructor
    · intro h
      cases h
      exact ⟨rfl, hmem, .inl rfl⟩
    · rintro ⟨rfl, h⟩
      have : full = w := by
        rcases h.2 with h | h
        · exact h.symm
        · exact (h.2 w hmem (List.prefix_refl _)).symm
      rw [this]
  · rename_i hne h1
    have hnm : w ∉ names := fun h => h1 (hin.2 h)
    constructor
    · intro h
      split at h
      · rename_i u hu
        have hmu : u ∈ longopts.filter (fun o => Py.startsWith o w) := by rw [hu]; simp
        obtain ⟨m, hm1, rfl, hp⟩ := (mem_poss hw).1 hmu
        rw [if_pos ((Py.endsWith_iff _ _).2 (List.suffix_append _ _))] at h
        simp only [Option.some.injEq, Prod.mk.injEq, List.dropLast_concat] at h
        obtain ⟨rfl, rfl⟩ := h
        refine ⟨rfl, hm1, .inr ⟨hp, ?_⟩⟩
        intro m' hm' hp'
        have : m' ++ ['='] ∈ longopts.filter (fun o => Py.startsWith o w) := (mem_poss hw).2 ⟨m', hm', rfl, hp'⟩
        rw [hu, List.mem_singleton] at this
        exact List.append_cancel_right this
      · cases h
    · rintro ⟨rfl, h⟩
      have hu : longopts.filter (fun o => Py.startsWith o w) = [full ++ ['=']] := by
        refine eq_singleton (List.Nodup.sublist List.filter_sublist (by decide)) (hm _ h) ?_
        intro y hy
        obtain ⟨m, hm1, rfl, hp⟩ := (mem_poss hw).1 hy
        rcases h.2 with e | e
        · exact absurd (e ▸ h.1) hnm
        · rw [e.2 m hm1 hp]
      rw [hu]
      dsimp only
      rw [if_pos ((Py.endsWith_iff _ _).2 (List.suffix_append _ _)), List.dropLast_concat]

theorem cutAt_none {w : Str} (h : '=' ∉ w) : cutAt w = (w, none) := by
  induction w with
  | nil => rfl
  | cons c w ih =>
    simp only [List.mem_cons, not_or] at h
    rw [cutAt, if_neg (fun e => h.1 e.symm), ih h.2]; rfl

theorem cutAt_some {w v : Str} (h : '=' ∉ w) : cutAt (w ++ '=' :: v) = (w, some v) := by
  induction w with
  | nil => simp [cutAt]
  | cons c w ih =>
    simp only [List.mem_cons, not_or] at h
    rw [List.cons_append, cutAt, if_neg (fun e => h.1 e.symm), ih h.2]; rfl

theorem cut_cases (s : Str) : '=' ∉ s ∨ ∃ w v, '=' ∉ w ∧ s = w ++ '=' :: v := by
  induction s with
  | nil => simp
  | cons c s ih =>
    by_cases hc : c = '='
    · exact .inr ⟨[], s, by simp, by simp [hc]⟩
    · have hc' : ¬ '=' = c := fun e => hc e.symm
      rcases ih with h | ⟨w, v, h1, h2⟩
      · left; simp [h, hc']
      · exact .inr ⟨c :: w, v, by simp [h1, hc'], by rw [h2]; rfl⟩

def dash (o : Str × Str) : Str × Str := (c!"--" ++ o.1, o.2)

theorem doLongs_joined {w v : Str} {args : List Str} (hw : '=' ∉ w) {o : Str × Str} {rest : List Str} :
    doLongs (w ++ '=' :: v) longopts args = some (o, rest) ↔ ∃ n, Means w n ∧ o = dash (n, v) ∧ rest = args := by
  unfold doLongs
  rw [cutAt_some hw]
  dsimp only
  cases hl : longHasArgs w longopts with
  | none =>
    dsimp only
    constructor
    · intro h; cases h
    · rintro ⟨n, hn, _⟩
      rw [(longHasArgs_iff hw).2 ⟨rfl, hn⟩] at hl; cases hl
  | some x =>
    obtain ⟨b, full⟩ := x
    obtain ⟨rfl, hm⟩ := (longHasArgs_iff hw).1 hl
    dsimp only
    constructor
    · intro h
      simp only [Option.some.injEq, Prod.mk.injEq] at h
      exact ⟨full, hm, h.1.symm, h.2.symm⟩
    · rintro ⟨n, hn, rfl, rfl⟩
      have := (longHasArgs_iff hw).2 ⟨rfl, hn⟩
      rw [hl] at this
      cases this
      rfl

theorem doLongs_apart {w : Str} {args : List Str} (hw : '=' ∉ w) {o : Str × Str} {rest : List Str} :
    doLongs w longopts args = some (o, rest) ↔ ∃ n v, Means w n ∧ o = dash (n, v) ∧ args = v :: rest := by
  unfold doLongs
  rw [cutAt_none hw]
  dsimp only
  cases hl : longHasArgs w longopts with
  | none =>
    dsimp only
    constructor
    · intro h; cases h
    · rintro ⟨n, v, hn, _⟩
      rw [(longHasArgs_iff hw).2 ⟨rfl, hn⟩] at hl; cases hl
  | some x =>
    obtain ⟨b, full⟩ := x
    obtain ⟨rfl, hm⟩ := (longHasArgs_iff hw).1 hl
    cases args with
    | nil =>
      dsimp only
      constructor
      · intro h; cases h
      · rintro ⟨_, _, _, _, h⟩; cases h
    | cons a args =>
      dsimp only
      constructor
      · intro h
        simp only [Option.some.injEq, Prod.mk.injEq] at h
        exact ⟨full, a, hm, h.1.symm, by rw [h.2]⟩
      · rintro ⟨n, v, hn, rfl, h⟩
        cases h
        have := (longHasArgs_iff hw).2 ⟨rfl, hn⟩
        rw [hl] at this
        cases this
        rfl

/-- what `getopt` finds is what the line says -/
theorem getopt_line {args : List Str} {os : List (Str × Str)} {fs : List Str} (h : getopt [] longopts args = some (os, fs)) :
    ∃ os', os = os'.map dash ∧ Line args os' fs := by
  generalize hn : args.length = n
  induction n using Nat.strongRecOn generalizing args os fs with
  | ind n ih =>
    cases args with
    | nil => rw [getopt] at h; cases h; exact ⟨[], rfl, .nil⟩
    | cons a args =>
      rw [getopt] at h
      split at h
      · rename_i ha
        cases h; subst ha
        exact ⟨[], rfl, .rest _⟩
      split at h
      · rename_i _ ha
        have e : a = c!"--" ++ a.drop 2 := by conv => lhs; rw [← List.take_append_drop 2 a, ha]
        generalize a.drop 2 = r at e h
        subst e
        split at h
        · cases h
        · rename_i o rest hd
          have hlen := doLongs_length hd
          cases hg : getopt [] longopts rest with
          | none => rw [hg] at h; cases h
          | some x =>
            rw [hg] at h
            simp only [Option.map_some, Option.some.injEq, Prod.mk.injEq] at h
            obtain ⟨rfl, rfl⟩ := h
            obtain ⟨os', h1, h2⟩ := ih rest.length (by simp at hn; omega) hg rfl
            rcases cut_cases r with hr | ⟨w, v, hw, rfl⟩
            · obtain ⟨n', v, hm, rfl, rfl⟩ := (doLongs_apart hr).1 hd
              exact ⟨(n', v) :: os', by rw [h1]; rfl, .apart hr hm h2⟩
            · obtain ⟨n', hm, rfl, rfl⟩ := (doLongs_joined hw).1 hd
              refine ⟨(n', v) :: os', by rw [h1]; rfl, ?_⟩
              have := Line.joined (v := v) hw hm h2
              simpa using this
      split at h
      · rename_i _ _ ha
        split at h
        · cases h
        · rename_i os1 rest hd
          cases a with
          | nil => simp at ha
          | cons x a =>
            simp only [List.take_succ_cons, List.take_zero, List.cons.injEq, and_true] at ha
            subst ha
            cases a with
            | cons y a => simp [doShorts, shortHasArg] at hd
            | nil =>
              simp only [List.drop_succ_cons, List.drop_zero, doShorts, Option.some.injEq, Prod.mk.injEq] at hd
              obtain ⟨rfl, rfl⟩ := hd
              cases hg : getopt [] longopts args with
              | none => rw [hg] at h; cases h
              | some x =>
                rw [hg] at h
                cases h
                obtain ⟨os', h1, h2⟩ := ih args.length (by simp at hn; omega) hg rfl
                exact ⟨os', by rw [h1]; rfl, .lone h2⟩
      · rename_i h1 h2 h3
        cases hg : getopt [] longopts args with
        | none => rw [hg] at h; cases h
        | some x =>
          rw [hg] at h
          cases h
          obtain ⟨os', g1, g2⟩ := ih args.length (by simp at hn; omega) hg rfl
          refine ⟨os', g1, .file ?_ g2⟩
          intro hh
          cases a with
          | nil => cases hh
          | cons x a => cases hh; exact h3 rfl

theorem line_getopt {args : List Str} {os : List (Str × Str)} {fs : List Str} (h : Line args os fs) :
    getopt [] longopts args = some (os.map dash, fs) := by
  have long : ∀ {r : Str} {args rest : List Str} {o : Str × Str} {os : List (Str × Str)} {fs : List Str}, doLongs r longopts args = some (o, rest) →
      r ≠ [] → getopt [] longopts rest = some (os, fs) → getopt [] longopts ((c!"--" ++ r) :: args) = some (o :: os, fs) := by
    intro r args rest o os fs hd hr hg
    rw [getopt, if_neg (by simpa using hr), if_pos (by simp)]
    split
    · rename_i hn; rw [show (c!"--" ++ r).drop 2 = r from rfl, hd] at hn; cases hn
    · rename_i hs; rw [show (c!"--" ++ r).drop 2 = r from rfl, hd] at hs; cases hs; rw [hg]; rfl
  have hne : ∀ {w n}, Means w n → w ≠ [] := by
    intro w n hm he
    subst he
    rcases hm.2 with h | h
    · subst h; exact absurd hm.1 (by decide)
    · have h1 := h.2 c!"tests" (by decide) List.nil_prefix
      have h2 := h.2 c!"port" (by decide) List.nil_prefix
      rw [← h1] at h2; exact absurd h2 (by decide)
  induction h with
  | nil => rw [getopt]; rfl
  | rest fs => rw [getopt, if_pos rfl]; rfl
  | @file f args os fs hf _ ih =>
    have h1 : f.take 1 ≠ c!"-" := by
      intro h
      cases f with
      | nil => cases h
      | cons x f => simp at h hf; exact hf h
    have h2 : f.take 2 ≠ c!"--" := by
      intro h
      cases f with
      | nil => cases h
      | cons x f => simp at h hf; exact hf h.1
    have h3 : f ≠ c!"--" := by rintro rfl; exact h2 rfl
    rw [getopt, if_neg h3, if_neg h2, if_neg h1, ih]; rfl
  | @joined w n v args os fs hw hm _ ih =>
    have := long (r := w ++ '=' :: v) ((doLongs_joined hw).2 ⟨n, hm, rfl, rfl⟩) (by simp) ih
    rw [show c!"--" ++ w ++ ['='] ++ v = c!"--" ++ (w ++ '=' :: v) by simp]
    exact this
  | @apart w n v args os fs hw hm _ ih =>
    exact long ((doLongs_apart hw).2 ⟨n, v, hm, rfl, rfl⟩) (hne hm) ih
  | @lone args os fs _ ih =>
    rw [getopt, if_neg (by decide), if_neg (by decide), if_pos (by decide)]
    split
    · rename_i hn; cases hn
    · rename_i hs
      cases hs
      rw [ih]; rfl

theorem dash_inj {os os' : List (Str × Str)} (h : os.map dash = os'.map dash) : os = os' := by
  induction os generalizing os' with
  | nil => cases os' with | nil => rfl | cons o os' => cases h
  | cons o os ih =>
    cases os' with
    | nil => cases h
    | cons p os' =>
      simp only [List.map_cons, List.cons.injEq] at h
      obtain ⟨o1, o2⟩ := o
      obtain ⟨p1, p2⟩ := p
      simp only [dash, Prod.mk.injEq] at h
      rw [List.append_cancel_left h.1.1, h.1.2, ih h.2]

/-! ### Values -/

theorem last_nil (n : Str) : last n [] = none := rfl

theorem last_cons (n k v : Str) (os : List (Str × Str)) :
    last n ((k, v) :: os) = match last n os with | some x => some x | none => if k = n then some v else none := by
  unfold last
  rw [List.filter_cons]
  by_cases h : k = n
  · rw [if_pos (by simpa using h), if_pos h, List.getLast?_cons]
    cases (os.filter fun o => o.1 = n).getLast? <;> rfl
  · rw [if_neg (by simpa using h), if_neg h]
    cases (os.filter fun o => o.1 = n).getLast? <;> rfl

theorem applyOpt_dash (w : World) (c : Config) (o v : Str) : applyOpt w c (c!"--" ++ o) v =
    if o = c!"verbosity" then some { c with verbosity := some v }
    else if o = c!"port" then (Py.parseInt v).map fun n => { c with port := some n }
    else if o = c!"jobs" then (Py.parseInt v).map fun n => { c with jobs := n }
    else if o = c!"split_jobs" then if v = c!"module" ∨ v = c!"tests" then some { c with splitJobs := v } else none
    else if o = c!"coverage_output_dir" then some { c with coverageOutputDir := some (Py.strip v) }
    else if o = c!"coverage_include" then some { c with coverageInclude := some (Py.strip v) }
    else if o = c!"include_tests" then some { c with includeTests := some (Py.split1 ',' v) }
    else if o = c!"exclude_files" then some { c with excludeFiles := some (Py.split1 ',' v) }
    else if o = c!"include_files" then some { c with includeFiles := some (Py.split1 ',' v) }
    else if o = c!"exclude_tests" then some { c with excludeTests := some (Py.split1 ',' v) }
    else if o = c!"tests" then some { c with tests := some (Py.split1 ',' v) }
    else if o = c!"django" then some { c with django := decide (Py.strip v ∈ [c!"true", c!"True", c!"1"]) }
    else if o = c!"config_file" then
      match w.lines (Py.strip v) with
      | some ls => some { c with filesToTests := addLines c.filesToTests ls }
      | none => some c
    else some c := by
  simp only [applyOpt, List.cons_append, List.nil_append, List.cons.injEq, Char.reduceEq, false_and, and_false, true_and, false_or]
  rfl

/-- one round, by the option -/
inductive Step (w : World) (c : Config) : Str → Str → Config → Prop
  | verbosity {v} : Step w c c!"verbosity" v { c with verbosity := some v }
  | port {v} {n} (h : Py.parseInt v = some n) : Step w c c!"port" v { c with port := some n }
  | jobs {v} {n} (h : Py.parseInt v = some n) : Step w c c!"jobs" v { c with jobs := n }
  | split_jobs {v} (h : v = c!"module" ∨ v = c!"tests") : Step w c c!"split_jobs" v { c with splitJobs := v }
  | coverage_output_dir {v} : Step w c c!"coverage_output_dir" v { c with coverageOutputDir := some (Py.strip v) }
  | coverage_include {v} : Step w c c!"coverage_include" v { c with coverageInclude := some (Py.strip v) }
  | include_tests {v} : Step w c c!"include_tests" v { c with includeTests := some (Py.split1 ',' v) }
  | exclude_files {v} : Step w c c!"exclude_files" v { c with excludeFiles := some (Py.split1 ',' v) }
  | include_files {v} : Step w c c!"include_files" v { c with includeFiles := some (Py.split1 ',' v) }
  | exclude_tests {v} : Step w c c!"exclude_tests" v { c with excludeTests := some (Py.split1 ',' v) }
  | tests {v} : Step w c c!"tests" v { c with tests := some (Py.split1 ',' v) }
  | django {v} : Step w c c!"django" v { c with django := decide (Py.strip v ∈ [c!"true", c!"True", c!"1"]) }
  | config {v ls} (h : w.lines (Py.strip v) = some ls) : Step w c c!"config_file" v { c with filesToTests := addLines c.filesToTests ls }
  | noConfig {v} (h : w.lines (Py.strip v) = none) : Step w c c!"config_file" v c
  | other {o v} (h : o ∉ names) : Step w c o v c

theorem step_of {w : World} {c c' : Config} {o v : Str} (h : applyOpt w c (c!"--" ++ o) v = some c') : Step w c o v c' := by
  rw [applyOpt_dash] at h
  by_cases h0 : o = c!"verbosity"
  · rw [if_pos h0] at h; cases h; subst h0; exact .verbosity
  rw [if_neg h0] at h
  by_cases h1 : o = c!"port"
  · rw [if_pos h1] at h; obtain ⟨n, hn, rfl⟩ := Option.map_eq_some_iff.1 h; subst h1; exact .port hn
  rw [if_neg h1] at h
  by_cases h2 : o = c!"jobs"
  · rw [if_pos h2] at h; obtain ⟨n, hn, rfl⟩ := Option.map_eq_some_iff.1 h; subst h2; exact .jobs hn
  rw [if_neg h2] at h
  by_cases h3 : o = c!"split_jobs"
  · rw [if_pos h3] at h
    by_cases hv : v = c!"module" ∨ v = c!"tests"
    · rw [if_pos hv] at h; cases h; subst h3; exact .split_jobs hv
    · rw [if_neg hv] at h; cases h
  rw [if_neg h3] at h
  by_cases h4 : o = c!"coverage_output_dir"
  · rw [if_pos h4] at h; cases h; subst h4; exact .coverage_output_dir
  rw [if_neg h4] at h
  by_cases h5 : o = c!"coverage_include"
  · rw [if_pos h5] at h; cases h; subst h5; exact .coverage_include
  rw [if_neg h5] at h
  by_cases h6 : o = c!"include_tests"
  · rw [if_pos h6] at h; cases h; subst h6; exact .include_tests
  rw [if_neg h6] at h
  by_cases h7 : o = c!"exclude_files"
  · rw [if_pos h7] at h; cases h; subst h7; exact .exclude_files
  rw [if_neg h7] at h
  by_cases h8 : o = c!"include_files"
  · rw [if_pos h8] at h; cases h; subst h8; exact .include_files
  rw [if_neg h8] at h
  by_cases h9 : o = c!"exclude_tests"
  · rw [if_pos h9] at h; cases h; subst h9; exact .exclude_tests
  rw [if_neg h9] at h
  by_cases h10 : o = c!"tests"
  · rw [if_pos h10] at h; cases h; subst h10; exact .tests
  rw [if_neg h10] at h
  by_cases h11 : o = c!"django"
  · rw [if_pos h11] at h; cases h; subst h11; exact .django
  rw [if_neg h11] at h
  by_cases hc : o = c!"config_file"
  · rw [if_pos hc] at h
    subst hc
    cases hl : w.lines (Py.strip v) with
    | none => rw [hl] at h; cases h; exact .noConfig hl
    | some ls => rw [hl] at h; cases h; exact .config hl
  rw [if_neg hc] at h
  cases h
  refine .other ?_
  intro hm
  simp only [names, List.mem_cons, List.not_mem_nil, or_false] at hm
  rcases hm with hm | hm | hm | hm | hm | hm | hm | hm | hm | hm | hm | hm | hm <;> first | exact hc hm | exact h0 hm | exact h1 hm | exact h2 hm | exact h3 hm | exact h4 hm | exact h5 hm | exact h6 hm | exact h7 hm | exact h8 hm | exact h9 hm | exact h10 hm | exact h11 hm

theorem field {α : Type} (w : World) (get : Config → α) (n : Str) (g : Str → α)
    (hstep : ∀ c c' o v, applyOpt w c (c!"--" ++ o) v = some c' → get c' = if o = n then g v else get c)
    {c c' : Config} {os : List (Str × Str)} (h : applyOpts w c (os.map dash) = some c') : get c' = ((last n os).map g).getD (get c) := by
  induction os generalizing c with
  | nil => cases h; rfl
  | cons o os ih =>
    obtain ⟨k, v⟩ := o
    rw [List.map_cons, dash, applyOpts] at h
    split at h
    · cases h
    · rename_i c1 hc
      rw [ih h, last_cons, hstep c c1 k v hc]
      cases last n os with
      | some x => rfl
      | none => by_cases hk : k = n <;> simp [hk]

theorem fields {w : World} {c : Config} {os : List (Str × Str)} (h : applyOpts w {} (os.map dash) = some c) :
    c.verbosity = ((last c!"verbosity" os).map some).getD none ∧
    c.port = (((last c!"port" os).map Py.parseInt).getD none) ∧
    c.jobs = (((last c!"jobs" os).map fun v => (Py.parseInt v).getD 1).getD 1) ∧
    c.splitJobs = ((last c!"split_jobs" os).map id).getD c!"tests" ∧
    c.coverageOutputDir = ((last c!"coverage_output_dir" os).map fun v => some (Py.strip v)).getD none ∧
    c.coverageInclude = ((last c!"coverage_include" os).map fun v => some (Py.strip v)).getD none ∧
    c.includeTests = ((last c!"include_tests" os).map fun v => some (Py.split1 ',' v)).getD none ∧
    c.excludeFiles = ((last c!"exclude_files" os).map fun v => some (Py.split1 ',' v)).getD none ∧
    c.includeFiles = ((last c!"include_files" os).map fun v => some (Py.split1 ',' v)).getD none ∧
    c.excludeTests = ((last c!"exclude_tests" os).map fun v => some (Py.split1 ',' v)).getD none ∧
    c.tests = ((last c!"tests" os).map fun v => some (Py.split1 ',' v)).getD none ∧
    c.django = ((last c!"django" os).map fun v => decide (Py.strip v ∈ [c!"true", c!"True", c!"1"])).getD false := by
  refine ⟨field w (·.verbosity) _ _ ?_ h, field w (·.port) _ _ ?_ h, field w (·.jobs) _ _ ?_ h, field w (·.splitJobs) _ _ ?_ h,
    field w (·.coverageOutputDir) _ _ ?_ h, field w (·.coverageInclude) _ _ ?_ h, field w (·.includeTests) _ _ ?_ h,
    field w (·.excludeFiles) _ _ ?_ h, field w (·.includeFiles) _ _ ?_ h, field w (·.excludeTests) _ _ ?_ h, field w (·.tests) _ _ ?_ h,
    field w (·.django) _ _ ?_ h⟩
  all_goals
    clear h
    intro c c' o v h
    cases step_of h with
    | other hn => rw [if_neg (by rintro rfl; exact hn (by decide))]
    | port hn => first | (rw [if_neg (by decide)]; done) | (rw [if_pos rfl, hn]; done)
    | jobs hn => first | (rw [if_neg (by decide)]; done) | (rw [if_pos rfl, hn]; rfl)
    | _ => first | rfl | (rw [if_neg (by decide)]; done) | (rw [if_pos rfl]; done)

theorem applyOpts_some (w : World) (c : Config) (os : List (Str × Str)) : (applyOpts w c (os.map dash)).isSome ↔
    ∀ o ∈ os, (o.1 = c!"port" ∨ o.1 = c!"jobs" → (Py.parseInt o.2).isSome) ∧ (o.1 = c!"split_jobs" → o.2 = c!"module" ∨ o.2 = c!"tests") := by
  have step : ∀ (c : Config) (k v : Str), (applyOpt w c (c!"--" ++ k) v).isSome ↔
      (k = c!"port" ∨ k = c!"jobs" → (Py.parseInt v).isSome) ∧ (k = c!"split_jobs" → v = c!"module" ∨ v = c!"tests") := by
    intro c k v
    constructor
    · intro h
      obtain ⟨c', hc⟩ := Option.isSome_iff_exists.1 h
      cases step_of hc with
      | other hn =>
        exact ⟨by rintro (rfl | rfl) <;> exact absurd (by decide) hn, by rintro rfl; exact absurd (by decide) hn⟩
      | port hn => exact ⟨fun _ => by rw [hn]; rfl, fun h => absurd h (by decide)⟩
      | jobs hn => exact ⟨fun _ => by rw [hn]; rfl, fun h => absurd h (by decide)⟩
      | split_jobs hv => exact ⟨fun h => absurd h (by decide), fun _ => hv⟩
      | _ => exact ⟨fun h => absurd h (by decide), fun h => absurd h (by decide)⟩
    · rintro ⟨h1, h2⟩
      rw [applyOpt_dash]
      by_cases hp : k = c!"port"
      · rw [if_neg (by rw [hp]; decide), if_pos hp, Option.isSome_map]; exact h1 (.inl hp)
      by_cases hj : k = c!"jobs"
      · rw [if_neg (by rw [hj]; decide), if_neg hp, if_pos hj, Option.isSome_map]; exact h1 (.inr hj)
      by_cases hs : k = c!"split_jobs"
      · rw [if_neg (by rw [hs]; decide), if_neg hp, if_neg hj, if_pos hs, if_pos (h2 hs)]; rfl
      rw [if_neg hp, if_neg hj, if_neg hs]
      have ite : ∀ {p : Prop} [Decidable p] {x y : Option Config}, x.isSome = true → y.isSome = true → (if p then x else y).isSome = true := by
        intro p _ x y hx hy; by_cases hp : p
        · rw [if_pos hp]; exact hx
        · rw [if_neg hp]; exact hy
      repeat (refine ite rfl ?_)
      refine ite ?_ rfl
      cases w.lines (Py.strip v) <;> rfl
  induction os generalizing c with
  | nil => simp [applyOpts]
  | cons o os ih =>
    obtain ⟨k, v⟩ := o
    rw [List.map_cons, dash, applyOpts]
    have hs := step c k v
    cases hc : applyOpt w c (c!"--" ++ k) v with
    | none =>
      rw [hc] at hs
      dsimp only
      constructor
      · intro h; cases h
      · intro h
        have := hs.2 (h (k, v) (by simp))
        cases this
    | some c1 =>
      rw [hc] at hs
      dsimp only
      refine (ih c1).trans ?_
      constructor
      · intro h o ho
        rcases List.mem_cons.1 ho with rfl | ho
        · exact hs.1 rfl
        · exact h o ho
      · intro h o ho
        exact h o (by simp [ho])

/-! ### Tests of files -/

theorem split_entry (l : Str) : (match Py.split1 '|' l with | [f, t] => some (f, t) | _ => none) = entry l := by
  have cut : ∀ s : Str, '|' ∉ s ∨ ∃ a b, '|' ∉ a ∧ s = a ++ '|' :: b := by
    intro s
    induction s with
    | nil => simp
    | cons c s ih =>
      by_cases hc : c = '|'
      · exact .inr ⟨[], s, by simp, by simp [hc]⟩
      · have hc' : ¬ '|' = c := fun e => hc e.symm
        rcases ih with h | ⟨w, v, h1, h2⟩
        · left; simp [h, hc']
        · exact .inr ⟨c :: w, v, by simp [h1, hc'], by rw [h2]; rfl⟩
  have tw : ∀ (a b : Str), '|' ∉ a → (a ++ '|' :: b).takeWhile (· ≠ '|') = a ∧ (a ++ '|' :: b).dropWhile (· ≠ '|') = '|' :: b := by
    intro a b ha
    induction a with
    | nil => simp
    | cons c a ih =>
      simp only [List.mem_cons, not_or] at ha
      have hc : decide (c ≠ '|') = true := by simpa using fun e : c = '|' => ha.1 e.symm
      rw [List.cons_append, List.takeWhile_cons, List.dropWhile_cons, if_pos hc, if_pos hc, (ih ha.2).1, (ih ha.2).2]
      exact ⟨rfl, rfl⟩
  unfold entry
  rcases cut l with h | ⟨a, b, ha, rfl⟩
  · rw [Py.split1_of_not_mem _ _ h, if_neg (by rw [List.count_eq_zero.2 h]; decide)]
  · rw [Py.split1_append_sep, Py.split1_of_not_mem _ _ ha]
    rcases cut b with hb | ⟨a', b', ha', rfl⟩
    · rw [Py.split1_of_not_mem _ _ hb, if_pos, (tw a b ha).1, (tw a b ha).2]
      · rfl
      · rw [List.count_append, List.count_eq_zero.2 ha, List.count_cons_self, List.count_eq_zero.2 hb]
    · rw [Py.split1_append_sep, Py.split1_of_not_mem _ _ ha', if_neg]
      · have := Py.split1_ne_nil '|' b'
        cases hs : Py.split1 '|' b' with
        | nil => exact absurd hs this
        | cons x y => rfl
      · rw [List.count_append, List.count_cons_self, List.count_append, List.count_cons_self]; omega

def addAll (d : List (Str × List Str)) (l : List (Str × Str)) : List (Str × List Str) := l.foldl (fun d p => addTest d p.1 p.2) d

theorem addAll_append (d : List (Str × List Str)) (l m : List (Str × Str)) : addAll d (l ++ m) = addAll (addAll d l) m :=
  List.foldl_append

theorem addLines_eq (d : List (Str × List Str)) (ls : List Str) : addLines d ls = addAll d (ls.filterMap entry) := by
  unfold addLines
  induction ls generalizing d with
  | nil => rfl
  | cons l ls ih =>
    rw [List.foldl_cons, ih, List.filterMap_cons, ← split_entry l]
    generalize Py.split1 '|' l = x
    match x with
    | [] => rfl
    | [a] => rfl
    | [a, b] => rfl
    | a :: b :: c :: r => rfl

theorem get_addTest (d : List (Str × List Str)) (k t f : Str) :
    Py.Dict.get (addTest d k t) f = if k = f then some ((Py.Dict.get d f).getD [] ++ [t]) else Py.Dict.get d f := by
  unfold addTest
  split
  · rename_i l hl
    rw [Py.Dict.get_set]
    by_cases h : k = f
    · subst h; simp [hl]
    · have h' : ¬ f = k := fun e => h e.symm
      simp [h, h']
  · rename_i hl
    rw [Py.Dict.get_set]
    by_cases h : k = f
    · subst h; simp [hl]
    · have h' : ¬ f = k := fun e => h e.symm
      simp [h, h']

theorem get_addAll (d : List (Str × List Str)) (l : List (Str × Str)) (f : Str) :
    Py.Dict.get (addAll d l) f = if f ∈ l.map (·.1) then some ((Py.Dict.get d f).getD [] ++ (l.filter fun p => p.1 = f).map (·.2)) else Py.Dict.get d f := by
  unfold addAll
  induction l generalizing d with
  | nil => rfl
  | cons p l ih =>
    rw [List.foldl_cons, ih, get_addTest]
    by_cases h : p.1 = f
    · by_cases h2 : f ∈ l.map (·.1)
      · simp [h, h2]
      · have h3 : l.filter (fun p => p.1 = f) = [] := by
          rw [List.filter_eq_nil_iff]
          intro q hq he
          exact h2 (List.mem_map.2 ⟨q, hq, by simpa using he⟩)
        simp only [h2, if_false, h, if_true, List.map_cons, List.mem_cons, true_or, List.filter_cons, decide_true, h3, List.map_nil]
    · have h' : ¬ f = p.1 := fun e => h e.symm
      simp only [h, if_false, List.map_cons, List.mem_cons, h', false_or, List.filter_cons, decide_false, Bool.false_eq_true]

theorem files_eq {w : World} {c c' : Config} {os : List (Str × Str)} (h : applyOpts w c (os.map dash) = some c') :
    c'.filesToTests = addAll c.filesToTests (os.flatMap fun o => if o.1 = c!"config_file" then ((w.lines (Py.strip o.2)).getD []).filterMap entry else []) := by
  have step : ∀ (c c' : Config) (k v : Str), applyOpt w c (c!"--" ++ k) v = some c' →
      c'.filesToTests = addAll c.filesToTests (if k = c!"config_file" then ((w.lines (Py.strip v)).getD []).filterMap entry else []) := by
    intro c c' o v h
    cases step_of h with
    | other hn => rw [if_neg (by rintro rfl; exact hn (by decide))]; rfl
    | config hl => rw [if_pos rfl, hl]; exact addLines_eq _ _
    | noConfig hl => rw [if_pos rfl, hl]; rfl
    | _ => rw [if_neg (by decide)]; rfl
  induction os generalizing c with
  | nil => cases h; rfl
  | cons o os ih =>
    obtain ⟨k, v⟩ := o
    rw [List.map_cons, dash, applyOpts] at h
    split at h
    · cases h
    · rename_i c1 hc
      rw [ih h, step c c1 k v hc, List.flatMap_cons, addAll_append]

/-! ### The theorems -/

/-- **C123**: the arguments are read as a line of options and files, if they are one, and nothing else is accepted. -/
theorem c123_line {args : List Str} {os : List (Str × Str)} {fs : List Str} :
    getopt [] longopts args = some (os.map fun o => (c!"--" ++ o.1, o.2), fs) ↔ Line args os fs := by
  constructor
  · intro h
    obtain ⟨os', h1, h2⟩ := getopt_line h
    rw [dash_inj (os := os) (os' := os') h1]; exact h2
  · exact line_getopt

/-- **C123**: a line says one thing. -/
theorem c123_line_unique {args : List Str} {os os' : List (Str × Str)} {fs fs' : List Str} (h : Line args os fs) (h' : Line args os' fs') :
    os = os' ∧ fs = fs' := by
  have := line_getopt h
  rw [line_getopt h'] at this
  simp only [Option.some.injEq, Prod.mk.injEq] at this
  exact ⟨(dash_inj this.1).symm, this.2.symm⟩

theorem split1_of (d : Str) : (if '|' ∈ d then Py.split1 '|' d else [d]) = Py.split1 '|' d := by
  split
  · rfl
  · rename_i h; rw [Py.split1_of_not_mem _ _ h]

theorem parse_eq (w : World) {args : List Str} {os : List (Str × Str)} {fs : List Str} (h : Line args os fs) :
    (Valid os → ∃ c, parseCmdline w args = some c ∧ Says w os fs c) ∧ (¬ Valid os → parseCmdline w args = none) := by
  unfold parseCmdline
  rw [line_getopt h]
  dsimp only
  have hsome := applyOpts_some w {} os
  cases hc : applyOpts w {} (os.map dash) with
  | none =>
    rw [hc] at hsome
    exact ⟨fun hv => absurd (hsome.2 hv.1) (by simp), fun _ => rfl⟩
  | some c =>
    rw [hc] at hsome
    have hok := hsome.1 rfl
    obtain ⟨fv, fp, fj, fs', fcd, fci, fit, fef, fif, fet, ft, fd⟩ := fields hc
    have ff := files_eq hc
    dsimp only
    have hlevel : levelOf c.verbosity = levelOf (last c!"verbosity" os) := by
      rw [fv]
      cases last c!"verbosity" os <;> rfl
    have hparse : ∀ n v, last n os = some v → (n = c!"port" ∨ n = c!"jobs") → (Py.parseInt v).isSome := by
      intro n v hl hn
      unfold last at hl
      obtain ⟨o, ho, rfl⟩ := Option.map_eq_some_iff.1 hl
      have := List.mem_of_getLast? ho
      rw [List.mem_filter] at this
      have h1 : o.1 = n := by simpa using this.2
      exact (hok o this.1).1 (h1 ▸ hn)
    rw [hlevel]
    constructor
    · intro hv
      obtain ⟨n, hn, hn'⟩ : ∃ n, levelOf (last c!"verbosity" os) = some n ∧
          n = ((last c!"verbosity" os).bind Py.parseInt).getD 2 := by
        cases hl : last c!"verbosity" os with
        | none => exact ⟨2, rfl, rfl⟩
        | some v =>
          obtain ⟨n, hn⟩ := Option.isSome_iff_exists.1 (hv.2 v hl)
          exact ⟨n, hn, by simp [hn]⟩
      rw [hn]
      dsimp only
      have hport : c.port = (last c!"port" os).bind Py.parseInt := by
        rw [fp]; cases last c!"port" os <;> rfl
      have hjobs : c.jobs = ((last c!"jobs" os).bind Py.parseInt).getD 1 := by
        rw [fj]; cases last c!"jobs" os <;> rfl
      have hsplit : c.splitJobs = (last c!"split_jobs" os).getD c!"tests" := by
        rw [fs']; cases last c!"split_jobs" os <;> rfl
      have opt : ∀ {α : Type} (n : Str) (g : Str → α), ((last n os).map fun v => some (g v)).getD none = (last n os).map g := by
        intro α n g; cases last n os <;> rfl
      rw [opt] at fcd fci fit fef fif fet ft
      have hdirs : (fs.flatMap fun d => if '|' ∈ d then Py.split1 '|' d else [d]) = fs.flatMap (Py.split1 '|') :=
        congrArg (fun g => fs.flatMap g) (funext split1_of)
      have hdj : c.django = true ↔ ∃ v, last c!"django" os = some v ∧ Py.strip v ∈ [c!"true", c!"True", c!"1"] := by
        rw [fd]
        cases last c!"django" os with
        | none => simp
        | some v =>
          simp only [Option.map_some, Option.getD_some, decide_eq_true_eq, Option.some.injEq, exists_eq_left']
      have hfiles : ∀ f, Py.Dict.get (w.env.foldl (fun d (p : Str × Str) => addTest d p.1 p.2) c.filesToTests) f = testsIn (asked w os) f := by
        intro f
        have e : w.env.foldl (fun d (p : Str × Str) => addTest d p.1 p.2) c.filesToTests = addAll [] (asked w os) := by
          show addAll c.filesToTests w.env = _
          rw [ff, asked, addAll_append]
        rw [e, get_addAll]
        unfold testsIn
        split <;> rfl
      cases hl : last c!"tests" os with
      | none =>
        rw [hl] at ft
        rw [show c.tests = none from ft]
        exact ⟨_, rfl, hdirs, hn', hport, hjobs, hsplit, fcd, fci, fit, by rw [hl]; rfl, by rw [hl]; exact fef, by rw [hl]; exact fet,
          by rw [hl]; exact fif, hdj, hfiles⟩
      | some t =>
        rw [hl] at ft
        have hne := Py.split1_ne_nil ',' t
        cases hs : Py.split1 ',' t with
        | nil => exact absurd hs hne
        | cons x xs =>
          have ft' : c.tests = some (x :: xs) := by rw [ft, ← hs]; rfl
          rw [ft']
          exact ⟨_, rfl, hdirs, hn', hport, hjobs, hsplit, fcd, fci, fit, by rw [hl]; exact ft'.symm.trans ft, by rw [hl]; rfl, by rw [hl]; rfl,
            by rw [hl]; rfl, hdj, hfiles⟩
    · intro hv
      cases hl : last c!"verbosity" os with
      | none =>
        exfalso; apply hv
        refine ⟨hok, ?_⟩
        intro v h; rw [hl] at h; cases h
      | some v =>
        rw [levelOf]
        cases hp : Py.parseInt v with
        | none => rfl
        | some n =>
          exfalso; apply hv
          refine ⟨hok, ?_⟩
          intro v' h
          rw [hl] at h; cases h
          rw [hp]; rfl

/-- **C123**: a configuration that is made says what the line says: of each option the value given last; files split at
`|`; the tests of each file, in the order of the configuration files and the environment; and with tests given, no filters. -/
theorem c123_config {w : World} {args : List Str} {c : Config} (h : parseCmdline w args = some c) :
    ∃ os fs, Line args os fs ∧ Says w os fs c := by
  have hg : (getopt [] longopts args).isSome := by
    unfold parseCmdline at h
    cases hg : getopt [] longopts args with
    | none => rw [hg] at h; cases h
    | some x => rfl
  obtain ⟨⟨os, fs⟩, hx⟩ := Option.isSome_iff_exists.1 hg
  obtain ⟨os', _, hl⟩ := getopt_line hx
  refine ⟨os', fs, hl, ?_⟩
  by_cases hv : Valid os'
  · obtain ⟨c', h1, h2⟩ := (parse_eq w hl).1 hv
    rw [h] at h1; cases h1; exact h2
  · rw [(parse_eq w hl).2 hv] at h; cases h

/-- **C123**: a configuration is made exactly from the lines whose values can be used. -/
theorem c123_accepted (w : World) (args : List Str) : (parseCmdline w args).isSome ↔ ∃ os fs, Line args os fs ∧ Valid os := by
  constructor
  · intro h
    obtain ⟨c, hc⟩ := Option.isSome_iff_exists.1 h
    obtain ⟨os, fs, hl, _⟩ := c123_config hc
    refine ⟨os, fs, hl, ?_⟩
    apply Classical.byContradiction
    intro hv
    rw [(parse_eq w hl).2 hv] at hc; cases hc
  · rintro ⟨os, fs, hl, hv⟩
    obtain ⟨c, hc, _⟩ := (parse_eq w hl).1 hv
    rw [hc]; rfl

/-- **C123**: what comes after the first `--nose-params` or `--py-test-params` goes to that framework as it is; what comes
before it, and nothing else, is read here. -/
theorem c123_split (args : List Str) :
    (splitArgs args = (args, none) ∧ c!"--nose-params" ∉ args ∧ c!"--py-test-params" ∉ args) ∨
    ∃ a before after, splitArgs args = (before, some (a, after)) ∧ args = before ++ a :: after ∧ (a = c!"--nose-params" ∨ a = c!"--py-test-params") ∧
      c!"--nose-params" ∉ before ∧ c!"--py-test-params" ∉ before := by
  induction args with
  | nil => exact .inl ⟨rfl, by simp, by simp⟩
  | cons x args ih =>
    rw [splitArgs]
    by_cases hx : x = c!"--nose-params" ∨ x = c!"--py-test-params"
    · rw [if_pos hx]
      exact .inr ⟨x, [], args, rfl, rfl, hx, by simp, by simp⟩
    · rw [if_neg hx]
      rw [not_or] at hx
      have h1 : ¬ c!"--nose-params" = x := fun e => hx.1 e.symm
      have h2 : ¬ c!"--py-test-params" = x := fun e => hx.2 e.symm
      rcases ih with ⟨e, n1, n2⟩ | ⟨a, b, af, e, e2, ha, n1, n2⟩
      · rw [e]
        refine .inl ⟨rfl, ?_, ?_⟩
        · rw [List.mem_cons, not_or]; exact ⟨h1, n1⟩
        · rw [List.mem_cons, not_or]; exact ⟨h2, n2⟩
      · rw [e]
        refine .inr ⟨a, x :: b, af, rfl, by rw [e2]; rfl, ha, ?_, ?_⟩
        · rw [List.mem_cons, not_or]; exact ⟨h1, n1⟩
        · rw [List.mem_cons, not_or]; exact ⟨h2, n2⟩

/-! ### Cases -/

def sample : List Str := [c!"--verb=3", c!"/a.py|/b.py", c!"--jobs", c!"2", c!"--config_file", c!"--cfg", c!"--jobs=4", c!"--", c!"--tests"]

def world : World := { lines := fun f => if f = c!"--cfg" then some [c!"/x|A.m", c!"junk", c!"/x|A.n"] else none, env := [(c!"/y", c!"t")] }

theorem sampleLine : Line sample [(c!"verbosity", c!"3"), (c!"jobs", c!"2"), (c!"config_file", c!"--cfg"), (c!"jobs", c!"4")] [c!"/a.py|/b.py", c!"--tests"] :=
  .joined (w := c!"verb") (v := c!"3") (by decide) ⟨by decide, .inr ⟨by decide, by decide⟩⟩ (.file (by decide)
    (.apart (w := c!"jobs") (by decide) ⟨by decide, .inl rfl⟩ (.apart (w := c!"config_file") (by decide) ⟨by decide, .inl rfl⟩
      (.joined (w := c!"jobs") (v := c!"4") (by decide) ⟨by decide, .inl rfl⟩ (.rest _)))))

example : (parseCmdline world sample).map (·.dirs) = some [c!"/a.py", c!"/b.py", c!"--tests"] := by decide +kernel

example : (parseCmdline world sample).map (·.level) = some 3 ∧ (parseCmdline world sample).map (·.jobs) = some 4 := by decide +kernel

example : (parseCmdline world sample).map (·.filesToTests) = some [(c!"/x", [c!"A.m", c!"A.n"]), (c!"/y", [c!"t"])] := by decide +kernel

/-! ### Where it fails -/

/-- The usage names `-v` and `-t`, and the code looks for short options, but none is accepted. -/
theorem c123_short_options_witness : parseCmdline world [c!"-v", c!"3", c!"/a.py"] = none ∧
    ∀ (w : World) (o : Char) (r : Str) (args : List Str), o ≠ '-' → parseCmdline w (('-' :: o :: r) :: args) = none := by
  have main : ∀ (w : World) (o : Char) (r : Str) (args : List Str), o ≠ '-' → parseCmdline w (('-' :: o :: r) :: args) = none := by
    intro w o r args ho
    have : getopt [] longopts (('-' :: o :: r) :: args) = none := by
      rw [getopt, if_neg (by simp [ho]), if_neg (by simp [ho]), if_pos (by simp)]
      rfl
    unfold parseCmdline
    rw [this]
  exact ⟨main world 'v' [] _ (by decide), main⟩

/-- A missing configuration file is told, and all tests are run. -/
theorem c123_missing_file_witness : (parseCmdline world [c!"--config_file=nope", c!"/a.py"]).map (·.filesToTests) = some [(c!"/y", [c!"t"])] := by
  decide +kernel

end RunArgs
