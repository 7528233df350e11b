import Verif.Monitor.Live
/-!
C47: the cached information about a function is current. C56: breakpoints set while the program runs are hit.
-/

namespace Monitor

open Py

/-! C47 -/

/-- Information about a function that is taken from the cache because its `mtime` is the current one, while no command is being
processed, shows exactly the breakpoints set now at lines of that function, and the breakpoint set now for its name. -/
theorem c47 (E : Env) (hd : Distinct E) (acts : List Action) (s : State) (h : run E start acts = some s) (hq : s.queue = [])
    (c : Code) (hc : c ∈ E.prog) (hv : Visible E c) (i : Info) (hi : s.cache c.key = some i) (hm : i.mtime = s.mtime) :
    (∀ l, Dict.get i.bps l = if l ∈ c.lines then Dict.get (fileBps s c.file) l else none) ∧
      i.fn = Dict.get s.fnBreaks c.name ∧ i.skip = false ∧ i.filtered = false := by
  have b := base_run hd (base_start E) acts h
  rcases b.cacheOk _ _ hi hm with h | h
  · rw [hq] at h; simp [HeadBump] at h
  · have := h c hc rfl
    have hb : i = ⟨s.mtime, false, false, own c (fileBps s c.file), Dict.get s.fnBreaks c.name⟩ := by
      rw [this]; simp [infoOf, build, hv.1, hv.2]
    rw [hb]
    exact ⟨fun l => get_own c _ l, rfl, rfl, rfl⟩

/-! C56 -/

def evOf : Pc → Option Ev
  | .idle => none
  | .lookup ev | .miss ev | .mtimed ev _ | .breaks ev _ _ | .fns ev _ _ _ | .ready ev _ => some ev

def isBegin : Action → Bool
  | .begin _ => true
  | _ => false

theorem handle_fields {E : Env} {s s' : State} {t : Nat} {d : Code} (h : handle E s t d = some s') :
    s'.stack = s.stack ∧ s'.queue = s.queue ∧ s'.breaks = s.breaks ∧ s'.fnBreaks = s.fnBreaks ∧ s'.mtime = s.mtime ∧
      (∀ u, u ≠ t → s'.pc u = s.pc u) := by
  unfold handle at h
  repeat' split at h
  all_goals cases h
  all_goals first
    | exact ⟨rfl, rfl, rfl, rfl, rfl, fun u hu => by simp [setPc, setCache, hu]⟩
    | (obtain ⟨g1, g2, g3, g4, g5, g6, g7, g8, g9, _⟩ := startDone_fields s t d ‹Info›
       exact ⟨g5, g8, g2, g3, g1, fun u hu => by simp [setPc, hu, g7]⟩)
    | (obtain ⟨g1, g2, g3, g4, g5, g6, g7, g8, g9, _⟩ := lineDone_fields s t d ‹Nat› ‹Info›
       exact ⟨g5, g8, g2, g3, g1, fun u hu => by simp [setPc, hu, g7]⟩)

theorem stops_startDone (s : State) (t : Nat) (c : Code) (i : Info) :
    ∃ new, (startDone s t c i).stops = new ++ s.stops ∧ ∀ x ∈ new, x = .function t c := by
  simp only [startDone]
  repeat' split
  all_goals first
    | (refine ⟨[.function t c], ?_, ?_⟩ <;> simp [lineEvents, offStart] <;> done)
    | (refine ⟨[], ?_, ?_⟩ <;> simp [offStart, lineEvents] <;> done)

theorem stops_lineDone (s : State) (t : Nat) (c : Code) (l : Nat) (i : Info) :
    ∃ new, (lineDone s t c l i).stops = new ++ s.stops ∧ ∀ x ∈ new, x = .line t c l ∨ x = .pause t c l := by
  simp only [lineDone]
  repeat' split
  all_goals first
    | (refine ⟨[.line t c l], ?_, ?_⟩ <;> simp [offLine] <;> done)
    | (refine ⟨[.pause t c l], ?_, ?_⟩ <;> simp [offLine] <;> done)
    | (refine ⟨[], ?_, ?_⟩ <;> simp [offLine] <;> done)

theorem stops_step {E : Env} {s s' : State} (a : Action) (h : step E s a = some s') : ∃ new, s'.stops = new ++ s.stops := by
  cases a <;> simp only [step] at h
  case begin cmd => split at h <;> cases h; exact ⟨[], rfl⟩
  case work =>
    split at h
    · cases h
    · cases h
      refine ⟨[], ?_⟩
      rename_i op q hq
      cases op <;> simp only [exec, updateEvents, List.nil_append]
      simp only [traceFrame]
      repeat' split
      all_goals rfl
  case call t c =>
    split at h
    · cases h; refine ⟨[], ?_⟩; split <;> rfl
    · cases h
  case ret t =>
    split at h
    · cases h
    · split at h
      · cases h; exact ⟨[], rfl⟩
      · cases h
  case yield t =>
    split at h
    · cases h
    · split at h
      · cases h; exact ⟨[], rfl⟩
      · cases h
  case resume t c =>
    split at h
    · cases h; exact ⟨[], rfl⟩
    · cases h
  case run t l =>
    split at h
    · cases h
    · split at h
      · cases h; refine ⟨[], ?_⟩; split <;> rfl
      · cases h
  case handle t =>
    split at h
    · cases h
    · unfold handle at h
      repeat' split at h
      all_goals cases h
      all_goals first
        | exact ⟨[], rfl⟩
        | (obtain ⟨new, h, -⟩ := stops_startDone s t _ ‹Info›; exact ⟨new, h⟩)
        | (obtain ⟨new, h, -⟩ := stops_lineDone s t _ ‹Nat› ‹Info›; exact ⟨new, h⟩)
  case stepping v => cases h; exact ⟨[], rfl⟩
  case enable c => cases h; exact ⟨[], rfl⟩

theorem stops_run {E : Env} {s s' : State} (acts : List Action) (h : run E s acts = some s') : ∃ new, s'.stops = new ++ s.stops := by
  induction acts generalizing s with
  | nil => cases h; exact ⟨[], rfl⟩
  | cons a as ih =>
    simp only [run] at h
    split at h
    · rename_i s1 h1
      obtain ⟨n1, e1⟩ := stops_step a h1
      obtain ⟨n2, e2⟩ := ih h
      exact ⟨n2 ++ n1, by rw [e2, e1, List.append_assoc]⟩
    · cases h

/-- while no command is processed, a thread that is in a handler with nothing outdated stays so until it finishes -/
theorem quiet_step {E : Env} {s s' : State} (b : Base E s) (hq : s.queue = []) (t : Nat) (c : Code) (rest : List Code)
    (hs : s.stack t = c :: rest) (ev : Ev) (hev : evOf (s.pc t) = some ev) (hu : UpToDate E s c t) (a : Action) (ha : isBegin a = false)
    (h : step E s a = some s') :
    (s'.queue = [] ∧ s'.stack t = c :: rest ∧ evOf (s'.pc t) = some ev ∧ UpToDate E s' c t ∧ s'.breaks = s.breaks ∧
        s'.fnBreaks = s.fnBreaks) ∨
      (∃ i, s.pc t = .ready ev i ∧ a = .handle t ∧
        s' = setPc (match ev with | .start => startDone s t c i | .line l => lineDone s t c l i) t .idle) := by
  have hni : s.pc t ≠ .idle := by intro h; rw [h] at hev; cases hev
  have hc : c ∈ E.prog := b.mem t c (by simp [hs])
  have other : s'.queue = [] → s'.stack t = s.stack t → s'.pc t = s.pc t → s'.breaks = s.breaks → s'.fnBreaks = s.fnBreaks →
      (s'.queue = [] ∧ s'.stack t = c :: rest ∧ evOf (s'.pc t) = some ev ∧ UpToDate E s' c t ∧ s'.breaks = s.breaks ∧
        s'.fnBreaks = s.fnBreaks) := by
    intro e1 e2 e3 e4 e5
    refine ⟨e1, by rw [e2, hs], by rw [e3]; exact hev, ?_, e4, e5⟩
    revert hu
    simp only [UpToDate, e3, fileBps, e4, e5]
    exact id
  cases a <;> simp only [step] at h
  case begin cmd => cases ha
  case work => rw [hq] at h; cases h
  case call u d =>
    split at h
    · rename_i hx
      have hut : t ≠ u := by intro h; subst h; exact hni hx.1
      left
      split at h <;> cases h <;> exact other hq (by simp [setStack, setPc, hut]) (by simp [setStack, setPc, hut]) rfl rfl
    · cases h
  case ret u =>
    split at h
    · cases h
    · split at h
      · rename_i hx
        have hut : t ≠ u := by intro h; subst h; exact hni hx
        left
        cases h
        exact other hq (by simp [setStack, hut]) rfl rfl rfl
      · cases h
  case yield u =>
    split at h
    · cases h
    · split at h
      · rename_i hx
        have hut : t ≠ u := by intro h; subst h; exact hni hx
        left
        cases h
        exact other hq (by simp [setStack, hut]) rfl rfl rfl
      · cases h
  case resume u d =>
    split at h
    · rename_i hx
      have hut : t ≠ u := by intro h; subst h; exact hni hx.1
      left
      cases h
      exact other hq (by simp [setStack, hut]) rfl rfl rfl
    · cases h
  case run u l =>
    split at h
    · cases h
    · split at h
      · rename_i hx
        have hut : t ≠ u := by intro h; subst h; exact hni hx.1
        left
        split at h <;> cases h
        · exact other hq rfl (by simp [setPc, hut]) rfl rfl
        · exact other hq rfl rfl rfl rfl
      · cases h
  case handle u =>
    by_cases hut : t = u
    · subst hut
      rw [hs] at h
      simp only at h
      have hp := b.pcOk t c rest hs
      unfold handle at h
      unfold UpToDate at hu
      split at h <;> rename_i hpc
      · exact absurd hpc hni
      · rw [hpc] at hev
        cases hev
        split at h <;> cases h
        · rename_i i hi
          left
          refine ⟨hq, hs, ?_, ?_, rfl, rfl⟩
          · simp only [setPc, if_true]; split <;> rfl
          · simp only [UpToDate, setPc, if_true]
            split
            · rename_i hm
              split at hm
              · cases hm
              · cases hm
            · rename_i hm
              split at hm
              · cases hm
              · cases hm
            · rename_i e j hm
              split at hm
              · rename_i hm'
                cases hm
                rcases b.cacheOk _ _ hi hm' with h | h
                · rw [hq] at h; simp [HeadBump] at h
                · have := h c hc rfl
                  rw [this, infoOf, build_mtime]
                  rfl
              · cases hm
            · trivial
        · left; exact ⟨hq, hs, by simp [setPc, evOf], by simp [UpToDate, setPc], rfl, rfl⟩
      · rw [hpc] at hev
        cases hev
        cases h
        left; exact ⟨hq, hs, by simp [setPc, evOf], by simp [UpToDate, setPc], rfl, rfl⟩
      · rw [hpc] at hev
        cases hev
        left
        split at h <;> cases h
        · rename_i hx
          refine ⟨hq, hs, by simp [setPc, setCache, evOf], ?_, rfl, rfl⟩
          simp only [UpToDate, setPc, if_true, build_mtime]
          exact build_excluded E c _ _ _ _ _ hx
        · exact ⟨hq, hs, by simp [setPc, evOf], by simp [UpToDate, setPc, fileBps], rfl, rfl⟩
      · rw [hpc] at hev hu
        cases hev
        cases h
        left
        refine ⟨hq, hs, by simp [setPc, evOf], ?_, rfl, rfl⟩
        simp only at hu
        simp [UpToDate, setPc, fileBps, hu]
      · rw [hpc] at hev hu
        cases hev
        cases h
        left
        refine ⟨hq, hs, by simp [setPc, setCache, evOf], ?_, rfl, rfl⟩
        simp only [UpToDate, setPc, if_true, build_mtime]
        rw [hu.1, hu.2]
        rfl
      · rw [hpc] at hev
        cases hev
        cases h
        right; exact ⟨_, hpc, rfl, rfl⟩
      · rw [hpc] at hev
        cases hev
        cases h
        right; exact ⟨_, hpc, rfl, rfl⟩
    · split at h
      · cases h
      · obtain ⟨g1, g2, g3, g4, g5, g6⟩ := handle_fields h
        left
        exact other (by rw [g2, hq]) (by rw [g1]) (g6 t hut) g3 g4
  case stepping v => cases h; left; exact other hq rfl rfl rfl rfl
  case enable d => cases h; left; exact other hq rfl rfl rfl rfl

/-- such a handler, once finished, has done what it does with current information -/
theorem quiet_run {E : Env} {s s' : State} (hd : Distinct E) (b : Base E s) (hq : s.queue = []) (t : Nat) (c : Code) (rest : List Code)
    (hs : s.stack t = c :: rest) (ev : Ev) (hev : evOf (s.pc t) = some ev) (hu : UpToDate E s c t) (acts : List Action)
    (ha : ∀ a ∈ acts, isBegin a = false) (h : run E s acts = some s') (hidle : s'.pc t = .idle) :
    ∃ s1 s2 i new new', s1.breaks = s.breaks ∧ s1.fnBreaks = s.fnBreaks ∧
      i = build E c i.mtime (fileBps s c.file) (Dict.get s.fnBreaks c.name) ∧ s1.stops = new ++ s.stops ∧
      s2 = (match ev with | .start => startDone s1 t c i | .line l => lineDone s1 t c l i) ∧ s'.stops = new' ++ s2.stops := by
  induction acts generalizing s with
  | nil => cases h; rw [hidle] at hev; cases hev
  | cons a as ih =>
    simp only [run] at h
    split at h
    · rename_i s1 h1
      have ha1 := ha a (by simp)
      rcases quiet_step b hq t c rest hs ev hev hu a ha1 h1 with ⟨e1, e2, e3, e4, e5, e6⟩ | ⟨i, hi, rfl, e⟩
      · obtain ⟨n0, hn0⟩ := stops_step a h1
        obtain ⟨x1, x2, i, new, new', y1, y2, y3, y4, y5, y6⟩ :=
          ih (base_step hd b a h1) e1 e2 e3 e4 (fun b hb => ha b (by simp [hb])) h
        refine ⟨x1, x2, i, new ++ n0, new', by rw [y1, e5], by rw [y2, e6], ?_, by rw [y4, hn0, List.append_assoc], y5, y6⟩
        rw [e6, show fileBps s1 c.file = fileBps s c.file by simp [fileBps, e5]] at y3
        exact y3
      · obtain ⟨n0, hn0⟩ := stops_run as h
        unfold UpToDate at hu
        rw [hi] at hu
        refine ⟨s, _, i, [], n0, rfl, rfl, hu, rfl, rfl, ?_⟩
        rw [hn0, e]
        cases ev <;> rfl
    · cases h

/-- A line with a breakpoint: once the command that sets it has been processed, every thread that executes the line is stopped
there, whatever the threads and the earlier commands did. -/
theorem c56_line (E : Env) (hd : Distinct E) (c : Code) (hc : c ∈ E.prog) (hv : Visible E c)
    (acts : List Action) (hp : ∀ a ∈ acts, Plain E c a) (hcalm : Calm E c start acts)
    (s : State) (h : run E start acts = some s) (hq : s.queue = [])
    (l : Nat) (hl : Breaks s c l)
    (t : Nat) (rest : List Code) (hs : s.stack t = c :: rest) (s1 : State) (h1 : step E s (.run t l) = some s1)
    (acts2 : List Action) (ha2 : ∀ a ∈ acts2, isBegin a = false) (s2 : State) (h2 : run E s1 acts2 = some s2) (hidle : s2.pc t = .idle) :
    ∃ new, s2.stops = new ++ s.stops ∧ .line t c l ∈ new := by
  have inv := inv_run hd hc hv (inv_start E c) acts hp hcalm h
  have b1 := base_step hd inv.base _ h1
  obtain ⟨n, hpl, hh⟩ := inv.plan
  rw [hq] at hpl
  cases hpl
  obtain ⟨g, f⟩ := hh
  simp only [step, hs] at h1
  split at h1
  · rename_i hx
    have hon : s.lineOn c = true := by
      rcases f t (by simp [hs]) ⟨l, hl⟩ with h | ⟨u, -, h⟩ | ⟨r, -, -, h⟩
      · exact h
      · rw [hq] at h; cases h
      · rw [hx.1] at h; exact h.elim
    rw [if_pos ⟨g.act (.inl ⟨l, hl⟩), hon, g.line l hl⟩] at h1
    cases h1
    obtain ⟨x1, x2, i, new, new', y1, y2, y3, y4, y5, y6⟩ := quiet_run hd b1 hq t c rest hs (.line l) (by simp [setPc, evOf])
      (by simp [UpToDate, setPc]) acts2 ha2 h2 hidle
    have hi : i = ⟨i.mtime, false, false, own c (fileBps s c.file), Dict.get s.fnBreaks c.name⟩ := by
      rw [y3]; simp [build, hv.1, hv.2, setPc, fileBps]
    have hget : (Dict.get i.bps l).isSome := by
      rw [hi]; simp only [get_own, hl.1, if_true]; exact hl.2
    obtain ⟨v, hv'⟩ := Option.isSome_iff_exists.1 hget
    have hx2 : x2.stops = .line t c l :: x1.stops := by
      rw [y5]; simp only [lineDone, show i.skip = false by rw [hi], show i.filtered = false by rw [hi], Bool.false_eq_true, or_self, if_false, hv']
    refine ⟨new' ++ .line t c l :: new, ?_, by simp⟩
    rw [y6, hx2, y4]
    simp [setPc]
  · cases h1

/-- A function with a breakpoint for its name: every call after the command has been processed is stopped. -/
theorem c56_function (E : Env) (hd : Distinct E) (c : Code) (hc : c ∈ E.prog) (hv : Visible E c)
    (acts : List Action) (hp : ∀ a ∈ acts, Plain E c a) (hcalm : Calm E c start acts)
    (s : State) (h : run E start acts = some s) (hq : s.queue = [])
    (hf : BreaksFn s c) (t : Nat) (s1 : State) (h1 : step E s (.call t c) = some s1)
    (acts2 : List Action) (ha2 : ∀ a ∈ acts2, isBegin a = false) (s2 : State) (h2 : run E s1 acts2 = some s2) (hidle : s2.pc t = .idle) :
    ∃ new, s2.stops = new ++ s.stops ∧ .function t c ∈ new := by
  have inv := inv_run hd hc hv (inv_start E c) acts hp hcalm h
  have b1 := base_step hd inv.base _ h1
  obtain ⟨n, hpl, hh⟩ := inv.plan
  rw [hq] at hpl
  cases hpl
  obtain ⟨g, f⟩ := hh
  simp only [step] at h1
  split at h1
  · rename_i hx
    rw [if_pos ⟨g.act (.inr hf), g.st (.inr hf)⟩] at h1
    cases h1
    obtain ⟨x1, x2, i, new, new', y1, y2, y3, y4, y5, y6⟩ := quiet_run hd b1 hq t c (s.stack t) (by simp [setPc, setStack]) .start
      (by simp [setPc, evOf]) (by simp [UpToDate, setPc]) acts2 ha2 h2 hidle
    have hi : i = ⟨i.mtime, false, false, own c (fileBps s c.file), Dict.get s.fnBreaks c.name⟩ := by
      rw [y3]; simp [build, hv.1, hv.2, setPc, setStack, fileBps]
    obtain ⟨v, hv'⟩ := Option.isSome_iff_exists.1 hf
    have hx2 : x2.stops = .function t c :: x1.stops := by
      rw [y5]; simp only [startDone, show i.skip = false by rw [hi], show i.fn = some v by rw [hi, hv'], Bool.false_eq_true, if_false]
    refine ⟨new' ++ .function t c :: new, ?_, by simp⟩
    rw [y6, hx2, y4]
    simp [setPc, setStack]
  · cases h1

end Monitor
