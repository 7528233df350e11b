import Verif.Monitor.Props
/-!
C48: which events are switched off. C57: a thread that is asked to pause is stopped.
-/

namespace Monitor

open Py

/-! What is known about a function does not depend on the breakpoints as far as exclusion goes. -/

def Fl (E : Env) (d : Code) (i : Info) : Prop := i.skip = E.skip d ∧ i.filtered = (E.skip d || E.filtered d)

theorem fl_build (E : Env) (d : Code) (m : Nat) (bs : Bps) (fn : Option Nat) : Fl E d (build E d m bs fn) := by
  simp only [Fl, build]
  cases E.skip d <;> cases E.filtered d <;> simp

structure Flags (E : Env) (s : State) : Prop where
  cache : ∀ k i, s.cache k = some i → ∀ d ∈ E.prog, d.key = k → Fl E d i
  pc : ∀ t d rest, s.stack t = d :: rest → ∀ ev i, s.pc t = .ready ev i → Fl E d i

theorem flags_of {E : Env} {s s' : State} (f : Flags E s)
    (hc : ∀ k i, s'.cache k = some i → s.cache k = some i ∨ ∀ d ∈ E.prog, d.key = k → Fl E d i)
    (hp : ∀ t d rest, s'.stack t = d :: rest → ∀ ev i, s'.pc t = .ready ev i →
      (s.stack t = d :: rest ∧ s.pc t = .ready ev i) ∨ Fl E d i) : Flags E s' := by
  constructor
  · intro k i hi d hd hk
    rcases hc k i hi with h | h
    · exact f.cache k i h d hd hk
    · exact h d hd hk
  · intro t d rest hs ev i hi
    rcases hp t d rest hs ev i hi with ⟨h1, h2⟩ | h
    · exact f.pc t d rest h1 ev i h2
    · exact h

theorem flags_start (E : Env) : Flags E start := by constructor <;> simp [start]

theorem fl_infoNow {E : Env} {s : State} (f : Flags E s) (c : Code) (hc : c ∈ E.prog) : Fl E c (infoNow E s c) := by
  simp only [infoNow]
  split
  · rename_i i hi
    split
    · exact f.cache _ _ hi c hc rfl
    · exact fl_build ..
  · exact fl_build ..

/-- a step of a handler that is not the last one -/
theorem flags_setPc {E : Env} {s : State} (f : Flags E s) (t : Nat) (c : Code) (rest : List Code) (hs : s.stack t = c :: rest) (p : Pc)
    (h : ∀ ev i, p = .ready ev i → Fl E c i) : Flags E (setPc s t p) := by
  refine flags_of f (fun k i h => .inl h) ?_
  intro u d r hu ev i hi
  simp only [setPc] at hu hi
  split at hi
  · rename_i he; subst he; rw [hs] at hu; cases hu; exact .inr (h ev i hi)
  · exact .inl ⟨hu, hi⟩

theorem flags_setCache {E : Env} {s : State} (hd : Distinct E) (f : Flags E s) (c : Code) (hc : c ∈ E.prog) (i : Info) (h : Fl E c i) :
    Flags E (setCache s c.key i) := by
  refine flags_of f ?_ (fun t d r h1 ev j h2 => .inl ⟨h1, h2⟩)
  intro k j hj
  simp only [setCache] at hj
  split at hj
  · rename_i he
    cases hj
    right
    intro d hdp hk
    rw [hd d hdp c hc (hk.trans he)]
    exact h
  · exact .inl hj

theorem flags_step {E : Env} {s s' : State} (hd : Distinct E) (b : Base E s) (f : Flags E s) (a : Action) (h : step E s a = some s') :
    Flags E s' := by
  have same : ∀ s' : State, s'.cache = s.cache → s'.stack = s.stack → s'.pc = s.pc → Flags E s' := by
    intro s' h1 h2 h3
    exact ⟨by rw [h1]; exact f.cache, by rw [h2, h3]; exact f.pc⟩
  have stk : ∀ (t : Nat) (cs w : List Code), s.pc t = .idle → Flags E { setStack s t cs with waiting := w } := by
    intro t cs w hi
    refine flags_of f (fun k i h => .inl h) ?_
    intro u d r hu ev i hi'
    simp only [setStack] at hu hi'
    split at hu
    · rename_i he; subst he; rw [hi] at hi'; cases hi'
    · exact .inl ⟨hu, hi'⟩
  cases a <;> simp only [step] at h
  case begin cmd => split at h <;> cases h; exact same _ rfl rfl rfl
  case work =>
    split at h
    · cases h
    · rename_i op q hq
      cases h
      have hw := b.wf
      rw [hq] at hw
      cases op
      case trace t c =>
        obtain ⟨_, _, _, g4, g5, _, g7, _⟩ := traceFrame_fields E s t c
        have := flags_setCache hd f c hw.2.1 _ (fl_infoNow f c hw.2.1)
        constructor
        · simp only [exec, g4]; exact this.cache
        · simp only [exec, g5, g7]; exact this.pc
      all_goals exact same _ rfl rfl rfl
  case call t c =>
    split at h
    · rename_i hx
      cases h
      have := stk t (c :: s.stack t) s.waiting hx.1
      split
      · exact flags_setPc this t c (s.stack t) (by simp [setStack]) _ (by intro ev i h; cases h)
      · exact this
    · cases h
  case ret t =>
    split at h
    · cases h
    · split at h
      · rename_i hx; cases h; exact stk t _ s.waiting hx
      · cases h
  case yield t =>
    split at h
    · cases h
    · split at h
      · rename_i hx; cases h; exact stk t _ _ hx
      · cases h
  case resume t c =>
    split at h
    · rename_i hx; cases h; exact stk t _ _ hx.1
    · cases h
  case run t l =>
    split at h
    · cases h
    · rename_i c cs hs
      split at h
      · cases h
        split
        · exact flags_setPc f t c cs hs _ (by intro ev i h; cases h)
        · exact f
      · cases h
  case handle t =>
    split at h
    · cases h
    · rename_i c cs hs
      have hc : c ∈ E.prog := b.mem t c (by simp [hs])
      unfold handle at h
      split at h
      · cases h
      · split at h <;> cases h
        · rename_i i hi
          refine flags_setPc f t c cs hs _ ?_
          intro ev' j hj
          split at hj <;> cases hj
          exact f.cache _ _ hi c hc rfl
        · exact flags_setPc f t c cs hs _ (by intro ev i h; cases h)
      · cases h; exact flags_setPc f t c cs hs _ (by intro ev i h; cases h)
      · split at h <;> cases h
        · exact flags_setPc (flags_setCache hd f c hc _ (fl_build ..)) t c cs hs _ (by intro ev i h; cases h; exact fl_build ..)
        · exact flags_setPc f t c cs hs _ (by intro ev i h; cases h)
      · cases h; exact flags_setPc f t c cs hs _ (by intro ev i h; cases h)
      · cases h
        exact flags_setPc (flags_setCache hd f c hc _ (fl_build ..)) t c cs hs _ (by intro ev i h; cases h; exact fl_build ..)
      · cases h
        obtain ⟨_, _, _, g4, g5, _, g7, _⟩ := startDone_fields s t c ‹Info›
        exact flags_setPc (same _ g4 g5 g7) t c cs (by rw [g5]; exact hs) _ (by intro ev i h; cases h)
      · cases h
        obtain ⟨_, _, _, g4, g5, _, g7, _⟩ := lineDone_fields s t c ‹Nat› ‹Info›
        exact flags_setPc (same _ g4 g5 g7) t c cs (by rw [g5]; exact hs) _ (by intro ev i h; cases h)
  case stepping v => cases h; exact same _ rfl rfl rfl
  case enable c => cases h; exact same _ rfl rfl rfl

theorem flags_run {E : Env} {s s' : State} (hd : Distinct E) (b : Base E s) (f : Flags E s) (acts : List Action)
    (h : run E s acts = some s') : Flags E s' := by
  induction acts generalizing s with
  | nil => cases h; exact f
  | cons a as ih =>
    simp only [run] at h
    split at h
    · rename_i s1 h1; exact ih (base_step hd b a h1) (flags_step hd b f a h1) h
    · cases h

/-! C48 -/

/-- the last step of a handler, or a step that changes neither the events nor the pauses nor the stops -/
theorem handle_cases {E : Env} {s s' : State} {t : Nat} {c : Code} (h : handle E s t c = some s') :
    (s'.lineOff = s.lineOff ∧ s'.startOff = s.startOff ∧ s'.lineOn = s.lineOn ∧ s'.pausing = s.pausing ∧ s'.stops = s.stops ∧
        s'.active = s.active ∧ ∃ ev, evOf (s.pc t) = some ev ∧ evOf (s'.pc t) = some ev) ∨
      (∃ i, s.pc t = .ready .start i ∧ s' = setPc (startDone s t c i) t .idle) ∨
      (∃ l i, s.pc t = .ready (.line l) i ∧ s' = setPc (lineDone s t c l i) t .idle) := by
  unfold handle at h
  split at h
  · cases h
  · rename_i ev hpc
    split at h <;> cases h
    · left; refine ⟨rfl, rfl, rfl, rfl, rfl, rfl, ev, by rw [hpc]; rfl, ?_⟩
      simp only [setPc, if_true]; split <;> rfl
    · left; exact ⟨rfl, rfl, rfl, rfl, rfl, rfl, ev, by rw [hpc]; rfl, by simp [setPc, evOf]⟩
  · rename_i ev hpc
    cases h; left; exact ⟨rfl, rfl, rfl, rfl, rfl, rfl, ev, by rw [hpc]; rfl, by simp [setPc, evOf]⟩
  · rename_i ev m hpc
    split at h <;> cases h
    · left; exact ⟨rfl, rfl, rfl, rfl, rfl, rfl, ev, by rw [hpc]; rfl, by simp [setPc, setCache, evOf]⟩
    · left; exact ⟨rfl, rfl, rfl, rfl, rfl, rfl, ev, by rw [hpc]; rfl, by simp [setPc, evOf]⟩
  · rename_i ev m bs hpc
    cases h; left; exact ⟨rfl, rfl, rfl, rfl, rfl, rfl, ev, by rw [hpc]; rfl, by simp [setPc, evOf]⟩
  · rename_i ev m bs fn hpc
    cases h; left; exact ⟨rfl, rfl, rfl, rfl, rfl, rfl, ev, by rw [hpc]; rfl, by simp [setPc, setCache, evOf]⟩
  · rename_i i hpc; cases h; exact .inr (.inl ⟨i, hpc, rfl⟩)
  · rename_i l i hpc; cases h; exact .inr (.inr ⟨l, i, hpc, rfl⟩)

theorem traceFrame_more (E : Env) (s : State) (t : Nat) (c : Code) :
    (traceFrame E s t c).stops = s.stops ∧ (traceFrame E s t c).pausing = s.pausing ∧
      (∀ d, s.lineOn d = true → (traceFrame E s t c).lineOn d = true) ∧
      ((infoNow E s c).skip = false → E.known t = true → s.pausing t = true → (traceFrame E s t c).lineOn c = true) := by
  unfold traceFrame
  cases h1 : (infoNow E s c).skip <;> cases h2 : E.known t <;> cases h3 : s.pausing t <;>
    by_cases h4 : (infoNow E s c).filtered = false ∧ (infoNow E s c).bps ≠ [] <;> simp [h1, h3, h4, setCache, lineEvents] <;>
    grind

/-- what an action of the command thread does to the events -/
theorem exec_events {E : Env} {s : State} (op : Op) (q : List Op) :
    (∀ c, s.startOff c = false → (exec E s op q).startOff c = false) ∧
      (∀ c l, s.lineOff c l = false → (exec E s op q).lineOff c l = false) ∧
      (∀ c, s.lineOn c = true → (exec E s op q).lineOn c = true) ∧ (exec E s op q).pc = s.pc ∧ (exec E s op q).stack = s.stack ∧
      (exec E s op q).stops = s.stops ∧ (∀ t, s.pausing t = true → (exec E s op q).pausing t = true) := by
  cases op
  case trace t c =>
    obtain ⟨_, _, _, _, g5, _, g7, _, _, g10, g11⟩ := traceFrame_fields E s t c
    simp only [exec]
    obtain ⟨k1, k2, k3, k4⟩ := traceFrame_more E s t c
    exact ⟨by rw [g10]; exact fun _ h => h, by rw [g11]; exact fun _ _ h => h, k3, g7, g5, k1, by rw [k2]; exact fun _ h => h⟩
  case mark t =>
    refine ⟨fun _ h => h, fun _ _ h => h, fun _ h => h, rfl, rfl, rfl, ?_⟩
    intro u hu
    simp only [exec]
    split
    · rfl
    · exact hu
  case restart => exact ⟨fun _ _ => rfl, fun _ _ _ => rfl, fun _ h => h, rfl, rfl, rfl, fun _ h => h⟩
  all_goals exact ⟨fun _ h => h, fun _ _ h => h, fun _ h => h, rfl, rfl, rfl, fun _ h => h⟩

/-- what an action that is not a step of a handler does to the events -/
theorem step_events {E : Env} {s s' : State} (a : Action) (ha : ∀ t, a ≠ .handle t) (h : step E s a = some s') :
    (∀ c, s.startOff c = false → s'.startOff c = false) ∧ (∀ c l, s.lineOff c l = false → s'.lineOff c l = false) ∧
      (∀ c, s.lineOn c = true → s'.lineOn c = true) ∧ s'.stops = s.stops ∧ (∀ t, s.pausing t = true → s'.pausing t = true) := by
  cases a <;> simp only [step] at h
  case handle t => exact absurd rfl (ha t)
  case work =>
    split at h
    · cases h
    · cases h
      rename_i op q hq
      obtain ⟨h1, h2, h3, -, -, h4, h5⟩ := @exec_events E s op q
      exact ⟨h1, h2, h3, h4, h5⟩
  case enable c =>
    cases h
    refine ⟨fun _ h => h, fun _ _ h => h, ?_, rfl, fun _ h => h⟩
    intro d hd; simp only [lineEvents]; by_cases he : d = c <;> simp [he, hd]
  all_goals repeat' split at h
  all_goals cases h
  all_goals first
    | exact ⟨fun _ h => h, fun _ _ h => h, fun _ h => h, rfl, fun _ h => h⟩
    | (split <;> exact ⟨fun _ h => h, fun _ _ h => h, fun _ h => h, rfl, fun _ h => h⟩)

/-- The event of a line is switched off only by a thread that has executed this line and has not been asked to pause, while no thread
is stepping, and, if what its handler has read is current, only if there is no breakpoint in the function; or the function is not
to be debugged. -/
theorem c48_line (E : Env) (hd : Distinct E) (acts : List Action) (s : State) (h : run E start acts = some s)
    (a : Action) (s' : State) (h' : step E s a = some s') (c : Code) (l : Nat) (h0 : s.lineOff c l = false) (h1 : s'.lineOff c l = true) :
    ∃ t rest i, a = .handle t ∧ s.stack t = c :: rest ∧ s.pc t = .ready (.line l) i ∧
      (¬ Visible E c ∨ (s.pausing t = false ∧ s.stepping = false ∧ (UpToDate E s c t → ∀ k, ¬ Breaks s c k))) := by
  have b := base_run hd (base_start E) acts h
  have f := flags_run hd (base_start E) (flags_start E) acts h
  by_cases hh : ∀ t, a ≠ .handle t
  · rw [(step_events a hh h').2.1 c l h0] at h1; cases h1
  · have ⟨t, ht⟩ : ∃ t, a = .handle t := Classical.byContradiction (fun hn => hh (fun t ht => hn ⟨t, ht⟩))
    subst ht
    simp only [step] at h'
    split at h'
    · cases h'
    · rename_i d cs hs
      rcases handle_cases h' with ⟨g, _⟩ | ⟨i, hpc, rfl⟩ | ⟨k, i, hpc, rfl⟩
      · rw [g, h0] at h1; cases h1
      · rw [show (setPc (startDone s t d i) t .idle).lineOff = s.lineOff from (startDone_fields s t d i).2.2.2.2.2.2.2.2.2, h0] at h1
        cases h1
      · change (lineDone s t d k i).lineOff c l = true at h1
        rw [lineDone_lineOff] at h1
        split at h1
        · rename_i hx
          obtain ⟨rfl, rfl, hx⟩ := hx
          refine ⟨t, cs, i, rfl, hs, hpc, ?_⟩
          have hfl := f.pc t c cs hs _ _ hpc
          rcases hx with hx | ⟨hg, hp, hb, hst⟩
          · left
            rintro ⟨v1, v2⟩
            simp [hfl.1, hfl.2, v1, v2] at hx
          · by_cases hv : Visible E c
            · right
              refine ⟨hp, hst, ?_⟩
              intro hu k ⟨hk, hk'⟩
              simp only [UpToDate, hpc] at hu
              have : i.bps = own c (fileBps s c.file) := by rw [hu]; simp [build, hv.1, hv.2]
              rw [hb] at this
              have hget := get_own c (fileBps s c.file) k
              rw [← this, if_pos hk] at hget
              rw [← hget] at hk'
              simp [Dict.get_nil] at hk'
            · exact .inl hv
        · rw [h0] at h1; cases h1

/-- The event of calls of a function is switched off only by a thread that has called it and has not been asked to pause, while no
thread is stepping, and, if what its handler has read is current, only if there is no breakpoint in it or for it; or the function is not
to be debugged. -/
theorem c48_start (E : Env) (hd : Distinct E) (acts : List Action) (s : State) (h : run E start acts = some s)
    (a : Action) (s' : State) (h' : step E s a = some s') (c : Code) (h0 : s.startOff c = false) (h1 : s'.startOff c = true) :
    ∃ t rest i, a = .handle t ∧ s.stack t = c :: rest ∧ s.pc t = .ready .start i ∧
      (¬ Visible E c ∨
        (s.pausing t = false ∧ s.stepping = false ∧ (UpToDate E s c t → ¬ BreaksFn s c ∧ ∀ k, ¬ Breaks s c k))) := by
  have b := base_run hd (base_start E) acts h
  have f := flags_run hd (base_start E) (flags_start E) acts h
  by_cases hh : ∀ t, a ≠ .handle t
  · rw [(step_events a hh h').1 c h0] at h1; cases h1
  · have ⟨t, ht⟩ : ∃ t, a = .handle t := Classical.byContradiction (fun hn => hh (fun t ht => hn ⟨t, ht⟩))
    subst ht
    simp only [step] at h'
    split at h'
    · cases h'
    · rename_i d cs hs
      rcases handle_cases h' with ⟨-, g, _⟩ | ⟨i, hpc, rfl⟩ | ⟨k, i, hpc, rfl⟩
      · rw [g, h0] at h1; cases h1
      · change (startDone s t d i).startOff c = true at h1
        rw [startDone_startOff] at h1
        split at h1
        · rename_i hx
          obtain ⟨rfl, hx⟩ := hx
          refine ⟨t, cs, i, rfl, hs, hpc, ?_⟩
          have hfl := f.pc t c cs hs _ _ hpc
          by_cases hv : Visible E c
          · right
            simp only [Fl, hv.1, hv.2, Bool.or_false] at hfl
            rcases hx with hx | ⟨hg, hp, hst⟩
            · simp [hfl] at hx
            · simp only [Traced, hfl.2, true_and, not_or, Classical.not_not] at hp
              refine ⟨by simpa using hp.2, hst, ?_⟩
              intro hu
              simp only [UpToDate, hpc] at hu
              have e1 : i.bps = own c (fileBps s c.file) := by rw [hu]; simp [build, hv.1, hv.2]
              have e2 : i.fn = Dict.get s.fnBreaks c.name := by rw [hu]; simp [build, hv.1, hv.2]
              refine ⟨?_, ?_⟩
              · simp [BreaksFn, ← e2, hg]
              · intro k ⟨hk, hk'⟩
                rw [hp.1] at e1
                have hget := get_own c (fileBps s c.file) k
                rw [← e1, if_pos hk] at hget
                rw [← hget] at hk'
                simp [Dict.get_nil] at hk'
          · exact .inl hv
        · rw [h0] at h1; cases h1
      · rw [show (setPc (lineDone s t d k i) t .idle).startOff = s.startOff from (lineDone_fields s t d k i).2.2.2.2.2.2.2.2.2.1, h0] at h1
        cases h1

/-- Whenever no command is being processed, the events of the lines with breakpoints, and of calls of functions with breakpoints, are
on. -/
theorem c48_on (E : Env) (hd : Distinct E) (c : Code) (hc : c ∈ E.prog) (hv : Visible E c)
    (acts : List Action) (hp : ∀ a ∈ acts, Plain E c a) (hcalm : Calm E c start acts)
    (s : State) (h : run E start acts = some s) (hq : s.queue = []) :
    (∀ l, Breaks s c l → s.active = true ∧ s.lineOff c l = false ∧ s.startOff c = false) ∧
      (BreaksFn s c → s.active = true ∧ s.startOff c = false) := by
  have inv := inv_run hd hc hv (inv_start E c) acts hp hcalm h
  obtain ⟨n, hpl, hh⟩ := inv.plan
  rw [hq] at hpl
  cases hpl
  obtain ⟨g, -⟩ := hh
  exact ⟨fun l hl => ⟨g.act (.inl ⟨l, hl⟩), g.line l hl, g.st (.inl ⟨l, hl⟩)⟩, fun hf => ⟨g.act (.inr hf), g.st (.inr hf)⟩⟩

/-! C57 -/

/-- the thread has been suspended at a line since -/
def StoppedSince (s0 s : State) (t : Nat) : Prop :=
  ∃ new, s.stops = new ++ s0.stops ∧ ∃ c l, .pause t c l ∈ new ∨ .line t c l ∈ new

theorem StoppedSince.later {E : Env} {s0 s s' : State} {t : Nat} (h : StoppedSince s0 s t) (acts : List Action) (hr : run E s acts = some s') :
    StoppedSince s0 s' t := by
  obtain ⟨new, e, c, l, hx⟩ := h
  obtain ⟨n, e'⟩ := stops_run acts hr
  refine ⟨n ++ new, by rw [e', e, List.append_assoc], c, l, ?_⟩
  rcases hx with hx | hx
  · exact .inl (by simp [hx])
  · exact .inr (by simp [hx])

theorem StoppedSince.next {E : Env} {s0 s s' : State} {t : Nat} (h : StoppedSince s0 s t) (a : Action) (hr : step E s a = some s') :
    StoppedSince s0 s' t := h.later (E := E) [a] (by simp [run, hr])

theorem StoppedSince.of {s0 s s' : State} {t : Nat} (h : ∃ new, s.stops = new ++ s0.stops) (h' : StoppedSince s s' t) :
    StoppedSince s0 s' t := by
  obtain ⟨n, e⟩ := h
  obtain ⟨new, e', c, l, hx⟩ := h'
  refine ⟨new ++ n, by rw [e', e, List.append_assoc], c, l, ?_⟩
  rcases hx with hx | hx
  · exact .inl (by simp [hx])
  · exact .inr (by simp [hx])

theorem lineDone_pausing (s : State) (t : Nat) (c : Code) (l : Nat) (i : Info) (u : Nat) (h : s.pausing u = true) :
    (lineDone s t c l i).pausing u = true ∨ (u = t ∧ StoppedSince s (lineDone s t c l i) t) := by
  simp only [lineDone]
  repeat' split
  · exact .inl h
  · by_cases hu : u = t
    · exact .inr ⟨hu, [.line t c l], rfl, c, l, .inr (by simp)⟩
    · left; simp [hu, h]
  · by_cases hu : u = t
    · exact .inr ⟨hu, [.pause t c l], rfl, c, l, .inl (by simp)⟩
    · left; simp [hu, h]
  · exact .inl h
  · exact .inl h

theorem startDone_pausing (s : State) (t : Nat) (c : Code) (i : Info) : (startDone s t c i).pausing = s.pausing := by
  simp only [startDone, lineEvents, offStart]
  repeat' split
  all_goals rfl

/-- a thread is no longer to pause only because it has been stopped -/
theorem pausing_step {E : Env} {s s' : State} (t : Nat) (hp : s.pausing t = true) (a : Action) (h : step E s a = some s') :
    s'.pausing t = true ∨ StoppedSince s s' t := by
  by_cases hh : ∀ u, a ≠ .handle u
  · exact .inl ((step_events a hh h).2.2.2.2 t hp)
  · have ⟨u, hu⟩ : ∃ u, a = .handle u := Classical.byContradiction (fun hn => hh (fun t ht => hn ⟨t, ht⟩))
    subst hu
    simp only [step] at h
    split at h
    · cases h
    · rename_i d cs hs
      rcases handle_cases h with ⟨_, _, _, g, _⟩ | ⟨i, _, rfl⟩ | ⟨l, i, _, rfl⟩
      · rw [g]; exact .inl hp
      · left; simp only [setPc, startDone_pausing, hp]
      · rcases lineDone_pausing s u d l i t hp with h | ⟨rfl, h⟩
        · exact .inl h
        · exact .inr h

/-- steps of the commands that pause threads -/
def pauseOp : Op → Bool
  | .mark _ | .update true | .snapshotOf _ | .trace _ _ | .restart => true
  | _ => false

/-- a thread in this state reports the next line it executes -/
structure Watched (E : Env) (t : Nat) (s : State) : Prop where
  pausing : s.pausing t = true
  active : s.active = true
  ops : ∀ op ∈ s.queue, pauseOp op = true
  st : ∀ c, Visible E c → s.startOff c = false
  line : ∀ c l, Visible E c → s.lineOff c l = false
  frames : ∀ c ∈ s.stack t, Visible E c → s.lineOn c = true ∨ ((∃ r, s.stack t = c :: r) ∧ evOf (s.pc t) = some .start)

/-- What may happen between the request and the next line of the thread: a handler does something only in a thread that is to pause too, or
while some thread is stepping; other threads may be asked to pause; the thread does not resume a suspended generator. -/
def Undisturbed (E : Env) (t : Nat) : State → List Action → Prop
  | _, [] => True
  | s, a :: as =>
    (∀ u, a = .handle u → s.pausing u = true ∨ s.stepping = true) ∧ (∀ cmd, a = .begin cmd → ∃ u, u ≠ t ∧ cmd = .pause u) ∧
      (∀ c, a ≠ .resume t c) ∧ ∀ s', step E s a = some s' → Undisturbed E t s' as

theorem watched_step {E : Env} {s s' : State} {t : Nat} (f : Flags E s) (w : Watched E t s) (a : Action)
    (h1 : ∀ u, a = .handle u → s.pausing u = true ∨ s.stepping = true) (h2 : ∀ cmd, a = .begin cmd → ∃ u, u ≠ t ∧ cmd = .pause u)
    (h3 : ∀ c, a ≠ .resume t c) (h : step E s a = some s') : Watched E t s' ∨ StoppedSince s s' t := by
  rcases pausing_step t w.pausing a h with hp | hp
  · left
    cases a <;> simp only [step] at h
    case begin cmd =>
      obtain ⟨u, -, rfl⟩ := h2 cmd rfl
      split at h <;> cases h
      exact ⟨hp, w.active, by simp [ops, pauseOp], w.st, w.line, w.frames⟩
    case work =>
      split at h
      · cases h
      · rename_i op q hq
        cases h
        obtain ⟨e1, e2, e3, e4, e5, -, -⟩ := @exec_events E s op q
        have hop := w.ops op (by simp [hq])
        have hrest : ∀ o ∈ q, pauseOp o = true := fun o ho => w.ops o (by simp [hq, ho])
        refine ⟨hp, ?_, ?_, fun c hc => e1 c (w.st c hc), fun c l hc => e2 c l (w.line c l hc), ?_⟩
        · cases op <;> try (cases hop; done)
          case update r =>
            cases r
            · cases hop
            · simp [exec, updateEvents]
          case trace u c => simp only [exec]; rw [(traceFrame_fields E s u c).2.2.2.2.2.2.2.2.1]; exact w.active
          all_goals exact w.active
        · cases op <;> try (cases hop; done)
          case snapshotOf u =>
            simp only [exec, traces]
            intro o ho
            rcases List.mem_append.1 ho with ho | ho
            · obtain ⟨c, -, rfl⟩ := List.mem_map.1 ho; rfl
            · exact hrest o ho
          all_goals exact hrest
        · rw [e4, e5]
          intro c hc hv
          rcases w.frames c hc hv with h | h
          · exact .inl (e3 c h)
          · exact .inr h
    case call u d =>
      split at h
      · rename_i hx
        cases h
        by_cases hut : t = u
        · subst hut
          by_cases hev : s.active = true ∧ s.startOff d = false
          · rw [if_pos hev]
            rw [if_pos hev] at hp
            refine ⟨hp, w.active, w.ops, w.st, w.line, ?_⟩
            intro c hc hv
            simp only [setPc, setStack, if_true, List.mem_cons] at hc ⊢
            rcases hc with rfl | hc
            · exact .inr ⟨⟨_, rfl⟩, rfl⟩
            · rcases w.frames c hc hv with h | ⟨-, h⟩
              · exact .inl h
              · rw [hx.1] at h; cases h
          · rw [if_neg hev]
            rw [if_neg hev] at hp
            refine ⟨hp, w.active, w.ops, w.st, w.line, ?_⟩
            intro c hc hv
            simp only [setStack, if_true, List.mem_cons] at hc ⊢
            rcases hc with rfl | hc
            · exact absurd ⟨w.active, w.st c hv⟩ hev
            · rcases w.frames c hc hv with h | ⟨-, h⟩
              · exact .inl h
              · rw [hx.1] at h; cases h
        · have hw : Watched E t (setStack s u (d :: s.stack u)) := by
            refine ⟨w.pausing, w.active, w.ops, w.st, w.line, ?_⟩
            simp only [setStack, hut, if_false]
            exact w.frames
          split
          · refine ⟨hw.pausing, hw.active, hw.ops, hw.st, hw.line, ?_⟩
            have := hw.frames
            simp only [setPc, setStack, hut, if_false] at this ⊢
            exact this
          · exact hw
      · cases h
    case ret u =>
      split at h
      · cases h
      · rename_i d cs hs
        split at h
        · rename_i hx
          cases h
          refine ⟨hp, w.active, w.ops, w.st, w.line, ?_⟩
          intro c hc hv
          by_cases hut : t = u
          · subst hut
            simp only [setStack, if_true] at hc ⊢
            rcases w.frames c (by simp [hs, hc]) hv with h | ⟨-, h⟩
            · exact .inl h
            · rw [hx] at h; cases h
          · simp only [setStack, hut, if_false] at hc ⊢
            exact w.frames c hc hv
        · cases h
    case yield u =>
      split at h
      · cases h
      · rename_i d cs hs
        split at h
        · rename_i hx
          cases h
          refine ⟨hp, w.active, w.ops, w.st, w.line, ?_⟩
          intro c hc hv
          by_cases hut : t = u
          · subst hut
            simp only [setStack, if_true] at hc ⊢
            rcases w.frames c (by simp [hs, hc]) hv with h | ⟨-, h⟩
            · exact .inl h
            · rw [hx] at h; cases h
          · simp only [setStack, hut, if_false] at hc ⊢
            exact w.frames c hc hv
        · cases h
    case resume u d =>
      have hut : t ≠ u := by intro h; subst h; exact h3 d rfl
      split at h
      · cases h
        refine ⟨hp, w.active, w.ops, w.st, w.line, ?_⟩
        simp only [setStack, hut, if_false]
        exact w.frames
      · cases h
    case run u l =>
      split at h
      · cases h
      · rename_i d cs hs
        split at h
        · rename_i hx
          cases h
          split
          · refine ⟨w.pausing, w.active, w.ops, w.st, w.line, ?_⟩
            intro c hc hv
            rcases w.frames c hc hv with h | ⟨h, h'⟩
            · exact .inl h
            · by_cases hut : t = u
              · subst hut; rw [hx.1] at h'; cases h'
              · right; simp only [setPc, hut, if_false]; exact ⟨h, h'⟩
          · exact w
        · cases h
    case handle u =>
      have hu := h1 u rfl
      split at h
      · cases h
      · rename_i d cs hs
        obtain ⟨k1, k2, -, -, -, k6⟩ := handle_fields h
        rcases handle_cases h with ⟨g1, g2, g3, g4, -, g6, ev, hev, hev'⟩ | ⟨i, hpc, rfl⟩ | ⟨l, i, hpc, rfl⟩
        · refine ⟨hp, by rw [g6]; exact w.active, by rw [k2]; exact w.ops, by rw [g2]; exact w.st, by rw [g1]; exact w.line, ?_⟩
          rw [k1, g3]
          intro c hc hv
          rcases w.frames c hc hv with h | ⟨h, h'⟩
          · exact .inl h
          · right
            refine ⟨h, ?_⟩
            by_cases hut : t = u
            · subst hut; rw [hev'] ; rw [hev] at h'; exact h'
            · rw [k6 t hut]; exact h'
        · have hfl := f.pc u d cs hs _ _ hpc
          refine ⟨hp, ?_, by rw [k2]; exact w.ops, ?_, ?_, ?_⟩
          · simp only [setPc]; rw [(startDone_fields s u d i).2.2.2.2.2.2.2.2.1]; exact w.active
          · intro c hv
            simp only [setPc]
            rw [startDone_startOff]
            split
            · rename_i hx
              obtain ⟨rfl, hx⟩ := hx
              simp only [Fl, hv.1, hv.2, Bool.or_false] at hfl
              rcases hx with hx | ⟨-, hx, hx'⟩
              · simp [hfl] at hx
              · rcases hu with hu | hu
                · exact absurd (.inr hu) hx
                · rw [hu] at hx'; cases hx'
            · exact w.st c hv
          · intro c l hv
            simp only [setPc]
            rw [(startDone_fields s u d i).2.2.2.2.2.2.2.2.2]
            exact w.line c l hv
          · rw [k1]
            intro c hc hv
            simp only [setPc]
            rw [startDone_lineOn]
            rcases w.frames c hc hv with h | ⟨⟨r, hr⟩, h'⟩
            · left; split <;> first | rfl | exact h
            · by_cases hut : t = u
              · subst hut
                rw [hs] at hr
                cases hr
                left
                simp only [Fl, hv.1] at hfl
                rw [if_pos ⟨rfl, hfl.1, .inr w.pausing⟩]
              · right
                simp only [hut, if_false]
                rw [(startDone_fields s u d i).2.2.2.2.2.2.1]
                exact ⟨⟨r, hr⟩, h'⟩
        · have hfl := f.pc u d cs hs _ _ hpc
          refine ⟨hp, ?_, by rw [k2]; exact w.ops, ?_, ?_, ?_⟩
          · simp only [setPc]; rw [(lineDone_fields s u d l i).2.2.2.2.2.2.2.2.1]; exact w.active
          · simp only [setPc]; rw [(lineDone_fields s u d l i).2.2.2.2.2.2.2.2.2.1]; exact w.st
          · intro c k hv
            simp only [setPc]
            rw [lineDone_lineOff]
            split
            · rename_i hx
              obtain ⟨rfl, rfl, hx⟩ := hx
              simp only [Fl, hv.1, hv.2, Bool.or_false] at hfl
              rcases hx with hx | ⟨-, hx, -, hx'⟩
              · simp [hfl] at hx
              · rcases hu with hu | hu
                · rw [hu] at hx; cases hx
                · rw [hu] at hx'; cases hx'
            · exact w.line c k hv
          · rw [k1]
            intro c hc hv
            simp only [setPc]
            rw [(lineDone_fields s u d l i).2.2.2.2.2.2.2.2.2.2]
            rcases w.frames c hc hv with h | ⟨⟨r, hr⟩, h'⟩
            · exact .inl h
            · by_cases hut : t = u
              · subst hut; rw [hpc] at h'; cases h'
              · right
                simp only [hut, if_false]
                rw [(lineDone_fields s u d l i).2.2.2.2.2.2.1]
                exact ⟨⟨r, hr⟩, h'⟩
    case stepping v => cases h; exact ⟨w.pausing, w.active, w.ops, w.st, w.line, w.frames⟩
    case enable d =>
      cases h
      refine ⟨w.pausing, w.active, w.ops, w.st, w.line, ?_⟩
      intro c hc hv
      rcases w.frames c hc hv with h | h
      · left; simp only [lineEvents, h]; split <;> rfl
      · exact .inr h
  · exact .inr hp

theorem watched_run {E : Env} {s s' : State} {t : Nat} (hd : Distinct E) (b : Base E s) (f : Flags E s) (w : Watched E t s) (acts : List Action)
    (hu : Undisturbed E t s acts) (h : run E s acts = some s') : Watched E t s' ∨ StoppedSince s s' t := by
  induction acts generalizing s with
  | nil => cases h; exact .inl w
  | cons a as ih =>
    simp only [run] at h
    obtain ⟨u1, u2, u3, u4⟩ := hu
    split at h
    · rename_i s1 h1
      rcases watched_step f w a u1 u2 u3 h1 with hw | hw
      · rcases ih (base_step hd b a h1) (flags_step hd b f a h1) hw (u4 s1 h1) h with hr | hr
        · exact .inl hr
        · exact .inr (StoppedSince.of (stops_step a h1) hr)
      · exact .inr (hw.later as h)
    · cases h

/-- a thread that is in a handler stays there until the handler ends -/
theorem busy_step {E : Env} {s s' : State} (t : Nat) (c : Code) (rest : List Code) (hs : s.stack t = c :: rest) (ev : Ev)
    (hev : evOf (s.pc t) = some ev) (a : Action) (h : step E s a = some s') :
    (s'.stack t = c :: rest ∧ evOf (s'.pc t) = some ev) ∨
      (∃ i, s.pc t = .ready ev i ∧
        s' = setPc (match ev with | .start => startDone s t c i | .line l => lineDone s t c l i) t .idle) := by
  have hni : s.pc t ≠ .idle := by intro h; rw [h] at hev; cases hev
  have other : s'.stack t = s.stack t → s'.pc t = s.pc t → s'.stack t = c :: rest ∧ evOf (s'.pc t) = some ev :=
    fun e1 e2 => ⟨by rw [e1, hs], by rw [e2, hev]⟩
  cases a <;> simp only [step] at h
  case begin cmd => split at h <;> cases h; exact .inl (other rfl rfl)
  case work =>
    split at h
    · cases h
    · cases h
      obtain ⟨-, -, -, e4, e5, -, -⟩ := @exec_events E s ‹_› ‹_›
      exact .inl (other (by rw [e5]) (by rw [e4]))
  case call u d =>
    split at h
    · rename_i hx
      have hut : t ≠ u := by intro h; subst h; exact hni hx.1
      left
      split at h <;> cases h <;> exact other (by simp [setStack, setPc, hut]) (by simp [setStack, setPc, hut])
    · cases h
  case ret u =>
    split at h
    · cases h
    · split at h
      · rename_i hx
        have hut : t ≠ u := by intro h; subst h; exact hni hx
        cases h; exact .inl (other (by simp [setStack, hut]) rfl)
      · cases h
  case yield u =>
    split at h
    · cases h
    · split at h
      · rename_i hx
        have hut : t ≠ u := by intro h; subst h; exact hni hx
        cases h; exact .inl (other (by simp [setStack, hut]) rfl)
      · cases h
  case resume u d =>
    split at h
    · rename_i hx
      have hut : t ≠ u := by intro h; subst h; exact hni hx.1
      cases h; exact .inl (other (by simp [setStack, hut]) rfl)
    · cases h
  case run u l =>
    split at h
    · cases h
    · split at h
      · rename_i hx
        have hut : t ≠ u := by intro h; subst h; exact hni hx.1
        split at h <;> cases h
        · exact .inl (other rfl (by simp [setPc, hut]))
        · exact .inl (other rfl rfl)
      · cases h
  case handle u =>
    by_cases hut : t = u
    · subst hut
      rw [hs] at h
      simp only at h
      rcases handle_cases h with ⟨-, -, -, -, -, -, ev', h1, h2⟩ | ⟨i, hpc, rfl⟩ | ⟨l, i, hpc, rfl⟩
      · left
        rw [hev] at h1
        cases h1
        exact ⟨by rw [(handle_fields h).1, hs], h2⟩
      · right
        rw [hpc] at hev
        cases hev
        exact ⟨i, hpc, rfl⟩
      · right
        rw [hpc] at hev
        cases hev
        exact ⟨i, hpc, rfl⟩
    · split at h
      · cases h
      · obtain ⟨k1, -, -, -, -, k6⟩ := handle_fields h
        exact .inl (other (by rw [k1]) (k6 t hut))
  case stepping v => cases h; exact .inl (other rfl rfl)
  case enable d => cases h; exact .inl (other rfl rfl)

/-- a thread that is to pause and handles a line event of code that is to be debugged is stopped when the handler ends -/
theorem line_run {E : Env} {s s' : State} (hd : Distinct E) (b : Base E s) (f : Flags E s) (t : Nat) (c : Code) (rest : List Code)
    (hv : Visible E c) (hs : s.stack t = c :: rest) (l : Nat) (hev : evOf (s.pc t) = some (.line l)) (hp : s.pausing t = true)
    (acts : List Action) (h : run E s acts = some s') (hidle : s'.pc t = .idle) : StoppedSince s s' t := by
  induction acts generalizing s with
  | nil => cases h; rw [hidle] at hev; cases hev
  | cons a as ih =>
    simp only [run] at h
    split at h
    · rename_i s1 h1
      rcases busy_step t c rest hs (.line l) hev a h1 with ⟨e1, e2⟩ | ⟨i, hpc, rfl⟩
      · rcases pausing_step t hp a h1 with hp1 | hst
        · exact StoppedSince.of (stops_step a h1) (ih (base_step hd b a h1) (flags_step hd b f a h1) e1 e2 hp1 h)
        · exact hst.later as h
      · refine StoppedSince.later (E := E) (s := setPc (lineDone s t c l i) t .idle) ?_ as h
        have hfl := f.pc t c rest hs _ _ hpc
        simp only [StoppedSince, setPc, lineDone, hfl.1, hfl.2, hv.1, hv.2, hp, Bool.or_false, Bool.false_eq_true, or_self, if_false, if_true]
        split
        · exact ⟨[.line t c l], rfl, c, l, .inr (by simp)⟩
        · exact ⟨[.pause t c l], rfl, c, l, .inl (by simp)⟩
    · cases h

/-- the request is being processed: `n` steps are left of it, or the frames to be traced -/
inductive Stage (E : Env) (t : Nat) (s0 s : State) : Prop
  | marking : s.queue = [.mark t, .update true, .snapshotOf t, .restart] → Stage E t s0 s
  | stopped : StoppedSince s0 s t → Stage E t s0 s
  | updating : s.queue = [.update true, .snapshotOf t, .restart] → s.pausing t = true → Stage E t s0 s
  | looking : s.queue = [.snapshotOf t, .restart] → s.pausing t = true → s.active = true → Stage E t s0 s
  | tracing (cs : List Code) : s.queue = cs.map (.trace t) ++ [.restart] → s.pausing t = true → s.active = true →
      (∀ c ∈ s.stack t, Visible E c → s.lineOn c = true ∨ c ∈ cs) → Stage E t s0 s

/-- the thread calls nothing and resumes nothing, and no other command is processed -/
def Still (t : Nat) (a : Action) : Prop := (∀ c, a ≠ .call t c ∧ a ≠ .resume t c) ∧ isBegin a = false

theorem still_stack {E : Env} {s s' : State} {t : Nat} (a : Action) (ha : Still t a) (h : step E s a = some s') :
    ∀ c ∈ s'.stack t, c ∈ s.stack t := by
  cases a <;> simp only [step] at h
  case begin cmd => cases ha.2
  case work =>
    split at h
    · cases h
    · cases h
      obtain ⟨-, -, -, -, e5, -, -⟩ := @exec_events E s ‹_› ‹_›
      rw [e5]; exact fun c h => h
  case call u d =>
    have hut : t ≠ u := by intro h; subst h; exact (ha.1 d).1 rfl
    split at h
    · split at h <;> cases h <;> simp [setPc, setStack, hut]
    · cases h
  case resume u d =>
    have hut : t ≠ u := by intro h; subst h; exact (ha.1 d).2 rfl
    split at h
    · cases h; simp [setStack, hut]
    · cases h
  case ret u =>
    split at h
    · cases h
    · rename_i d cs hs
      split at h
      · cases h
        intro c hc
        simp only [setStack] at hc
        split at hc
        · rename_i he; subst he; simp [hs, hc]
        · exact hc
      · cases h
  case yield u =>
    split at h
    · cases h
    · rename_i d cs hs
      split at h
      · cases h
        intro c hc
        simp only [setStack] at hc
        split at hc
        · rename_i he; subst he; simp [hs, hc]
        · exact hc
      · cases h
  case run u l =>
    split at h
    · cases h
    · split at h
      · cases h; split <;> exact fun c h => h
      · cases h
  case handle u =>
    split at h
    · cases h
    · rw [(handle_fields h).1]; exact fun c h => h
  case stepping v => cases h; exact fun c h => h
  case enable d => cases h; exact fun c h => h

/-- the queue and `active` change only when the command is processed, and no line events are switched off but by handlers at their line -/
theorem still_queue {E : Env} {s s' : State} {t : Nat} (a : Action) (ha : Still t a) (hw : a ≠ .work) (h : step E s a = some s') :
    s'.queue = s.queue ∧ s'.active = s.active ∧ ∀ c, s.lineOn c = true → s'.lineOn c = true := by
  by_cases hh : ∀ u, a ≠ .handle u
  · refine ⟨?_, ?_, (step_events a hh h).2.2.1⟩
    all_goals cases a <;> simp only [step] at h
    all_goals try exact absurd rfl hw
    all_goals try cases ha.2
    all_goals try exact absurd rfl (hh _)
    all_goals repeat' split at h
    all_goals cases h
    all_goals first | rfl | (split <;> rfl)
  · have ⟨u, hu⟩ : ∃ u, a = .handle u := Classical.byContradiction (fun hn => hh (fun t ht => hn ⟨t, ht⟩))
    subst hu
    simp only [step] at h
    split at h
    · cases h
    · rename_i d cs hs
      refine ⟨(handle_fields h).2.1, ?_⟩
      rcases handle_cases h with ⟨_, _, g3, _, _, g6, _⟩ | ⟨i, _, rfl⟩ | ⟨l, i, _, rfl⟩
      · exact ⟨g6, by rw [g3]; exact fun c h => h⟩
      · refine ⟨(startDone_fields s u d i).2.2.2.2.2.2.2.2.1, fun c hc => ?_⟩
        simp only [setPc]; rw [startDone_lineOn]; split <;> first | rfl | exact hc
      · refine ⟨(lineDone_fields s u d l i).2.2.2.2.2.2.2.2.1, fun c hc => ?_⟩
        simp only [setPc]; rw [(lineDone_fields s u d l i).2.2.2.2.2.2.2.2.2.2]; exact hc

theorem stage_step {E : Env} {s0 s s' : State} {t : Nat} (hk : E.known t = true) (b : Base E s) (f : Flags E s)
    (hst : ∃ new, s.stops = new ++ s0.stops) (g : Stage E t s0 s) (a : Action) (ha : Still t a) (h : step E s a = some s') :
    Stage E t s0 s' ∨ (a = .work ∧ s'.queue = [] ∧ Watched E t s') := by
  by_cases hw : a = .work
  · subst hw
    simp only [step] at h
    cases g with
    | stopped hs => exact .inl (.stopped (hs.next (E := E) .work (by simpa only [step] using h)))
    | marking hq => rw [hq] at h; cases h; exact .inl (.updating rfl (by simp [exec]))
    | updating hq hp => rw [hq] at h; cases h; exact .inl (.looking rfl hp (by simp [exec, updateEvents]))
    | looking hq hp hac => rw [hq] at h; cases h; exact .inl (.tracing (s.stack t) rfl hp hac (fun c hc _ => .inr hc))
    | tracing cs hq hp hac hf =>
      cases cs with
      | nil =>
        rw [hq] at h
        cases h
        right
        refine ⟨rfl, rfl, hp, hac, by simp [exec], fun _ _ => rfl, fun _ _ _ => rfl, ?_⟩
        intro c hc hv
        rcases hf c hc hv with h | h
        · exact .inl h
        · cases h
      | cons d ds =>
        rw [hq] at h
        cases h
        left
        have hdp : d ∈ E.prog := by have := b.wf; rw [hq] at this; exact this.2.1
        obtain ⟨k1, k2, k3, k4⟩ := traceFrame_more E s t d
        obtain ⟨_, _, _, _, g5, _, _, _, g9, _⟩ := traceFrame_fields E s t d
        refine .tracing ds rfl (by simp only [exec]; rw [k2]; exact hp) (by simp only [exec]; rw [g9]; exact hac) ?_
        simp only [exec, g5]
        intro c hc hv
        rcases hf c hc hv with h | h
        · exact .inl (k3 c h)
        · rcases List.mem_cons.1 h with rfl | h
          · left
            refine k4 ?_ hk hp
            rw [(fl_infoNow f c hdp).1]; exact hv.1
          · exact .inr h
  · left
    obtain ⟨e1, e2, e3⟩ := still_queue a ha hw h
    cases g with
    | stopped hs => exact .stopped (hs.next a h)
    | marking hq => exact .marking (by rw [e1, hq])
    | updating hq hp =>
      rcases pausing_step t hp a h with hp' | hp'
      · exact .updating (by rw [e1, hq]) hp'
      · exact .stopped (.of hst hp')
    | looking hq hp hac =>
      rcases pausing_step t hp a h with hp' | hp'
      · exact .looking (by rw [e1, hq]) hp' (by rw [e2, hac])
      · exact .stopped (.of hst hp')
    | tracing cs hq hp hac hf =>
      rcases pausing_step t hp a h with hp' | hp'
      · refine .tracing cs (by rw [e1, hq]) hp' (by rw [e2, hac]) ?_
        intro c hc hv
        rcases hf c (still_stack a ha h c hc) hv with h | h
        · exact .inl (e3 c h)
        · exact .inr h
      · exact .stopped (.of hst hp')

theorem stage_run {E : Env} {s0 s s' : State} {t : Nat} (hk : E.known t = true) (hd : Distinct E) (b : Base E s) (f : Flags E s)
    (hst : ∃ new, s.stops = new ++ s0.stops) (g : Stage E t s0 s) (acts : List Action) (ha : ∀ a ∈ acts, Still t a)
    (h : run E s (acts ++ [.work]) = some s') (hq : s'.queue = []) (hne : s.queue ≠ []) :
    (Watched E t s' ∨ StoppedSince s0 s' t) ∨ ∃ s1 as bs, acts = as ++ bs ∧ run E s as = some s1 ∧ s1.queue = [] := by
  induction acts generalizing s with
  | nil =>
    simp only [List.nil_append, run] at h
    split at h
    · rename_i s1 h1
      cases h
      rcases stage_step hk b f hst g .work ⟨by simp, rfl⟩ h1 with g' | ⟨-, -, w⟩
      · cases g' with
        | stopped hs => exact .inl (.inr hs)
        | marking hq' => rw [hq] at hq'; cases hq'
        | updating hq' => rw [hq] at hq'; cases hq'
        | looking hq' => rw [hq] at hq'; cases hq'
        | tracing cs hq' => rw [hq] at hq'; simp at hq'
      · exact .inl (.inl w)
    · cases h
  | cons a as ih =>
    simp only [List.cons_append, run] at h
    split at h
    · rename_i s1 h1
      obtain ⟨n0, e0⟩ := hst
      obtain ⟨n1, e1⟩ := stops_step a h1
      by_cases hq1 : s1.queue = []
      · exact .inr ⟨s1, [a], as, rfl, by simp [run, h1], hq1⟩
      · rcases stage_step hk b f ⟨n0, e0⟩ g a (ha a (by simp)) h1 with g' | ⟨-, hq', -⟩
        · rcases ih (base_step hd b a h1) (flags_step hd b f a h1) ⟨n1 ++ n0, by rw [e1, e0, List.append_assoc]⟩ g'
            (fun x hx => ha x (by simp [hx])) h hq1 with hr | ⟨s2, xs, ys, e, hr, hq2⟩
          · exact .inl hr
          · exact .inr ⟨s2, a :: xs, ys, by simp [e], by simp [run, h1, hr], hq2⟩
        · exact absurd hq' hq1
    · cases h

/-- with an empty queue no step of a command can follow -/
theorem no_work {E : Env} {s s' : State} {t : Nat} (hq : s.queue = []) (acts : List Action) (ha : ∀ a ∈ acts, Still t a)
    (h : run E s (acts ++ [.work]) = some s') : False := by
  induction acts generalizing s with
  | nil => simp [run, step, hq] at h
  | cons a as ih =>
    simp only [List.cons_append, run] at h
    split at h
    · rename_i s1 h1
      refine ih ?_ (fun x hx => ha x (by simp [hx])) h
      by_cases hw : a = .work
      · subst hw; simp [step, hq] at h1
      · rw [(still_queue a (ha a (by simp)) hw h1).1, hq]
    · cases h

theorem run_append {E : Env} {s s' : State} (as bs : List Action) (h : run E s (as ++ bs) = some s') :
    ∃ s1, run E s as = some s1 ∧ run E s1 bs = some s' := by
  induction as generalizing s with
  | nil => exact ⟨s, rfl, h⟩
  | cons a as ih =>
    simp only [List.cons_append, run] at h
    split at h
    · rename_i s1 h1
      obtain ⟨s2, h2, h3⟩ := ih h
      exact ⟨s2, by simp [run, h1, h2], h3⟩
    · cases h

/-- A thread is asked to pause. While the request is processed the thread calls nothing; whatever else happens. Afterwards it runs on;
handlers meanwhile act only in threads that are to pause too, or while some thread is stepping. When it has executed a
line of code that is to be debugged, it has been stopped. -/
theorem c57 (E : Env) (hd : Distinct E) (acts : List Action) (s : State) (h : run E start acts = some s)
    (t : Nat) (hk : E.known t = true)
    (acts1 : List Action) (ha1 : ∀ a ∈ acts1, Still t a) (s1 : State) (h1 : run E s (.begin (.pause t) :: (acts1 ++ [.work])) = some s1)
    (hq1 : s1.queue = [])
    (acts2 : List Action) (s2 : State) (ha2 : Undisturbed E t s1 acts2) (h2 : run E s1 acts2 = some s2)
    (c : Code) (rest : List Code) (hs : s2.stack t = c :: rest) (hv : Visible E c) (l : Nat) (s3 : State) (h3 : step E s2 (.run t l) = some s3)
    (acts3 : List Action) (s4 : State) (h4 : run E s3 acts3 = some s4) (hidle : s4.pc t = .idle) :
    StoppedSince s s4 t := by
  have b := base_run hd (base_start E) acts h
  have f := flags_run hd (base_start E) (flags_start E) acts h
  simp only [run] at h1
  split at h1
  · rename_i s0 h0
    have b0 := base_step hd b _ h0
    have f0 := flags_step hd b f _ h0
    have hs0 := stops_step _ h0
    have hq0 : s0.queue = [.mark t, .update true, .snapshotOf t, .restart] := by
      simp only [step] at h0
      split at h0 <;> cases h0
      rfl
    have b1 := base_run hd b0 _ h1
    have f1 := flags_run hd b0 f0 _ h1
    have g1 : Watched E t s1 ∨ StoppedSince s s1 t := by
      rcases stage_run hk hd b0 f0 hs0 (.marking hq0) acts1 ha1 h1 hq1 (by simp [hq0]) with g | ⟨sx, as, bs, rfl, hx, hqx⟩
      · exact g
      · rw [List.append_assoc] at h1
        obtain ⟨sy, hy, hz⟩ := run_append as _ h1
        rw [hx] at hy
        cases hy
        exact (no_work hqx bs (fun a ha => ha1 a (by simp [ha])) hz).elim
    have hall : run E s1 (acts2 ++ .run t l :: acts3) = some s4 := by
      have : ∀ (as : List Action) (x : State), run E x as = some s2 → run E x (as ++ .run t l :: acts3) = some s4 := by
        intro as
        induction as with
        | nil => intro x hx; cases hx; simp [run, h3, h4]
        | cons a as ih =>
          intro x hx
          simp only [run, List.cons_append] at hx ⊢
          split at hx
          · rename_i y hy; exact ih y hx
          · cases hx
      exact this acts2 s1 h2
    rcases g1 with w | hstop
    · obtain ⟨n0, e0⟩ := hs0
      obtain ⟨n1, e1⟩ := stops_run _ h1
      have e1' : ∃ new, s1.stops = new ++ s.stops := ⟨n1 ++ n0, by rw [e1, e0, List.append_assoc]⟩
      rcases watched_run hd b1 f1 w acts2 ha2 h2 with w2 | hstop
      · have b2 := base_run hd b1 _ h2
        have f2 := flags_run hd b1 f1 _ h2
        have b3 := base_step hd b2 _ h3
        have f3 := flags_step hd b2 f2 _ h3
        refine StoppedSince.of e1' (StoppedSince.of (stops_run _ h2) (StoppedSince.of (stops_step _ h3) ?_))
        simp only [step, hs] at h3
        split at h3
        · rename_i hx
          have hon : s2.lineOn c = true := by
            rcases w2.frames c (by simp [hs]) hv with h | ⟨-, h⟩
            · exact h
            · rw [hx.1] at h; cases h
          rw [if_pos ⟨w2.active, hon, w2.line c l hv⟩] at h3
          cases h3
          exact line_run hd b3 f3 t c rest hv hs l (by simp [setPc, evOf]) w2.pausing acts3 h4 hidle
        · cases h3
      · refine StoppedSince.of e1' (hstop.later (E := E) (.run t l :: acts3) ?_)
        simp [run, h3, h4]
    · exact hstop.later _ hall
  · cases h1

end Monitor
