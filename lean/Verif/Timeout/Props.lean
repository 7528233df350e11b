import Verif.Timeout.Lemmas
/-! Property C08: timeout callbacks. -/

namespace Timeout

/-- The handles whose callback was called, in order. -/
def calledHandles (s : State) : List Handle := s.calls.map (·.handle)

theorem run_append (s : State) (as bs : List Action) : run s (as ++ bs) = run (run s as) bs := by
  simp [run, List.foldl_append]

/-- **C08, at most once.** For every interleaving of registrations, leavings of `with` blocks and
passes, at all clock readings, no callback is called twice. -/
theorem c08_at_most_once (as : List Action) : (calledHandles (run start as)).Nodup :=
  (List.nodup_append.1 (inv_run inv_start as).nodup).2.1

/-- **C08, never early.** A callback is called only in a pass whose clock reading is at or after the
deadline of the handle; and it is called with its function and arguments, never with the `None`s that
replace them when the handle is disposed. -/
theorem c08_never_early (as : List Action) (c : Call) (hc : c ∈ (run start as).calls) :
    (run start as).registered c.handle = true ∧ (run start as).due c.handle ≤ c.cur ∧
      c.kw = true ∧ c.cb = true := by
  have hi := inv_run inv_start as
  exact ⟨hi.reg _ (.inr (List.mem_map_of_mem hc)), hi.called c hc⟩

/-- The deadline of a handle is the one computed when it was registered. -/
theorem c08_deadline (as bs : List Action) (h : Handle) (now timeout : Int)
    (hp : (run start as).pass = none) (hr : (run start as).registered h = false) :
    (run start (as ++ .register h now timeout :: bs)).due h = now + timeout := by
  rw [run_append]
  have h0 : (step (run start as) (.register h now timeout)).due h = now + timeout ∧
      (step (run start as) (.register h now timeout)).registered h = true := by
    simp [step, hp, hr, upd_same]
  have key : ∀ (l : List Action) (s : State) (d : Int), s.due h = d → s.registered h = true →
      (run s l).due h = d := by
    intro l
    induction l with
    | nil => intro s d hd _; exact hd
    | cons a l ih =>
      intro s d hd hreg
      refine ih (step s a) d ?_ ?_
      · cases a with
        | register k n t =>
          simp only [step]
          split
          · rename_i hc
            have : h ≠ k := by rintro rfl; simp [hreg] at hc
            simp only [upd_ne _ _ _ _ this]; exact hd
          · exact hd
        | exit k => simp only [step]; split <;> (try split) <;> exact hd
        | begin c => simp only [step]; split <;> exact hd
        | tick =>
          simp only [step]; split
          · unfold tick; split <;> (try split) <;> exact hd
          · exact hd
      · cases a with
        | register k n t =>
          simp only [step]
          split
          · exact upd_true_mono hreg
          · exact hreg
        | exit k => simp only [step]; split <;> (try split) <;> exact hreg
        | begin c => simp only [step]; split <;> exact hreg
        | tick =>
          simp only [step]; split
          · unfold tick; split <;> (try split) <;> exact hreg
          · exact hreg
  exact key bs _ _ h0.1 h0.2

/-- Once disposed and not yet chosen by the pass in progress, a handle stays uncalled. -/
theorem stays_uncalled (h : Handle) (s : State) (a : Action) (hd : s.disposed h = true)
    (hn : h ∉ s.calls.map (·.handle)) (hc : ∀ p, s.pass = some p → h ∉ p.pc.committed) :
    (step s a).disposed h = true ∧ h ∉ (step s a).calls.map (·.handle) ∧
      ∀ p, (step s a).pass = some p → h ∉ p.pc.committed := by
  cases a with
  | register k n t => simp only [step]; split <;> exact ⟨hd, hn, hc⟩
  | exit k =>
    simp only [step]; split
    · split
      · exact ⟨upd_true_mono hd, hn, hc⟩
      · exact ⟨hd, hn, hc⟩
      · exact ⟨hd, hn, hc⟩
      · exact ⟨hd, hn, hc⟩
    · exact ⟨hd, hn, hc⟩
  | begin c =>
    simp only [step]; split
    · exact ⟨hd, hn, hc⟩
    · refine ⟨hd, hn, ?_⟩
      intro p hp
      simp only [Option.some.injEq] at hp
      subst hp; simp [Pc.committed]
  | tick =>
    cases hp : s.pass with
    | none => simpa only [step, hp] using ⟨hd, hn, by simp⟩
    | some p =>
      simp only [step, hp]
      have hcp := hc p hp
      unfold tick
      split <;> rename_i hpc <;> simp only [hpc, Pc.committed] at hcp
      · split
        · exact ⟨hd, hn, by simp⟩
        · refine ⟨hd, hn, ?_⟩
          intro q hq; simp only [Option.some.injEq] at hq; subst hq
          simp only
          split <;> simp [Pc.committed]
      · split <;> exact ⟨hd, hn, by simp [Pc.committed]⟩
      · exact ⟨hd, hn, by simp [Pc.committed]⟩
      · exact ⟨hd, hn, by simp [Pc.committed]⟩
      · rename_i k _ _
        split
        · exact ⟨hd, hn, by simp [Pc.committed]⟩
        · rename_i hnd
          refine ⟨hd, hn, ?_⟩
          intro q hq; simp only [Option.some.injEq] at hq; subst hq
          simp only [Pc.committed, List.mem_singleton]
          rintro rfl; exact hnd hd
      · exact ⟨upd_true_mono hd, hn, by simpa [Pc.committed] using hcp⟩
      · exact ⟨hd, hn, by simpa [Pc.committed] using hcp⟩
      · exact ⟨hd, hn, by simpa [Pc.committed] using hcp⟩
      · refine ⟨hd, ?_, by simp [Pc.committed]⟩
        simp only [List.map_append, List.map_cons, List.map_nil, List.mem_append, not_or]
        exact ⟨hn, hcp⟩

/-- The pass in progress has looked at `disposed` of `h`, found it clear, and will call it. -/
def Decided (s : State) (h : Handle) : Prop := ∃ p, s.pass = some p ∧ h ∈ p.pc.committed

/-- **C08, disposal is respected.** If the `with` block of a handle was (even partly) left when its
callback was not called yet and the tracker had not yet looked at the handle in the pass in progress
(in particular, whenever no pass is in progress), the callback is never called. -/
theorem c08_disposed_never_called (as bs : List Action) (h : Handle)
    (hexit : 0 < (run start as).exit h) (hnot : h ∉ calledHandles (run start as))
    (hpass : ¬ Decided (run start as) h) : h ∉ calledHandles (run start (as ++ bs)) := by
  rw [run_append]
  have hi := inv_run inv_start as
  have key : ∀ (l : List Action) (s : State), s.disposed h = true → h ∉ s.calls.map (·.handle) →
      (∀ p, s.pass = some p → h ∉ p.pc.committed) → h ∉ (run s l).calls.map (·.handle) := by
    intro l
    induction l with
    | nil => intro s _ h2 _; exact h2
    | cons a l ih =>
      intro s h1 h2 h3
      obtain ⟨a1, a2, a3⟩ := stays_uncalled h s a h1 h2 h3
      exact ih _ a1 a2 a3
  exact key bs _ (hi.exitd h hexit) hnot (fun p hp hm => hpass ⟨p, hp, hm⟩)

/-- The proviso is needed: the `with` block of the handle is left completely, and the
callback is called afterwards. (The pass tested `disposed` before; leaving the block takes another lock
and does not wait for the pass.) -/
theorem c08_dispose_race :
    let as := [Action.register 7 100 5, .begin 200, .tick, .tick, .tick, .tick, .tick,
      .exit 7, .exit 7, .exit 7]
    (run start as).exit 7 = 3 ∧ calledHandles (run start as) = [] ∧
    calledHandles (run start (as ++ [.tick, .tick, .tick])) = [7] := by
  decide

/-- **C08, nothing is lost.** A registered handle whose `with` block was not left is still held by the
tracker, or is being processed by the pass in progress, or was called. -/
theorem c08_not_lost (as : List Action) (h : Handle) (hr : (run start as).registered h = true)
    (he : (run start as).exit h = 0) (hp : (run start as).pass = none) :
    h ∈ (run start as).handles ∨ h ∈ calledHandles (run start as) := by
  have := (inv_run inv_start as).lost h hr he
  simpa [held, hp, calledHandles] using this

/-- What remains true of a due handle during and after the pass that must process it. -/
theorem due_step (h : Handle) (cur : Int) (s : State) (a : Action)
    (hb : ∀ c, a ≠ .begin c) (hi : Inv s) (hd : s.due h ≤ cur) (hr : s.registered h = true)
    (hs : (∃ p, s.pass = some p ∧ p.cur = cur) ∨ (s.pass = none ∧ (h ∈ s.calls.map (·.handle) ∨ 0 < s.exit h))) :
    ((∃ p, (step s a).pass = some p ∧ p.cur = cur) ∨
      ((step s a).pass = none ∧ (h ∈ (step s a).calls.map (·.handle) ∨ 0 < (step s a).exit h))) ∧
    (step s a).due h ≤ cur ∧ (step s a).registered h = true := by
  have hexit : ∀ k n, 0 < s.exit h → 0 < n → 0 < upd s.exit k n h := by
    intro k n h1 h2; unfold upd; split <;> assumption
  cases a with
  | begin c => exact absurd rfl (hb c)
  | register k n t =>
    simp only [step]; split
    · rename_i hc
      have : h ≠ k := by rintro rfl; simp [hr] at hc
      exact ⟨hs, by simpa only [upd_ne _ _ _ _ this] using hd, upd_true_mono hr⟩
    · exact ⟨hs, hd, hr⟩
  | exit k =>
    simp only [step]; split
    · split <;> refine ⟨?_, hd, hr⟩ <;> rcases hs with hs | ⟨hs1, hs2 | hs2⟩
      all_goals first
        | exact .inl hs
        | exact .inr ⟨hs1, .inl hs2⟩
        | exact .inr ⟨hs1, .inr (hexit _ _ hs2 (by omega))⟩
        | exact .inr ⟨hs1, .inr hs2⟩
    · exact ⟨hs, hd, hr⟩
  | tick =>
    cases hp : s.pass with
    | none => simp only [step, hp] at hs ⊢; exact ⟨hs, hd, hr⟩
    | some p =>
      rw [hp] at hs
      simp only [Option.some.injEq, exists_eq_left', reduceCtorEq, false_and, or_false] at hs
      simp only [step, hp]
      unfold tick
      split
      · rename_i hpc
        split
        · rename_i htodo
          refine ⟨.inr ⟨rfl, ?_⟩, hd, hr⟩
          simp only
          by_cases hz : s.exit h = 0
          · have := hi.lost h hr hz
            simp only [held, hp, htodo, hpc, Pc.cur, List.nil_append] at this
            rcases this with hk | hk
            · have := (hi.pass p hp).2.1 h hk
              omega
            · exact .inl hk
          · exact .inr (by omega)
        · exact ⟨.inl ⟨_, rfl, hs⟩, hd, hr⟩
      all_goals (try split)
      all_goals exact ⟨.inl ⟨_, rfl, hs⟩, hd, hr⟩

/-- **C08, due handles are called.** Take any reachable state between two passes and a handle
registered in it. If the next pass reads a time at or after its deadline, then when that pass is over
(whatever the clients do meanwhile) the callback has been called, unless its `with` block was left. -/
theorem c08_due_called (as bs : List Action) (h : Handle) (cur : Int)
    (hp : (run start as).pass = none) (hr : (run start as).registered h = true)
    (hd : (run start as).due h ≤ cur) (hb : ∀ a ∈ bs, ∀ c, a ≠ .begin c)
    (hend : (run start (as ++ .begin cur :: bs)).pass = none) :
    h ∈ calledHandles (run start (as ++ .begin cur :: bs)) ∨
      0 < (run start (as ++ .begin cur :: bs)).exit h := by
  have hi := inv_run inv_start as
  have e : run start (as ++ .begin cur :: bs) = run (step (run start as) (.begin cur)) bs := by
    rw [run_append]; rfl
  rw [e] at hend ⊢
  have hi2 := inv_step hi (.begin cur)
  have key : ∀ (l : List Action) (s : State), (∀ a ∈ l, ∀ c, a ≠ .begin c) → Inv s → s.due h ≤ cur →
      s.registered h = true →
      ((∃ p, s.pass = some p ∧ p.cur = cur) ∨ (s.pass = none ∧ (h ∈ s.calls.map (·.handle) ∨ 0 < s.exit h))) →
      (run s l).pass = none → h ∈ calledHandles (run s l) ∨ 0 < (run s l).exit h := by
    intro l
    induction l with
    | nil =>
      intro s _ _ _ _ hs hn
      rcases hs with ⟨p, hp, _⟩ | ⟨_, hs⟩
      · simp only [run, List.foldl_nil] at hn; rw [hn] at hp; cases hp
      · exact hs
    | cons a l ih =>
      intro s hb hi hd hr hs hn
      have := due_step h cur s a (hb a (by simp)) hi hd hr hs
      exact ih (step s a) (fun x hx => hb x (by simp [hx])) (inv_step hi a) this.2.1 this.2.2 this.1 hn
  refine key bs _ hb hi2 ?_ ?_ ?_ hend
  · simpa [step, hp] using hd
  · simpa [step, hp] using hr
  · left; simp [step, hp]

/-- **C08, the wait is right.** Between passes, the thread waits a positive time (or for ever), and for
every handle it still holds either its event is set (so it wakes at once) or it wakes no later than
the deadline of the handle. -/
theorem c08_wait (as : List Action) (hp : (run start as).pass = none) :
    (∀ d, (run start as).wait = some d → 0 < d) ∧
    ∀ h ∈ (run start as).handles, (run start as).event = true ∨
      ∃ d, (run start as).wait = some d ∧ (run start as).lastCur + d ≤ (run start as).due h := by
  have hi := inv_run inv_start as
  refine ⟨hi.waitPos, fun h hh => ?_⟩
  rcases hi.waitOk hp h hh with h | ⟨d, h1, h2⟩
  · exact .inl h
  · exact .inr ⟨d, h1, by omega⟩

/-- Non-vacuity: two handles; the first is due in the first pass, the second is kept; a third one is
disposed before. -/
example :
    let as := [Action.register 1 100 5, .register 2 100 500, .register 3 100 6, .exit 3]
    let bs := List.replicate 17 Action.tick
    (run start as).pass = none ∧ (run start as).due 1 ≤ 200 ∧ 0 < (run start as).exit 3 ∧
    (run start (as ++ .begin 200 :: bs)).pass = none ∧
    calledHandles (run start (as ++ .begin 200 :: bs)) = [1] ∧
    (run start (as ++ .begin 200 :: bs)).handles = [2] ∧
    (run start (as ++ .begin 200 :: bs)).wait = some 400 := by
  decide +kernel

/-! ### What a handle keeps -/

/-- What was released so far: by `__exit__`, by the pass under way, by calls. -/
private structure Freed (s : State) : Prop where
  exitKw : ∀ h, 2 ≤ s.exit h → s.kw h = false
  exitCb : ∀ h, 3 ≤ s.exit h → s.cb h = false
  passKw : ∀ p h k c, s.pass = some p → p.pc = .clearCb h k c ∨ p.pc = .call h k c → s.kw h = false
  passCb : ∀ p h k c, s.pass = some p → p.pc = .call h k c → s.cb h = false
  called : ∀ h, h ∈ calledHandles s → s.kw h = false ∧ s.cb h = false

private theorem freed_step {s : State} (hi : Freed s) (a : Action) : Freed (step s a) := by
  obtain ⟨h1, h2, h3, h4, h5⟩ := hi
  cases a with
  | register h now t =>
    simp only [step]
    split
    · exact ⟨h1, h2, h3, h4, h5⟩
    · exact ⟨h1, h2, h3, h4, h5⟩
  | exit h =>
    simp only [step]
    repeat' split
    all_goals first
      | exact ⟨h1, h2, h3, h4, h5⟩
      | (refine ⟨?_, ?_, ?_, ?_, ?_⟩ <;> simp only [upd, calledHandles] at * <;> grind)
  | begin c =>
    simp only [step]
    split
    · exact ⟨h1, h2, h3, h4, h5⟩
    · refine ⟨h1, h2, ?_, ?_, h5⟩ <;> simp <;> grind
  | tick =>
    simp only [step]
    split
    · rename_i p hp
      have h6 : ∀ h k c, p.pc = .call h k c → s.kw h = false ∧ s.cb h = false :=
        fun h k c e => ⟨h3 p h k c hp (.inr e), h4 p h k c hp e⟩
      unfold tick
      repeat' split
      all_goals (refine ⟨?_, ?_, ?_, ?_, ?_⟩ <;> simp only [upd, calledHandles, List.map_append, List.mem_append, List.map_cons, List.map_nil, List.mem_singleton] at * <;> grind)
    · exact ⟨h1, h2, h3, h4, h5⟩

private theorem freed_run (as : List Action) : ∀ {s : State}, Freed s → Freed (run s as) := by
  induction as with
  | nil => exact fun h => h
  | cons a as ih => exact fun h => ih (freed_step h a)

/-- **C08, released.** Once the `with` block of a handle was left, or its callback was called, the handle keeps neither the
callback nor its arguments. -/
theorem c08_released (as : List Action) (h : Handle)
    (hd : (run start as).exit h = 3 ∨ h ∈ calledHandles (run start as)) :
    (run start as).kw h = false ∧ (run start as).cb h = false := by
  have hi : Freed (run start as) := freed_run as ⟨by simp [start], by simp [start], by simp [start], by simp [start], by simp [start, calledHandles]⟩
  rcases hd with hd | hd
  · exact ⟨hi.exitKw h (by omega), hi.exitCb h (by omega)⟩
  · exact hi.called h hd

/-- **C08, no spinning.** The wait after a pass is not cut short: only a registration ends it early. -/
theorem c08_no_spin (as bs : List Action) (cur : Int) (hp : (run start as).pass = none)
    (hb : ∀ a ∈ bs, ∀ h now t, a ≠ .register h now t) :
    (run start (as ++ .begin cur :: bs)).event = false := by
  have h0 : (step (run start as) (.begin cur)).event = false := by simp [step, hp]
  have hk : ∀ (s : State) (p : Pass), (tick s p).event = s.event := by
    intro s p
    unfold tick
    repeat' split
    all_goals rfl
  have key : ∀ (bs : List Action) (s : State), s.event = false → (∀ a ∈ bs, ∀ h now t, a ≠ .register h now t) →
      (run s bs).event = false := by
    intro bs
    induction bs with
    | nil => exact fun _ h _ => h
    | cons a bs ih =>
      intro s hs hb
      refine ih (step s a) ?_ fun x hx => hb x (List.mem_cons_of_mem _ hx)
      cases a with
      | register h now t => exact (hb _ (List.mem_cons_self) h now t rfl).elim
      | exit h =>
        simp only [step]
        repeat' split
        all_goals exact hs
      | begin c =>
        simp only [step]
        split
        · exact hs
        · rfl
      | tick =>
        simp only [step]
        split
        · rw [hk]; exact hs
        · exact hs
  have : run start (as ++ .begin cur :: bs) = run (step (run start as) (.begin cur)) bs := by
    simp [run, List.foldl_append]
  rw [this]
  exact key bs _ h0 hb

example : (run start [.register 7 100 5, .begin 200, .tick, .tick, .tick, .tick, .tick, .tick, .tick, .tick, .tick]).kw 7 = false := by decide

end Timeout
