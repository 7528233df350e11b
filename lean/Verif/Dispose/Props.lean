import Verif.Dispose.Rel
/-!
C101: the end of a debug session.

Throughout, `run acts` is the state after the actions `acts`, in any order the threads may take them, and
`run p`, `run (p ++ q)` are an earlier and a later moment of one execution. `(run p).disposed = false` says that at
the moment `p` no disposal has begun.
-/

namespace Dispose

theorem fresh_of_not_disposed {s : St} (h : Inv s) (hd : s.disposed = false) (t : Nat) : (s.call t).fresh = true :=
  (h.start hd).1 t

theorem deliv_run {p q : List Act} (hd : (run p).disposed = false) (hw : 0 ∈ (run p).reg) :
    Deliv (run p).puts (run (p ++ q)) := by
  rw [run_append]
  refine keep deliv_step q _ ?_
  have hi := inv_run p
  refine ⟨hi, List.prefix_refl _, .inl ((hi.reg 0).mp hw), ?_, ?_⟩
  · rintro - - (⟨t, ht⟩ | hm)
    · simp [(asking_of_fresh (fresh_of_not_disposed hi hd t)).1] at ht
    · exact absurd hm (hi.start hd).2.2.2.2
  · rintro - - (hm | ⟨t, ht⟩)
    · simp [(hi.start hd).2.2.1] at hm
    · simp [(asking_of_fresh (fresh_of_not_disposed hi hd t)).2] at ht

/-- **C101, delivery.** Whatever was put in the queue of the writer before the disposal began has been sent to the
client, in order, when any call that waits returns - of the first thread that disposes or of any other - unless a
timeout passed or the connection broke. -/
theorem c101_delivered (p q : List Act) (t : Nat) (first : Bool)
    (hd : (run p).disposed = false) (hw : 0 ∈ (run p).reg)
    (ht : (run (p ++ q)).timedOut = false) (hf : (run (p ++ q)).failed = false)
    (hdone : (run (p ++ q)).call t = .done true first) :
    (run p).puts <+: (run (p ++ q)).sent := by
  have hD := deliv_run (q := q) hd hw
  have hi := hD.inv
  have hl := hD.done ht hf (.inr ⟨t, by rw [hdone]; rfl⟩)
  have hs := hi.ended hl
  have hm : Msg.exit ∈ (run (p ++ q)).puts := by
    rcases hi.stopped hs with h | h | h
    · simp [hf] at h
    · exact hi.asked h
    · exact h
  have := hD.noted ht hf (.inr hm)
  simpa [hs, Writer.inflight] using this

/-- **C101, once.** However many threads dispose of the debugger, the client is sent at most one exit message. -/
theorem c101_one_exit (acts : List Act) (hf : (run acts).failed = false) : (run acts).sent.count .exit ≤ 1 := by
  have hi := inv_run acts
  have h1 := hi.once
  rw [hi.sync hf, List.count_append, List.count_append] at h1
  omega

/-- **C101, waiting.** When any call that waits returns, every helper thread that ran before the disposal began has
ended, except for the check-alive thread and for helper threads that dispose of the debugger themselves - unless a
timeout passed. -/
theorem c101_waited (p q : List Act) (t h : Nat) (first : Bool)
    (hd : (run p).disposed = false) (hh : h ∈ (run p).reg) (h1 : h ≠ 1) (hc : (run (p ++ q)).call h = .none)
    (ht : (run (p ++ q)).timedOut = false) (hdone : (run (p ++ q)).call t = .done true first) :
    (run (p ++ q)).life h = .ended := by
  have hW : Waits h (run (p ++ q)) := by
    rw [run_append]
    refine keep (waits_step h1) q _ ?_
    have hi := inv_run p
    refine ⟨hi, .inl ((hi.reg h).mp hh), ?_⟩
    rintro - (hm | ⟨t, ht⟩)
    · simp [(hi.start hd).2.2.1] at hm
    · simp [(asking_of_fresh (fresh_of_not_disposed hi hd t)).2] at ht
  rcases hW.done ht (.inr ⟨t, by rw [hdone]; rfl⟩) with h | h
  · exact h
  · exact absurd hc h

/-- **C101, asking.** When the first call returns, every helper thread that ran before the disposal began has been
asked to end or has ended, whatever timeouts passed. -/
theorem c101_asked (p q : List Act) (t h : Nat) (wait : Bool)
    (hd : (run p).disposed = false) (hh : h ∈ (run p).reg) (hdone : (run (p ++ q)).call t = .done wait true) :
    (run (p ++ q)).asked h = true ∨ (run (p ++ q)).life h = .ended := by
  have hA : Asks h (run (p ++ q)) := by
    rw [run_append]
    refine keep asks_step q _ ?_
    have hi := inv_run p
    refine ⟨hi, .inl ((hi.reg h).mp hh), ?_⟩
    intro t ht
    have := fresh_of_not_disposed hi hd t
    revert ht this
    cases (run p).call t <;> simp [Call.isFirstEver, Call.isFirst, Call.fresh]
  rcases hA.done t (by rw [hdone]; rfl) with h | h
  · rw [hdone] at h
    simp [Call.toAsk] at h
  · exact h

/-- **C101, the global debugger.** When the first call returns, the disposed debugger (number 0) is not the global
one any more, and a different global debugger stays, if nobody sets the global debugger meanwhile. -/
theorem c101_unregistered (p q : List Act) (t : Nat) (wait : Bool)
    (hd : (run p).disposed = false) (hq : ∀ d, Act.setGlobal d ∉ q)
    (hdone : (run (p ++ q)).call t = .done wait true) :
    (run (p ++ q)).global ≠ some 0 ∧
      ((run p).global ≠ some 0 → (run (p ++ q)).global = (run p).global) := by
  have hG : Glob (run p).global (run (p ++ q)) := by
    rw [run_append]
    have hi := inv_run p
    have h0 : Glob (run p).global (run p) := by
      have hfr := fresh_of_not_disposed hi hd
      refine ⟨hi, fun _ => rfl, fun _ _ => rfl, ?_, ?_⟩
      · intro t w m e
        have := hfr t
        simp [e, Call.fresh] at this
      · intro t w e
        have := hfr t
        simp [e, Call.fresh] at this
    revert h0
    generalize (run p).global = g
    generalize run p = s
    clear hi hd hdone
    induction q generalizing s with
    | nil => exact fun h => h
    | cons a q ih =>
        intro h0
        have hne : ∀ d, a ≠ .setGlobal d := by
          intro d e
          exact hq d (by simp [e])
        exact ih (fun d hm => hq d (List.mem_cons_of_mem _ hm)) _ (glob_step s a hne h0)
  have := hG.done t wait hdone
  rw [this]
  unfold without
  constructor
  · split
    · simp
    · assumption
  · intro hn
    rw [if_neg hn]

/-! ## Moments -/

theorem run_snoc (acts : List Act) (a : Act) : run (acts ++ [a]) = step (run acts) a := by rw [run_append]; rfl

@[elab_as_elim]
theorem snoc_induction {motive : List Act → Prop} (acts : List Act) (nil : motive [])
    (snoc : ∀ acts a, motive acts → motive (acts ++ [a])) : motive acts := by
  have : ∀ l : List Act, motive l.reverse := by
    intro l
    induction l with
    | nil => exact nil
    | cons a l ih => rw [List.reverse_cons]; exact snoc _ _ ih
  have h := this acts.reverse
  rwa [List.reverse_reverse] at h

/-- A call asks helper threads to end, or one was asked by a disposal. -/
def St.asks (s : St) : Prop := (∃ t, (s.call t).asking = true) ∨ ∃ h, s.asked h = true

/-- There was a moment, after the disposal began, when nobody processed a command and nothing waited to be sent. -/
def QuietMoment (acts : List Act) : Prop :=
  ∃ p q, acts = p ++ q ∧ (run p).disposed = true ∧ (run p).main = none ∧ (run p).nothingToSend

theorem QuietMoment.snoc {acts : List Act} (h : QuietMoment acts) (a : Act) : QuietMoment (acts ++ [a]) := by
  obtain ⟨p, q, e, h⟩ := h
  exact ⟨p, q ++ [a], by simp [e], h⟩

theorem disposed_of {s : St} (h : Inv s) {t : Nat} (hc : (s.call t).fresh = false) : s.disposed = true := by
  cases hd : s.disposed
  · have := (h.start hd).1 t
    simp [hc] at this
  · rfl

set_option maxHeartbeats 4000000 in
theorem asks_mono (s : St) (a : Act) (h : (step s a).asks) (ht : (step s a).timedOut = false) :
    s.asks ∨ (s.main = none ∧ s.nothingToSend ∧ ∃ t, (s.call t).fresh = false) := by
  revert h ht
  unfold step
  split
  · exact fun h _ => .inl h
  cases a
  case dispose t b l =>
    dsimp only
    unfold disposeStep
    split
    all_goals (try exact fun h _ => .inl h)
    all_goals
      rename_i hc
      have hx : (s.call t).asking = _ := congrArg Call.asking hc
      have hy : (s.call t).fresh = _ := congrArg Call.fresh hc
      repeat' split
      all_goals (try exact fun h _ => .inl h)
      all_goals
        dsimp only [St.asks, St.goto, upd, afterAsk, afterWait]
        grind [Call.asking, Call.fresh]
  case checker =>
    dsimp only
    unfold checkerStep
    repeat' split
    all_goals (try exact fun h _ => .inl h)
    all_goals
      dsimp only [St.asks, St.goto, upd]
      grind [Call.asking]
  all_goals
    dsimp only
    repeat' split
    all_goals (try exact fun h _ => .inl h)
    all_goals
      dsimp only [St.asks, St.goto, upd]
      grind [Call.asking]

theorem timedOut_mono (s : St) (a : Act) (h : (step s a).timedOut = false) : s.timedOut = false := by
  revert h
  unfold step
  split
  · exact id
  cases a <;> dsimp only [disposeStep, checkerStep] <;> grind [St.goto]

/-- **C101, no command cut short.** A helper thread is asked to end only after a moment, since the disposal began, at
which no command was being processed and nothing waited to be sent - unless a timeout passed. -/
theorem c101_quiet_first (acts : List Act) (h : Nat) (ht : (run acts).timedOut = false)
    (hk : (run acts).asked h = true) : QuietMoment acts := by
  have hs : (run acts).asks := .inr ⟨h, hk⟩
  clear hk
  induction acts using snoc_induction with
  | nil =>
      rcases hs with ⟨t, h⟩ | ⟨h, h'⟩
      · simp [run, St.init, Call.asking] at h
      · simp [run, St.init] at h'
  | snoc acts a ih =>
      rw [run_snoc] at ht hs
      rcases asks_mono _ _ hs ht with h1 | ⟨h1, h2, t, h3⟩
      · exact (ih (timedOut_mono _ _ ht) h1).snoc a
      · exact ⟨acts, [a], rfl, disposed_of (inv_run acts) h3, h1, h2⟩

/-! ## The check-alive thread and the end of the process -/

/-- The check-alive thread has seen that nobody processes a command and nothing waits to be sent. -/
def SawQuiet (acts : List Act) : Prop :=
  ∃ p q, acts = p ++ q ∧ (run p).main = none ∧ (run p).queue = []

/-- There was such a moment, and then one at which no thread of the program was left. -/
def SawEnd (acts : List Act) : Prop :=
  ∃ p q r, acts = p ++ q ++ r ∧ (run p).main = none ∧ (run p).queue = [] ∧ (run (p ++ q)).users = []

theorem SawQuiet.snoc {acts : List Act} (h : SawQuiet acts) (a : Act) : SawQuiet (acts ++ [a]) := by
  obtain ⟨p, q, e, h⟩ := h
  exact ⟨p, q ++ [a], by simp [e], h⟩

theorem SawEnd.snoc {acts : List Act} (h : SawEnd acts) (a : Act) : SawEnd (acts ++ [a]) := by
  obtain ⟨p, q, r, e, h⟩ := h
  exact ⟨p, q, r ++ [a], by simp [e], h⟩

/-- The call was made with `wait=False`. -/
def Call.noWait : Call → Bool
  | .begun w | .quiet w | .locking w | .snapshot w | .ask w _ | .putExit w _ | .setFlag w _ | .readGlobal w
  | .writeGlobal w _ | .done w _ => !w
  | .enterWait _ | .waiter _ | .onEvent _ | .none => false

/-- The check-alive thread's call, if any, waits and is made while it runs. -/
structure Chk (s : St) : Prop where
  waits : (s.call 1).noWait = false
  life : s.call 1 ≠ .none → s.life 1 = .running ∨ s.life 1 = .ended
  over : s.over = true → s.life 1 = .fresh ∨ s.life 1 = .ended

theorem chk_init : Chk .init := by
  constructor <;> simp [St.init, Call.noWait]

set_option maxHeartbeats 4000000 in
theorem chk_step (s : St) (a : Act) (h : Chk s) : Chk (step s a) := by
  unfold step
  split
  · exact h
  have hh := h
  obtain ⟨h1, h2, h3⟩ := h
  cases a
  case dispose t b l =>
    dsimp only
    unfold disposeStep
    split
    all_goals (try exact hh)
    all_goals
      rename_i hc
      have hx : (s.call t).noWait = _ := congrArg Call.noWait hc
      repeat' split
      all_goals (try exact hh)
      all_goals
        refine ⟨?_, ?_, ?_⟩ <;> (try dsimp only [St.goto, upd, afterAsk, afterWait]) <;>
          first
          | assumption
          | grind [Call.noWait]
  case checker =>
    dsimp only
    unfold checkerStep
    repeat' split
    all_goals (try exact hh)
    all_goals
      refine ⟨?_, ?_, ?_⟩ <;> (try dsimp only [St.goto, upd]) <;>
        first
        | assumption
        | grind [Call.noWait]
  all_goals
    dsimp only
    repeat' split
    all_goals (try exact hh)
    all_goals
      refine ⟨?_, ?_, ?_⟩ <;> (try dsimp only [St.goto, upd]) <;>
        first
        | assumption
        | grind [Call.noWait]

/-- **C101, the end of the process.** When the process has ended after the check-alive thread disposed of the
debugger, everything put in the queue before the disposal began has been sent, unless a timeout passed or the
connection broke. -/
theorem c101_process_end (p q : List Act) (hd : (run p).disposed = false) (hw : 0 ∈ (run p).reg)
    (ht : (run (p ++ q)).timedOut = false) (hf : (run (p ++ q)).failed = false)
    (hover : (run (p ++ q)).over = true) (hc : (run (p ++ q)).call 1 ≠ .none) :
    (run p).puts <+: (run (p ++ q)).sent := by
  have hk : Chk (run (p ++ q)) := reachable chk_init chk_step _
  have hi := inv_run (p ++ q)
  have hl : (run (p ++ q)).life 1 = .ended := by
    rcases hk.over hover with h | h
    · rcases hk.life hc with h' | h' <;> simp [h] at h'
    · exact h
  have hle := hi.checkerEnd hl
  have hfree : (run (p ++ q)).free 1 := by
    rcases hi.checkerCall hc with h | h
    · simp [hle] at h
    · exact h.2
  cases hcall : (run (p ++ q)).call 1
  case none => exact absurd hcall hc
  case done w f =>
    cases w
    · have := hk.waits
      simp [hcall, Call.noWait] at this
    · exact c101_delivered p q 1 f hd hw ht hf hcall
  all_goals simp [St.free, hcall, Call.free] at hfree

/-- What the check-alive thread has seen. -/
def St.sees (s : St) (acts : List Act) : Prop :=
  (s.checker = .secondThreads true → SawQuiet acts) ∧ (s.call 1 ≠ .none → SawEnd acts)

set_option maxHeartbeats 4000000 in
theorem sees_call (s : St) (a : Act) :
    ((step s a).call 1 ≠ .none → s.call 1 ≠ .none ∨ (s.checker = .secondThreads true ∧ s.users = [])) ∧
    ((step s a).checker = .secondThreads true → s.checker = .secondThreads true ∨ (s.main = none ∧ s.queue = [])) := by
  unfold step
  split
  · exact ⟨.inl, .inl⟩
  cases a
  case dispose t b l =>
    dsimp only
    unfold disposeStep
    split
    all_goals (try exact ⟨.inl, .inl⟩)
    all_goals
      rename_i hc
      repeat' split
      all_goals (try exact ⟨.inl, .inl⟩)
      all_goals
        dsimp only [St.goto, upd]
        grind
  case checker =>
    dsimp only
    unfold checkerStep
    repeat' split
    all_goals (try exact ⟨.inl, .inl⟩)
    all_goals
      dsimp only [St.goto, upd]
      grind
  all_goals
    dsimp only
    repeat' split
    all_goals (try exact ⟨.inl, .inl⟩)
    all_goals
      dsimp only [St.goto, upd]
      grind

/-- **C101, not before the end of the program.** The check-alive thread disposes of the debugger only after a moment
at which no command was being processed and nothing waited to be sent, and a later one at which no thread of the
program that counts was left. -/
theorem c101_ends_after_program (acts : List Act) (hc : (run acts).call 1 ≠ .none) : SawEnd acts := by
  have : (run acts).sees acts := by
    clear hc
    induction acts using snoc_induction with
    | nil => constructor <;> simp [run, St.init]
    | snoc acts a ih =>
        rw [run_snoc]
        obtain ⟨h1, h2⟩ := sees_call (run acts) a
        constructor
        · intro hx
          rcases h2 hx with h | ⟨h, h'⟩
          · exact (ih.1 h).snoc a
          · exact ⟨acts, [a], rfl, h, h'⟩
        · intro hx
          rcases h1 hx with h | ⟨h, h'⟩
          · exact (ih.2 h).snoc a
          · obtain ⟨p, q, e, h3, h4⟩ := ih.1 h
            exact ⟨p, q, [a], by rw [e], h3, h4, by rw [← e]; exact h'⟩
  exact this.2 hc

/-- **C101, at the end of the program.** While the check-alive thread runs and has not given up, and there is no
thread of the program left, nothing to send and no command being processed, its own next steps dispose of the
debugger. -/
theorem c101_program_end_seen (s : St) (ho : s.over = false) (hl : s.life 1 = .running) (hw : s.life 0 ≠ .fresh)
    (hu : s.users = []) (hq : s.queue = []) (hm : s.main = none)
    (hc : s.checker ≠ .leaving) (hc' : s.checker ≠ .secondThreads false) (hd : s.checker ≠ .disposing) :
    ∃ n, n ≤ 7 ∧ ((List.replicate n Act.checker).foldl step s).call 1 = .begun true := by
  have second : ∀ s : St, s.over = false → s.life 1 = .running → s.life 0 ≠ .fresh → s.users = [] → s.queue = [] →
      s.main = none → s.checker = .second →
      ((List.replicate 2 Act.checker).foldl step s).call 1 = .begun true := by
    intro s ho hl hw hu hq hm hc
    simp [List.replicate, step, checkerStep, ho, hl, hw, hu, hq, hm, hc, St.goto, upd]
  have first : ∀ s : St, s.over = false → s.life 1 = .running → s.life 0 ≠ .fresh → s.users = [] → s.queue = [] →
      s.main = none → s.checker = .first →
      ((List.replicate 4 Act.checker).foldl step s).call 1 = .begun true := by
    intro s ho hl hw hu hq hm hc
    simp [List.replicate, step, checkerStep, ho, hl, hw, hu, hq, hm, hc, St.goto, upd]
  have head : ∀ s : St, s.over = false → s.life 1 = .running → s.life 0 ≠ .fresh → s.users = [] → s.queue = [] →
      s.main = none → s.checker = .head →
      ∃ n, n ≤ 6 ∧ ((List.replicate n Act.checker).foldl step s).call 1 = .begun true := by
    intro s ho hl hw hu hq hm hc
    cases ha : s.asked 1
    · exact ⟨6, by omega, by
        simp [List.replicate, step, checkerStep, ho, hl, hw, hu, hq, hm, hc, ha, St.goto, upd]⟩
    · exact ⟨3, by omega, by
        simp [List.replicate, step, checkerStep, ho, hl, hw, hu, hq, hm, hc, ha, St.goto, upd]⟩
  cases hk : s.checker
  case leaving => exact absurd hk hc
  case disposing => exact absurd hk hd
  case head =>
    obtain ⟨n, hn, h⟩ := head s ho hl hw hu hq hm hk
    exact ⟨n, by omega, h⟩
  case first => exact ⟨4, by omega, first s ho hl hw hu hq hm hk⟩
  case second => exact ⟨2, by omega, second s ho hl hw hu hq hm hk⟩
  case wait =>
    refine ⟨5, by omega, ?_⟩
    simp [List.replicate, step, checkerStep, ho, hl, hw, hu, hq, hm, hk, St.goto, upd]
  case secondThreads e =>
    cases e
    · exact absurd hk hc'
    · refine ⟨1, by omega, ?_⟩
      simp [List.replicate, step, checkerStep, ho, hl, hu, hk, St.goto, upd]
  case firstThreads e =>
    cases e
    · obtain ⟨n, hn, h⟩ := head (step s .checker)
        (by simp [step, checkerStep, ho, hl, hk]) (by simp [step, checkerStep, ho, hl, hk])
        (by simp [step, checkerStep, ho, hl, hk, hw]) (by simp [step, checkerStep, ho, hl, hk, hu])
        (by simp [step, checkerStep, ho, hl, hk, hq]) (by simp [step, checkerStep, ho, hl, hk, hm])
        (by simp [step, checkerStep, ho, hl, hk])
      exact ⟨n + 1, by omega, by rw [List.replicate_succ, List.foldl_cons]; exact h⟩
    · refine ⟨3, by omega, ?_⟩
      simp [List.replicate, step, checkerStep, ho, hl, hw, hu, hq, hm, hk, St.goto, upd]

/-! ## Calls return -/

/-- The call of `t` can be brought to its end by steps of `t` alone. -/
def Returns (t : Nat) (s : St) : Prop :=
  ∃ own : List Act, (∀ a ∈ own, ∃ b l, a = .dispose t b l) ∧ (own.foldl step s).free t

theorem Returns.of_step {t : Nat} {s : St} (b : Bool) (l : List Nat) (ho : s.over = false)
    (h : Returns t (disposeStep s t b l)) : Returns t s := by
  obtain ⟨own, h1, h2⟩ := h
  refine ⟨.dispose t b l :: own, ?_, ?_⟩
  · intro a ha
    rcases List.mem_cons.mp ha with e | e
    · exact ⟨b, l, e⟩
    · exact h1 a e
  · rw [List.foldl_cons]
    simpa [step, ho] using h2

theorem Returns.now {t : Nat} {s : St} (h : s.free t) : Returns t s := ⟨[], by simp, h⟩

theorem returns_write {t : Nat} {s : St} {w m : Bool} (ho : s.over = false) (hc : s.call t = .writeGlobal w m) :
    Returns t s := by
  refine .of_step true [] ho (.now ?_)
  simp [disposeStep, hc, St.free, St.goto, Call.free]

theorem returns_read {t : Nat} {s : St} {w : Bool} (ho : s.over = false) (hc : s.call t = .readGlobal w) :
    Returns t s := by
  refine .of_step true [] ho (returns_write (w := w) (m := s.global == some 0) ?_ ?_)
  · simp [disposeStep, hc, St.goto, ho]
  · simp [disposeStep, hc, St.goto]

theorem returns_afterWait {t : Nat} {s : St} {f : Bool} (ho : s.over = false) (hc : s.call t = afterWait f) :
    Returns t s := by
  cases f
  · exact .now (by simp [St.free, hc, afterWait, Call.free])
  · exact returns_read ho (w := true) (by simpa [afterWait] using hc)

theorem returns_waiter {t : Nat} {s : St} {f : Bool} (ho : s.over = false)
    (hc : s.call t = .waiter f ∨ s.call t = .onEvent f) : Returns t s := by
  refine .of_step true [] ho (returns_afterWait (f := f) ?_ ?_)
  · rcases hc with hc | hc <;> simp [disposeStep, hc, St.goto, ho]
  · rcases hc with hc | hc <;> simp [disposeStep, hc, St.goto]

theorem returns_enterWait {t : Nat} {s : St} {f : Bool} (ho : s.over = false) (hc : s.call t = .enterWait f) :
    Returns t s := by
  refine .of_step true [] ho (returns_waiter (f := f) ?_ ?_)
  · simp only [disposeStep, hc]; split <;> simp [St.goto, ho]
  · simp only [disposeStep, hc]; split <;> simp [St.goto]

theorem returns_ask {t : Nat} {w : Bool} (rest : List Nat) : ∀ {s : St}, s.over = false →
    s.call t = .ask w rest → Returns t s := by
  induction rest with
  | nil =>
      intro s ho hc
      cases w
      · refine .of_step true [] ho (returns_read (w := false) ?_ ?_) <;>
          simp [disposeStep, hc, St.goto, ho, afterAsk]
      · refine .of_step true [] ho (returns_enterWait (f := true) ?_ ?_) <;>
          simp [disposeStep, hc, St.goto, ho, afterAsk]
  | cons h rest ih =>
      intro s ho hc
      have flag : ∀ {s : St}, s.over = false → s.call t = .setFlag w rest → Returns t s := by
        intro s ho hc
        refine .of_step true [] ho (ih ?_ ?_) <;> simp [disposeStep, hc, St.goto, ho]
      have put : ∀ {s : St}, s.over = false → s.call t = .putExit w rest → Returns t s := by
        intro s ho hc
        refine .of_step true [] ho (flag ?_ ?_) <;> simp [disposeStep, hc, St.goto, ho]
      by_cases h0 : h = 0
      · by_cases ha : s.asked 0 = true
        · refine .of_step true [] ho (ih ?_ ?_) <;> simp [disposeStep, hc, St.goto, ho, h0, ha]
        · refine .of_step true [] ho (put ?_ ?_) <;> simp [disposeStep, hc, St.goto, ho, h0, ha]
      · refine .of_step true [] ho (ih ?_ ?_) <;> simp [disposeStep, hc, St.goto, ho, h0]

theorem returns_snapshot {t : Nat} {s : St} {w : Bool} (ho : s.over = false) (hc : s.call t = .snapshot w) :
    Returns t s := by
  refine .of_step true s.reg ho (returns_ask (w := w) s.reg ?_ ?_) <;> simp [disposeStep, hc, St.goto, ho]

theorem returns_quiet {t : Nat} {s : St} {w : Bool} (ho : s.over = false) (hc : s.call t = .quiet w) :
    Returns t s := by
  refine .of_step true [] ho (returns_snapshot (w := w) ?_ ?_) <;> simp [disposeStep, hc, St.goto, ho]

/-- **C101, calls return.** In any state in which nobody holds the main lock, a running call can be brought to its
end by steps of the calling thread alone: it never has to wait for another thread longer than its timeouts. -/
theorem c101_returns (s : St) (t : Nat) (ho : s.over = false) (hm : s.main = none) : Returns t s := by
  cases hc : s.call t
  case none => exact .now (by simp [St.free, hc, Call.free])
  case done w f => exact .now (by simp [St.free, hc, Call.free])
  case writeGlobal w m => exact returns_write ho hc
  case readGlobal w => exact returns_read ho hc
  case waiter f => exact returns_waiter ho (.inl hc)
  case onEvent f => exact returns_waiter ho (.inr hc)
  case enterWait f => exact returns_enterWait ho hc
  case ask w r => exact returns_ask r ho hc
  case setFlag w r =>
    refine .of_step true [] ho (returns_ask (w := w) r ?_ ?_) <;> simp [disposeStep, hc, St.goto, ho]
  case putExit w r =>
    refine .of_step true [] ho (.of_step true [] ?_ (returns_ask (w := w) r ?_ ?_)) <;>
      simp [disposeStep, hc, St.goto, ho]
  case snapshot w => exact returns_snapshot ho hc
  case quiet w => exact returns_quiet ho hc
  case locking w =>
    by_cases hn : s.nothingToSend
    · refine .of_step true [] ho (returns_snapshot (w := w) ?_ ?_) <;> simp [disposeStep, hc, St.goto, ho, hm, hn]
    · refine .of_step true [] ho (returns_quiet (w := w) ?_ ?_) <;> simp [disposeStep, hc, St.goto, ho, hm, hn]
  case begun w =>
    cases hd : s.disposed
    · refine .of_step true [] ho (returns_quiet (w := w) ?_ ?_) <;> simp [disposeStep, hc, St.goto, ho, hd]
    · cases w
      · refine .of_step true [] ho (.now ?_)
        simp [disposeStep, hc, St.goto, hd, St.free, Call.free]
      · refine .of_step true [] ho (returns_enterWait (f := false) ?_ ?_) <;>
          simp [disposeStep, hc, St.goto, ho, hd]

/-! ## Examples and witnesses -/

/-- The writer, the check-alive thread and a reader (3) are started; the debugger is the global one. -/
def started : List Act :=
  [.setGlobal (some 0), .start 0, .register 0, .start 1, .register 1, .start 3, .register 3]

/-- The steps of a call that nothing disturbs, up to the end of the asking (three helper threads). -/
def askAll (t : Nat) : List Act :=
  [.dispose t false [], .dispose t false [], .dispose t false [], .dispose t false [3, 0, 1]] ++
    List.replicate 6 (.dispose t false [])

/-- The program puts two messages and disposes of the debugger (`stoptrace`), a second thread too; the writer sends
everything, the reader ends, both calls return. -/
def example1 : List Act :=
  started ++ [.check 7, .put 7, .check 8, .put 8, .get, .send, .get, .call 2 true, .call 5 true] ++
    askAll 2 ++ [.dispose 5 false [], .dispose 5 false [], .send, .get, .send, .writerEnd, .helperEnd 3] ++
    [.dispose 5 false [], .dispose 2 false [], .dispose 2 false [], .dispose 2 false [], .dispose 2 false []]

theorem c101_example :
    (run (example1.take 11)).disposed = false ∧ 0 ∈ (run (example1.take 11)).reg ∧ 3 ∈ (run (example1.take 11)).reg ∧
    (run (example1.take 11)).puts = [.other 7, .other 8] ∧
    (run example1).call 2 = .done true true ∧ (run example1).call 5 = .done true false ∧
    (run example1).call 3 = .none ∧ (run example1).timedOut = false ∧ (run example1).failed = false ∧
    (run example1).sent = [.other 7, .other 8, .exit] ∧ (run example1).life 3 = .ended ∧
    (run example1).asked 1 = true ∧ (run example1).global = none := by decide

/-- The main thread ends; the check-alive thread ends the session, then the process ends. -/
def example2 : List Act :=
  started ++ [.check 7, .put 7, .get, .send, .userEnd 2] ++ List.replicate 6 .checker ++ askAll 1 ++
    [.get, .send, .writerEnd, .helperEnd 3] ++ List.replicate 4 (.dispose 1 false []) ++
    [.dispose 1 false [], .checker, .checker, .exit]

theorem c101_example_end :
    (run example2).over = true ∧ (run example2).call 1 = .done true true ∧ (run example2).timedOut = false ∧
    (run example2).failed = false ∧ (run example2).sent = [.other 7, .exit] ∧ (run example2).global = none := by
  decide

/-- **A lost end of the session.** The check-alive thread looks twice. When a response is put in the queue in between
- say, of the reader to a late request of the client - the second look fails and the thread ends without disposing:
the process ends, the response is not sent, and neither is the exit message. No timeout passed, the connection is
fine. -/
theorem c101_second_look_witness :
    ∃ acts, (run acts).over = true ∧ (run acts).timedOut = false ∧ (run acts).failed = false ∧
      (run acts).disposed = false ∧ (run acts).queue = [.other 7] ∧ (run acts).sent = [] :=
  ⟨started ++ [.userEnd 2] ++ List.replicate 4 .checker ++ [.check 7, .put 7] ++ List.replicate 3 .checker ++ [.exit],
    by decide⟩

/-- **A helper thread that is never asked to end.** A helper thread that was started but had not registered itself
when the disposal took the list of helper threads goes on after the disposal is over. -/
theorem c101_late_helper_witness :
    ∃ acts, (run acts).call 2 = .done true true ∧ (run acts).timedOut = false ∧ (run acts).life 4 = .running ∧
      (run acts).asked 4 = false :=
  ⟨started ++ [.start 4, .call 2 true] ++ askAll 2 ++ [.get, .send, .writerEnd, .helperEnd 3] ++
    List.replicate 5 (.dispose 2 false []) ++ [.register 4], by decide⟩

/-- **Another debugger is forgotten.** The global debugger is read and then reset: a debugger that becomes the global
one in between is forgotten. -/
theorem c101_forgotten_witness :
    ∃ p q, (run p).global = some 1 ∧ (∀ d, Act.setGlobal d ∉ q) ∧ (run (p ++ q)).call 2 = .done false true ∧
      (run (p ++ q)).global = none :=
  ⟨started ++ [.call 2 false] ++ askAll 2 ++ [.dispose 2 false [], .setGlobal (some 1)], [.dispose 2 false []],
    by decide, by simp, by decide, by decide⟩

/-- **The exit message may stay unsent.** The writer found the queue empty, the exit message was put and the flag set
before it looked at the flag: it stops without sending it. -/
theorem c101_no_exit_witness :
    ∃ acts, (run acts).call 2 = .done true true ∧ (run acts).timedOut = false ∧ (run acts).failed = false ∧
      (run acts).life 0 = .ended ∧ (run acts).sent = [] :=
  ⟨started ++ [.getEmpty, .call 2 true] ++ askAll 2 ++ [.readFlag, .writerEnd, .helperEnd 3] ++
    List.replicate 5 (.dispose 2 false []), by decide⟩

end Dispose
