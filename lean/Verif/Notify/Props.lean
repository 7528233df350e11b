import Verif.Notify.Spec
/-! Properties C11 (stop/continue events) and C12 (callbacks). -/

namespace Notify
open Spec

theorem stopTimes_append (a b : List Ev) : stopTimes (a ++ b) = stopTimes a ++ stopTimes b := by
  simp [stopTimes]
theorem registrations_append (a b : List Ev) :
    registrations (a ++ b) = registrations a ++ registrations b := by simp [registrations]
theorem calls_append (a b : List Ev) : calls (a ++ b) = calls a ++ calls b := by simp [calls]

theorem callAll_called (raises : Nat → Bool) (cs : List Nat) :
    ∀ e ∈ callAll raises cs, ∃ c, e = .called c := by
  induction cs with
  | nil => simp [callAll]
  | cons c cs ih =>
    intro e he
    simp only [callAll, List.mem_cons] at he
    rcases he with rfl | he
    · exact ⟨c, rfl⟩
    · split at he
      · simp at he
      · exact ih e he

theorem stopTimes_calls (raises : Nat → Bool) (cs : List Nat) : stopTimes (callAll raises cs) = [] := by
  unfold stopTimes
  rw [List.filterMap_eq_nil_iff]
  intro e he
  obtain ⟨c, rfl⟩ := callAll_called raises cs e he
  rfl

theorem registrations_calls (raises : Nat → Bool) (cs : List Nat) :
    registrations (callAll raises cs) = [] := by
  unfold registrations
  rw [List.filterMap_eq_nil_iff]
  intro e he
  obtain ⟨c, rfl⟩ := callAll_called raises cs e he
  rfl

theorem clientStopped_calls (log : List Ev) (raises : Nat → Bool) (cs : List Nat) :
    clientStopped (log ++ callAll raises cs) = clientStopped log := by
  induction cs generalizing log with
  | nil => simp [callAll]
  | cons c cs ih =>
    simp only [callAll]
    split
    · simp [clientStopped]
    · rw [List.append_cons, ih]; simp [clientStopped]

theorem calls_callAll {raises : Nat → Bool} (cs : List Nat) (h : ∀ c ∈ cs, raises c = false) :
    calls (callAll raises cs) = cs := by
  induction cs with
  | nil => rfl
  | cons c cs ih =>
    have h1 := h c (by simp)
    simp only [callAll, h1, Bool.false_eq_true, if_false]
    have := ih (fun x hx => h x (by simp [hx]))
    simp only [calls] at this ⊢
    simp [this]

structure Inv (s : State) : Prop where
  fresh : s.request < s.nextTime
  pend : ∀ g ∈ s.pending, g ≤ s.request
  lastLe : s.lastSuspend ≤ s.request
  resLe : s.lastResume ≤ s.lastSuspend
  times : List.Pairwise (· < ·) (stopTimes s.log)
  timesLe : ∀ t ∈ stopTimes s.log, t ≤ s.lastSuspend
  lastIn : s.lastSuspend = -1 ∨ s.lastSuspend ∈ stopTimes s.log
  pos : 0 ≤ s.request ∧ ∀ g ∈ s.pending, 0 ≤ g
  stopped : clientStopped s.log = true ↔ s.lastResume < s.lastSuspend
  empty : s.suspended = [] → s.lastResume = s.lastSuspend

theorem inv_start : Inv start := by
  constructor <;> simp [start, stopTimes, clientStopped]

theorem erase_nil {l : List Tid} {t : Tid} : l.erase t = [] → l = [] ∨ l = [t] := by
  cases l with
  | nil => simp
  | cons a l =>
    by_cases h : a = t
    · subst h; simp
    · simp [List.erase_cons, h]

theorem insert_ne_nil (l : List Tid) (t : Tid) : insert l t ≠ [] := by
  unfold insert; split
  · intro h; simp_all
  · simp

theorem inv_stop {s : State} (h : Inv s) (g : Int) (t : Tid) (r : Reason) (susp : List Tid)
    (p : Bool) (pend : List Int) (hp : ∀ x ∈ pend, x ∈ s.pending) (hg : s.lastSuspend < g)
    (hle : g ≤ s.request) (hne : susp ≠ []) :
    Inv { s with lastSuspend := g, log := s.log ++ [.stop g t r], suspended := susp, pause := p,
                 pending := pend } := by
  obtain ⟨h1, h2, h3, h4, h5, h6, h7, h8, h9, h10⟩ := h
  have e : stopTimes (s.log ++ [.stop g t r]) = stopTimes s.log ++ [g] := by simp [stopTimes]
  refine ⟨h1, fun x hx => h2 x (hp x hx), hle, by simp only; omega, ?_, ?_, ?_, ?_, ?_, ?_⟩
  · simp only [e, List.pairwise_append]
    refine ⟨h5, by simp, ?_⟩
    intro a ha b hb
    simp only [List.mem_singleton] at hb
    subst hb
    have := h6 a ha
    omega
  · intro x hx
    simp only [e, List.mem_append, List.mem_singleton] at hx
    rcases hx with hx | rfl
    · have := h6 x hx; simp only; omega
    · exact Int.le_refl _
  · right; simp [e]
  · exact ⟨h8.1, fun x hx => h8.2 x (hp x hx)⟩
  · simp only
    constructor
    · intro _; omega
    · intro _; simp [clientStopped]
  · intro hs; exact absurd hs hne

theorem inv_step (raises : Nat → Bool) {s : State} (h : Inv s) (a : Action) : Inv (step raises s a) := by
  have h' := h
  obtain ⟨h1, h2, h3, h4, h5, h6, h7, h8, h9, h10⟩ := h'
  cases a with
  | increment =>
    exact ⟨by simp only [step]; omega, fun g hg => by have := h2 g hg; simp only [step]; omega,
      by simp only [step]; omega, h4, h5, h6, h7, ⟨by simp only [step]; omega, h8.2⟩, h9, h10⟩
  | pause =>
    refine ⟨h1, ?_, h3, h4, h5, h6, h7, ⟨h8.1, ?_⟩, h9, h10⟩
    · intro g hg
      simp only [step, List.mem_cons] at hg
      rcases hg with rfl | hg
      · exact Int.le_refl _
      · exact h2 g hg
    · intro g hg
      simp only [step, List.mem_cons] at hg
      rcases hg with rfl | hg
      · exact h8.1
      · exact h8.2 g hg
  | timeout g =>
    simp only [step]
    split
    · rename_i hg
      have hpend : ∀ x ∈ s.pending.erase g, x ∈ s.pending := fun x hx => List.mem_of_mem_erase hx
      have hbase : Inv { s with pending := s.pending.erase g } :=
        ⟨h1, fun x hx => h2 x (hpend x hx), h3, h4, h5, h6, h7, ⟨h8.1, fun x hx => h8.2 x (hpend x hx)⟩,
          h9, h10⟩
      split
      · exact hbase
      · rename_i t rest hs
        split
        · rename_i hlt
          have := inv_stop h g t .threadSuspend s.suspended s.pause (s.pending.erase g) hpend hlt (h2 g hg)
            (by rw [hs]; simp)
          exact this
        · exact hbase
    · exact h
  | suspend t r =>
    simp only [step]
    have hbase : Inv { s with pause := false, suspended := insert s.suspended t } :=
      ⟨h1, h2, h3, h4, h5, h6, h7, h8, h9, fun hs => absurd hs (insert_ne_nil _ _)⟩
    split
    · split
      · rename_i hlt
        exact inv_stop h s.request t r _ false s.pending (fun _ hx => hx) hlt (Int.le_refl _)
          (insert_ne_nil s.suspended t)
      · exact hbase
    · exact hbase
  | resume t =>
    simp only [step]
    split
    · split
      · rename_i hlt
        have e : stopTimes (s.log ++ .cont t :: callAll raises s.callbacks) = stopTimes s.log := by
          rw [List.append_cons, stopTimes_append, stopTimes_append, stopTimes_calls]
          simp [stopTimes]
        refine ⟨h1, h2, h3, Int.le_refl _, by simpa only [e] using h5, by simpa only [e] using h6,
          by simpa only [e] using h7, h8, ?_, fun _ => rfl⟩
        simp only
        rw [List.append_cons, clientStopped_calls]
        simp [clientStopped]
      · rename_i hlt
        refine ⟨h1, h2, h3, h4, h5, h6, h7, h8, h9, fun _ => by simp only; omega⟩
    · exact h
  | addCallback cb =>
    have e : stopTimes (s.log ++ [.registered cb]) = stopTimes s.log := by simp [stopTimes]
    refine ⟨h1, h2, h3, h4, by simpa only [step, e] using h5, by simpa only [step, e] using h6,
      by simpa only [step, e] using h7, h8, ?_, h10⟩
    simp only [step]
    rw [← h9]
    simp [clientStopped]

theorem inv_run (raises : Nat → Bool) {s : State} (h : Inv s) (as : List Action) :
    Inv (run raises s as) := by
  induction as generalizing s with
  | nil => exact h
  | cons a as ih => exact ih (inv_step raises h a)

/-- **C11, at most one stop event per pause request.** The stop events carry strictly increasing
request times, none beyond the current request: in particular no request is reported twice. -/
theorem c11_one_stop_per_request (raises : Nat → Bool) (as : List Action) :
    List.Pairwise (· < ·) (stopTimes (run raises start as).log) ∧
    ∀ t ∈ stopTimes (run raises start as).log, 0 ≤ t ∧ t ≤ (run raises start as).request := by
  have h := inv_run raises inv_start as
  refine ⟨h.times, fun t ht => ⟨?_, Int.le_trans (h.timesLe t ht) h.lastLe⟩⟩
  -- request times are never negative
  have key : ∀ (l : List Action) (s : State), Inv s → (∀ t ∈ stopTimes s.log, 0 ≤ t) →
      ∀ t ∈ stopTimes (run raises s l).log, 0 ≤ t := by
    intro l
    induction l with
    | nil => intro s _ h; exact h
    | cons a l ih =>
      intro s hi hs
      refine ih _ (inv_step raises hi a) ?_
      cases a with
      | increment => exact hs
      | pause => exact hs
      | timeout g =>
        simp only [step]
        split
        · rename_i hg
          split
          · exact hs
          · split
            · intro x hx
              simp only [stopTimes_append, List.mem_append] at hx
              rcases hx with hx | hx
              · exact hs x hx
              · simp only [stopTimes, List.filterMap_cons, List.filterMap_nil, List.mem_singleton] at hx
                subst hx; exact hi.pos.2 _ hg
            · exact hs
        · exact hs
      | suspend t r =>
        simp only [step]
        split
        · split
          · intro x hx
            simp only [stopTimes_append, List.mem_append] at hx
            rcases hx with hx | hx
            · exact hs x hx
            · simp only [stopTimes, List.filterMap_cons, List.filterMap_nil, List.mem_singleton] at hx
              subst hx; exact hi.pos.1
          · exact hs
        · exact hs
      | resume t =>
        simp only [step]
        split
        · split
          · intro x hx
            rw [List.append_cons, stopTimes_append, stopTimes_append, stopTimes_calls] at hx
            simp only [List.append_nil, List.mem_append] at hx
            rcases hx with hx | hx
            · exact hs x hx
            · simp [stopTimes] at hx
          · exact hs
        · exact hs
      | addCallback cb =>
        intro x hx
        simp only [step, stopTimes_append, List.mem_append] at hx
        rcases hx with hx | hx
        · exact hs x hx
        · simp [stopTimes] at hx
  exact key as start inv_start (by simp [start, stopTimes]) t ht

/-- **C11, a continue event only after a stop event.** Whenever an 'all continued' event is sent, the
client believes the threads stopped at that moment: a stop event was sent after the previous continue
event. -/
theorem c11_continue_only_after_stop (raises : Nat → Bool) (as : List Action) (pre post : List Ev) (t : Tid)
    (h : (run raises start as).log = pre ++ .cont t :: post) : clientStopped pre = true := by
  have key : ∀ (l : List Action) (s : State), Inv s →
      (∀ pre post t, s.log = pre ++ .cont t :: post → clientStopped pre = true) →
      ∀ pre post t, (run raises s l).log = pre ++ .cont t :: post → clientStopped pre = true := by
    intro l
    induction l with
    | nil => intro s _ h; exact h
    | cons a l ih =>
      intro s hi hs
      refine ih _ (inv_step raises hi a) ?_
      -- appending events that are not a continue keeps the claim
      have ext : ∀ (es : List Ev), (∀ e ∈ es, ∀ t, e ≠ .cont t) → ∀ pre post t,
          s.log ++ es = pre ++ .cont t :: post → clientStopped pre = true := by
        intro es hes pre post t he
        rcases List.append_eq_append_iff.1 he with ⟨c, h1, h2⟩ | ⟨c, h1, h2⟩
        · exact absurd rfl (hes (.cont t) (by rw [h2]; simp) t)
        · cases c with
          | nil =>
            simp only [List.nil_append] at h2
            exact absurd rfl (hes (.cont t) (by rw [← h2]; simp) t)
          | cons x c =>
            simp only [List.cons_append, List.cons.injEq] at h2
            obtain ⟨rfl, h2⟩ := h2
            exact hs pre c t h1
      cases a with
      | increment => exact hs
      | pause => exact hs
      | timeout g =>
        simp only [step]
        split
        · split
          · exact hs
          · split
            · exact ext _ (by simp)
            · exact hs
        · exact hs
      | suspend t r =>
        simp only [step]
        split
        · split
          · exact ext _ (by simp)
          · exact hs
        · exact hs
      | addCallback cb => exact ext _ (by simp)
      | resume t =>
        simp only [step]
        split
        · split
          · rename_i hlt
            intro pre post u he
            simp only at he
            rcases List.append_eq_append_iff.1 he with ⟨c, h1, h2⟩ | ⟨c, h1, h2⟩
            · cases c with
              | nil =>
                simp only [List.append_nil] at h1
                rw [h1]; exact hi.stopped.2 hlt
              | cons x c =>
                simp only [List.cons_append, List.cons.injEq] at h2
                obtain ⟨_, h2⟩ := h2
                have hm : Ev.cont u ∈ callAll raises s.callbacks := by rw [h2]; simp
                obtain ⟨_, hc⟩ := callAll_called raises _ _ hm
                cases hc
            · cases c with
              | nil =>
                simp only [List.append_nil] at h1
                rw [← h1]; exact hi.stopped.2 hlt
              | cons x c =>
                simp only [List.cons_append, List.cons.injEq] at h2
                obtain ⟨rfl, _⟩ := h2
                exact hs pre c u h1
          · exact hs
        · exact hs
  exact key as start inv_start (by simp [start]) pre post t h

/-- **C11, the client is not left believing that threads are stopped.** When no thread is suspended any
more, the last stop/continue event sent is not a stop. -/
theorem c11_all_resumed (raises : Nat → Bool) (as : List Action)
    (h : (run raises start as).suspended = []) : clientStopped (run raises start as).log = false := by
  have hi := inv_run raises inv_start as
  have := hi.empty h
  cases hc : clientStopped (run raises start as).log with
  | false => rfl
  | true => have := hi.stopped.1 hc; omega

/-- **C11, the first resume after a stop is reported.** When a suspended thread resumes while the client
believes the threads stopped, a continue event is sent, and the client believes them running after. -/
theorem c11_resume_reported (raises : Nat → Bool) (as : List Action) (t : Tid)
    (ht : t ∈ (run raises start as).suspended) :
    clientStopped (run raises start (as ++ [.resume t])).log = false ∧
    (clientStopped (run raises start as).log = true →
      .cont t ∈ (run raises start (as ++ [.resume t])).log.drop (run raises start as).log.length) := by
  have hi := inv_run raises inv_start as
  have e : run raises start (as ++ [.resume t]) = step raises (run raises start as) (.resume t) := by
    simp [run, List.foldl_append]
  rw [e]
  simp only [step, ht, if_true]
  constructor
  · split
    · simp only
      rw [List.append_cons, clientStopped_calls]; simp [clientStopped]
    · rename_i hlt
      cases hc : clientStopped (run raises start as).log with
      | false => rfl
      | true => exact absurd (hi.stopped.1 hc) hlt
  · intro hc
    have := hi.stopped.1 hc
    simp [this]

/-- **C11, a stop is reported.** When a thread stops for a reason of its own (or a pause is pending),
a stop event for the current request has been sent once the thread is suspended. -/
theorem c11_stop_reported (raises : Nat → Bool) (as : List Action) (t : Tid) (r : Reason)
    (h : r ≠ .threadSuspend ∨ (run raises start as).pause = true) :
    (run raises start (as ++ [.suspend t r])).request ∈
      stopTimes (run raises start (as ++ [.suspend t r])).log := by
  have hi := inv_run raises inv_start as
  have e : run raises start (as ++ [.suspend t r]) = step raises (run raises start as) (.suspend t r) := by
    simp [run, List.foldl_append]
  rw [e]
  simp only [step, h, if_true]
  split
  · simp [stopTimes]
  · rename_i hlt
    simp only at hlt ⊢
    have h1 := hi.lastLe
    have h2 := hi.pos.1
    rcases hi.lastIn with h3 | h3
    · omega
    · have : (run raises start as).request = (run raises start as).lastSuspend := by omega
      rw [this]; exact h3

/-- **C11, a pause is reported.** When the timeout of a pause request runs while some thread is
suspended, a stop event for that request or a later one has been sent. -/
theorem c11_pause_reported (raises : Nat → Bool) (as : List Action) (g : Int)
    (hg : g ∈ (run raises start as).pending) (hs : (run raises start as).suspended ≠ []) :
    ∃ t ∈ stopTimes (run raises start (as ++ [.timeout g])).log, g ≤ t := by
  have hi := inv_run raises inv_start as
  have e : run raises start (as ++ [.timeout g]) = step raises (run raises start as) (.timeout g) := by
    simp [run, List.foldl_append]
  rw [e]
  simp only [step, hg, if_true]
  split
  · rename_i hn; exact absurd hn hs
  · split
    · exact ⟨g, by simp [stopTimes], Int.le_refl _⟩
    · rename_i hlt
      have h1 := hi.pos.2 g hg
      rcases hi.lastIn with h3 | h3
      · omega
      · exact ⟨_, h3, by omega⟩

/-- Non-vacuity: a breakpoint stop of thread 1 with thread 2 dragged along, both resume, then a pause
reported by the timeout. -/
example :
    let as := [Action.increment, .suspend 1 (.other 111), .suspend 2 .threadSuspend, .resume 2, .resume 1,
      .increment, .pause, .suspend 2 .threadSuspend, .increment, .pause, .timeout 3, .resume 2]
    (run (fun _ => false) start as).log =
      [.stop 1 1 (.other 111), .cont 2, .stop 2 2 .threadSuspend, .stop 3 2 .threadSuspend, .cont 2] ∧
    (run (fun _ => false) start as).suspended = [] := by decide

/-- Two stop events may be sent with no continue event between them: "balanced" in the sense of strict
alternation does not hold. -/
theorem c11_stops_need_not_alternate :
    (run (fun _ => false) start
      [.increment, .suspend 1 (.other 111), .increment, .suspend 2 (.other 111), .resume 1, .resume 2]).log =
      [.stop 1 1 (.other 111), .stop 2 2 (.other 111), .cont 1] := by decide

/-! ### C12 -/

/-- **C12.** If no callback raises: at every moment the callbacks called, followed by those waiting, are
exactly the callbacks registered, in order — so each registration is called at most once, and called
exactly once as soon as nothing is waiting. -/
theorem c12_exactly_once (raises : Nat → Bool) (hr : ∀ c, raises c = false) (as : List Action) :
    calls (run raises start as).log ++ (run raises start as).callbacks =
      registrations (run raises start as).log := by
  have key : ∀ (l : List Action) (s : State),
      calls s.log ++ s.callbacks = registrations s.log →
      calls (run raises s l).log ++ (run raises s l).callbacks = registrations (run raises s l).log := by
    intro l
    induction l with
    | nil => intro s h; exact h
    | cons a l ih =>
      intro s hs
      refine ih _ ?_
      cases a with
      | increment => exact hs
      | pause => exact hs
      | timeout g =>
        simp only [step]
        split
        · split
          · exact hs
          · split
            · simpa [calls_append, registrations_append, calls, registrations] using hs
            · exact hs
        · exact hs
      | suspend t r =>
        simp only [step]
        split
        · split
          · simpa [calls_append, registrations_append, calls, registrations] using hs
          · exact hs
        · exact hs
      | addCallback cb =>
        simp only [step, calls_append, registrations_append]
        rw [← hs]
        simp [calls, registrations]
      | resume t =>
        simp only [step]
        split
        · split
          · simp only
            rw [List.append_cons, calls_append, calls_append, registrations_append, registrations_append,
              registrations_calls, calls_callAll _ (fun c _ => hr c)]
            simpa [calls, registrations] using hs
          · exact hs
        · exact hs
  exact key as start (by simp [start, calls, registrations])

/-- **C12, when.** The callbacks still waiting are exactly those registered after the last continue
event: every continue event is followed by the calls of all callbacks registered before it. (This part
holds even if callbacks raise.) -/
theorem c12_first_continue (raises : Nat → Bool) (as : List Action) (pre post : List Ev) (t : Tid)
    (h : (run raises start as).log = pre ++ .cont t :: post) (hlast : ∀ u, .cont u ∉ post) :
    (run raises start as).callbacks = registrations post := by
  have key : ∀ (l : List Action) (s : State),
      (∀ pre post t, s.log = pre ++ .cont t :: post → (∀ u, .cont u ∉ post) →
        s.callbacks = registrations post) →
      ∀ pre post t, (run raises s l).log = pre ++ .cont t :: post → (∀ u, .cont u ∉ post) →
        (run raises s l).callbacks = registrations post := by
    intro l
    induction l with
    | nil => intro s h; exact h
    | cons a l ih =>
      intro s hs
      refine ih _ ?_
      have ext : ∀ (e : Ev) (cbs : List Nat), (∀ t, e ≠ .cont t) →
          (∀ post, s.callbacks = registrations post → cbs = registrations (post ++ [e])) → ∀ pre post t,
          s.log ++ [e] = pre ++ .cont t :: post → (∀ u, .cont u ∉ post) → cbs = registrations post := by
        intro e cbs hes hc pre post t he hn
        rcases List.append_eq_append_iff.1 he with ⟨c, h1, h2⟩ | ⟨c, h1, h2⟩
        · have : Ev.cont t ∈ [e] := by rw [h2]; simp
          simp only [List.mem_singleton] at this
          exact absurd this.symm (hes t)
        · cases c with
          | nil =>
            simp only [List.nil_append, List.cons.injEq] at h2
            exact absurd h2.1.symm (hes t)
          | cons x c =>
            simp only [List.cons_append, List.cons.injEq] at h2
            obtain ⟨rfl, h2⟩ := h2
            subst h2
            refine hc c (hs pre c t h1 (fun u hu => hn u (by simp [hu])))
      cases a with
      | increment => exact hs
      | pause => exact hs
      | timeout g =>
        simp only [step]
        split
        · split
          · exact hs
          · split
            · exact ext _ _ (by simp) (by intro p hp; simpa [registrations] using hp)
            · exact hs
        · exact hs
      | suspend t r =>
        simp only [step]
        split
        · split
          · exact ext _ _ (by simp) (by intro p hp; simpa [registrations] using hp)
          · exact hs
        · exact hs
      | addCallback cb =>
        exact ext _ _ (by simp) (by intro p hp; simp only [registrations_append, ← hp]; simp [registrations, step])
      | resume t =>
        simp only [step]
        split
        · split
          · intro pre post u he hn
            simp only at he ⊢
            rcases List.append_eq_append_iff.1 he with ⟨c, h1, h2⟩ | ⟨c, h1, h2⟩
            · cases c with
              | nil =>
                simp only [List.nil_append, List.cons.injEq] at h2
                rw [← h2.2, registrations_calls]
              | cons x c =>
                simp only [List.cons_append, List.cons.injEq] at h2
                have hm : Ev.cont u ∈ callAll raises s.callbacks := by rw [h2.2]; simp
                obtain ⟨_, hc⟩ := callAll_called raises _ _ hm
                cases hc
            · cases c with
              | nil =>
                simp only [List.nil_append, List.cons.injEq] at h2
                rw [h2.2, registrations_calls]
              | cons x c =>
                simp only [List.cons_append, List.cons.injEq] at h2
                exact absurd (by rw [h2.2]; simp) (hn t)
          · exact hs
        · exact hs
  exact key as start (by simp [start]) pre post t h hlast

/-- A callback that raises makes the ones registered after it get lost: the hypothesis of
`c12_exactly_once` is needed. -/
theorem c12_raising_callback_loses_others :
    let s := run (fun c => c == 1) start
      [.addCallback 1, .addCallback 2, .increment, .suspend 7 (.other 0), .resume 7]
    calls s.log = [1] ∧ s.callbacks = [] ∧ registrations s.log = [1, 2] := by decide

example :
    let s := run (fun _ => false) start
      [.addCallback 1, .addCallback 2, .increment, .suspend 7 (.other 0), .resume 7, .addCallback 3]
    calls s.log = [1, 2] ∧ s.callbacks = [3] := by decide

end Notify
