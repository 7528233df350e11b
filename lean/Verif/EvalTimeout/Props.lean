import Verif.EvalTimeout.Model
import Verif.Notify.Props
/-!
C110: slow evaluations and the other threads.

What is claimed is stated with: which threads are held (`held`), what the client was told (the log of the
notification, with `Notify.Spec`), and the order of the actions. Nothing else of the state is used, but
`pc = .done` (the evaluation returned) and `timer = .over` (the callback returned).
-/

namespace EvalTimeout

open Notify (Tid)
open Notify.Spec

/-! ### Lemmas about the notification -/

/-- Every action leaves the notification as it is or makes one call of it. -/
theorem act_n (me : Tid) (ts : List Tid) (s : St) (a : Act) :
    (act me ts s a).n = s.n ∨ ∃ b, (act me ts s a).n = Notify.step noRaise s.n b := by
  cases a with
  | fire => left; simp only [act]; split <;> (try split) <;> rfl
  | callback =>
    simp only [act]
    split
    case h_4 => exact Or.inr ⟨.resume me, rfl⟩
    all_goals exact Or.inl rfl
  | finish => left; simp only [act]; split <;> rfl
  | own =>
    simp only [act]
    split
    case h_4 => exact Or.inr ⟨.increment, rfl⟩
    case h_7 => exact Or.inr ⟨.suspend me setBreak, rfl⟩
    all_goals left
    all_goals first | rfl | (split <;> rfl)
  | incr => exact Or.inr ⟨.increment, rfl⟩
  | hit t => left; simp only [act]; split <;> rfl
  | hitStep => left; simp only [act]; split <;> rfl
  | enter t r => simp only [act]; split <;> first | exact Or.inl rfl | exact Or.inr ⟨.suspend t r, rfl⟩
  | wake t => left; simp only [act]; split <;> rfl
  | leave t => simp only [act]; split <;> first | exact Or.inl rfl | exact Or.inr ⟨.resume t, rfl⟩
  | letGo t => exact Or.inl rfl

theorem inv_act {me : Tid} {ts : List Tid} {s : St} (h : Notify.Inv s.n) (a : Act) :
    Notify.Inv (act me ts s a).n := by
  rcases act_n me ts s a with e | ⟨b, e⟩ <;> rw [e]
  · exact h
  · exact Notify.inv_step noRaise h b

theorem inv_run {me : Tid} {ts : List Tid} (acts : List Act) : ∀ {s : St}, Notify.Inv s.n →
    Notify.Inv (run me ts s acts).n := by
  induction acts with
  | nil => intro s h; exact h
  | cons a acts ih => intro s h; exact ih (inv_act h a)

theorem prefix_step (n : Notify.State) (b : Notify.Action) : n.log <+: (Notify.step noRaise n b).log := by
  cases b <;> simp only [Notify.step]
  all_goals first
    | exact List.prefix_refl _
    | exact List.prefix_append _ _
    | (split <;> first
        | exact List.prefix_refl _
        | exact List.prefix_append _ _
        | (split <;> first
            | exact List.prefix_refl _
            | exact List.prefix_append _ _
            | (split <;> first | exact List.prefix_refl _ | exact List.prefix_append _ _)))

theorem prefix_act (me : Tid) (ts : List Tid) (s : St) (a : Act) : s.n.log <+: (act me ts s a).n.log := by
  rcases act_n me ts s a with e | ⟨b, e⟩ <;> rw [e]
  · exact List.prefix_refl _
  · exact prefix_step _ _

theorem prefix_run (me : Tid) (ts : List Tid) (acts : List Act) : ∀ (s : St),
    s.n.log <+: (run me ts s acts).n.log := by
  induction acts with
  | nil => intro s; exact List.prefix_refl _
  | cons a acts ih => intro s; exact (prefix_act me ts s a).trans (ih _)

theorem run_append (me : Tid) (ts : List Tid) (s : St) (a b : List Act) :
    run me ts s (a ++ b) = run me ts (run me ts s a) b := by simp [run, List.foldl_append]

theorem run_cons (me : Tid) (ts : List Tid) (s : St) (a : Act) (b : List Act) :
    run me ts s (a :: b) = run me ts (act me ts s a) b := rfl

/-- Requests are never taken back, and the ones to come are later. -/
theorem request_step (n : Notify.State) (h : Notify.Inv n) (b : Notify.Action) :
    n.request ≤ (Notify.step noRaise n b).request := by
  have := h.fresh
  cases b <;> simp only [Notify.step]
  all_goals first
    | omega
    | (split <;> first
        | exact Int.le_refl _
        | (split <;> first
            | exact Int.le_refl _
            | (split <;> exact Int.le_refl _)))

theorem request_act {me : Tid} {ts : List Tid} {s : St} (h : Notify.Inv s.n) (a : Act) :
    s.n.request ≤ (act me ts s a).n.request := by
  rcases act_n me ts s a with e | ⟨b, e⟩ <;> rw [e]
  · exact Int.le_refl _
  · exact request_step _ h _

/-- Telling of a stop of one's own: after it a stop for the request is in the log. -/
theorem tell_stop {n : Notify.State} (h : Notify.Inv n) (t : Tid) :
    n.request ∈ stopTimes (Notify.step noRaise n (.suspend t setBreak)).log := by
  simp only [Notify.step, setBreak, ne_eq, reduceCtorEq, not_false_eq_true, true_or, if_true]
  split
  · simp [stopTimes]
  · rename_i hlt
    have h1 := h.lastLe
    have h2 := h.pos.1
    rcases h.lastIn with h3 | h3
    · omega
    · have : n.request = n.lastSuspend := by omega
      rw [this]; exact h3

theorem stop_of_time {l : List Notify.Ev} {x : Int} (h : x ∈ stopTimes l) :
    ∃ t r, Notify.Ev.stop x t r ∈ l := by
  simp only [stopTimes, List.mem_filterMap] at h
  obtain ⟨e, he, hx⟩ := h
  cases e <;> simp only [Option.some.injEq, reduceCtorEq] at hx
  subst hx
  exact ⟨_, _, he⟩

/-! ### Held again -/

/-- What is so after the end of an evaluation whose callback had returned; `log0` is what the client had
been told then. -/
structure After (me : Tid) (ts : List Tid) (log0 : List Notify.Ev) (s : St) : Prop where
  ninv : Notify.Inv s.n
  timer : s.timer = .over
  called : s.called = true
  out : s.pc ≠ .evaluating
  log : log0 <+: s.n.log
  old : ∀ x ∈ stopTimes log0, x ≤ s.n.request
  phase : match s.pc with
    | .incr => s.held me = true
    | .suspending todo => s.held me = true ∧ (∀ t ∈ ts, t ∈ todo ∨ s.held t = true) ∧
        ∀ x ∈ stopTimes log0, x < s.n.request
    | .telling => (∀ t, t = me ∨ t ∈ ts → s.held t = true) ∧ ∀ x ∈ stopTimes log0, x < s.n.request
    | .done => (∀ t, t = me ∨ t ∈ ts → s.held t = true) ∧
        ∃ x t r, Notify.Ev.stop x t r ∈ s.n.log.drop log0.length
    | _ => True

theorem upd_true {f : Tid → Bool} {t u : Tid} (h : f u = true) : upd f t true u = true := by
  simp only [upd]; split <;> simp [h]

theorem upd_self {f : Tid → Bool} {t : Tid} {b : Bool} : upd f t b t = b := by simp [upd]

theorem mem_drop_mono {log0 l l' : List Notify.Ev} {e : Notify.Ev} (h : l <+: l')
    (he : e ∈ l.drop log0.length) : e ∈ l'.drop log0.length := by
  obtain ⟨d, rfl⟩ := h
  rw [List.drop_append]
  exact List.mem_append_left _ he

/-- If an action keeps the place of the evaluating thread and lets no thread go, nothing is lost. -/
theorem after_keep {me : Tid} {ts : List Tid} {log0 : List Notify.Ev} {s : St} (h : After me ts log0 s)
    (a : Act) (hpc : (act me ts s a).pc = s.pc) (ht : (act me ts s a).timer = .over)
    (hc : (act me ts s a).called = true) (hh : ∀ t, s.held t = true → (act me ts s a).held t = true) :
    After me ts log0 (act me ts s a) := by
  have hreq := request_act (me := me) (ts := ts) h.ninv a
  have hlog := prefix_act me ts s a
  refine ⟨inv_act h.ninv a, ht, hc, by rw [hpc]; exact h.out, h.log.trans hlog,
    fun x hx => Int.le_trans (h.old x hx) hreq, ?_⟩
  have hp := h.phase
  rw [hpc]
  generalize hs' : act me ts s a = s' at *
  clear hs' hpc
  cases hpc : s.pc <;> simp only [hpc] at hp ⊢
  · exact hh _ hp
  · exact ⟨hh _ hp.1, fun t ht => (hp.2.1 t ht).imp id (hh t),
      fun x hx => Int.lt_of_lt_of_le (hp.2.2 x hx) hreq⟩
  · exact ⟨fun t ht => hh t (hp.1 t ht), fun x hx => Int.lt_of_lt_of_le (hp.2 x hx) hreq⟩
  · obtain ⟨h1, x, t, r, hx⟩ := hp
    exact ⟨fun t ht => hh t (h1 t ht), x, t, r, mem_drop_mono hlog hx⟩

theorem after_act {me : Tid} {ts : List Tid} {log0 : List Notify.Ev} {s : St} (h : After me ts log0 s)
    (a : Act) (hgo : ∀ t, a ≠ .letGo t) : After me ts log0 (act me ts s a) := by
  have h0 := h
  obtain ⟨hn, ht, hc, ho, hl, hold, hp⟩ := h
  cases a with
  | fire => simpa [act, ht] using h0
  | callback => simpa [act, ht] using h0
  | finish => simpa [act, ho] using h0
  | incr => exact after_keep h0 _ rfl ht hc (fun _ h => h)
  | hit t =>
    apply after_keep h0
    · simp only [act]; split <;> rfl
    · simp only [act]; split <;> exact ht
    · simp only [act]; split <;> exact hc
    · intro u hu; simp only [act]; split
      · exact upd_true hu
      · exact hu
  | hitStep =>
    apply after_keep h0
    · simp only [act]; split <;> rfl
    · simp only [act]; split <;> exact ht
    · simp only [act]; split <;> exact hc
    · intro u hu; simp only [act]; split
      · simp only; split
        · exact hu
        · exact upd_true hu
      · exact hu
      · exact hu
  | enter t r =>
    apply after_keep h0
    · simp only [act]; split <;> rfl
    · simp only [act]; split <;> exact ht
    · simp only [act]; split <;> exact hc
    · intro u hu; simp only [act]; split <;> exact hu
  | wake t =>
    apply after_keep h0
    · simp only [act]; split <;> rfl
    · simp only [act]; split <;> exact ht
    · simp only [act]; split <;> exact hc
    · intro u hu; simp only [act]; split <;> exact hu
  | leave t =>
    apply after_keep h0
    · simp only [act]; split <;> rfl
    · simp only [act]; split <;> exact ht
    · simp only [act]; split <;> exact hc
    · intro u hu; simp only [act]; split <;> exact hu
  | letGo t => exact absurd rfl (hgo t)
  | own =>
    have hninv := inv_act (me := me) (ts := ts) hn .own
    have hreq := request_act (me := me) (ts := ts) hn .own
    have hlog := prefix_act me ts s .own
    cases hpc : s.pc with
    | evaluating => exact absurd hpc ho
    | check =>
      simp only [act, hpc, hc, if_true]
      exact ⟨hn, ht, rfl, by simp, hl, hold, by simp⟩
    | locking =>
      simp only [act, hpc]
      split
      · exact ⟨hn, ht, hc, by simp, hl, hold, by simp⟩
      · exact h0
    | marking =>
      simp only [act, hpc]
      exact ⟨hn, ht, hc, by simp, hl, hold, by simp [upd]⟩
    | incr =>
      simp only [hpc] at hp
      simp only [act, hpc] at hninv hreq hlog ⊢
      refine ⟨hninv, ht, hc, by simp, hl.trans hlog, fun x hx => Int.le_trans (hold x hx) hreq, ?_⟩
      refine ⟨hp, fun t h => Or.inl h, fun x hx => ?_⟩
      have := hold x hx
      have := hn.fresh
      simp only [Notify.step]
      omega
    | suspending todo =>
      simp only [hpc] at hp
      cases todo with
      | nil =>
        simp only [act, hpc]
        refine ⟨hn, ht, hc, by simp, hl, hold, ?_⟩
        refine ⟨fun t h => ?_, hp.2.2⟩
        rcases h with rfl | h
        · exact hp.1
        · rcases hp.2.1 t h with h | h
          · simp at h
          · exact h
      | cons u todo =>
        simp only [act, hpc]
        refine ⟨hn, ht, hc, by simp, hl, hold, ?_⟩
        have key : ∀ t, s.held t = true → (if u = me then s.held else upd s.held u true) t = true := by
          intro t h; split
          · exact h
          · exact upd_true h
        refine ⟨key _ hp.1, fun t h => ?_, hp.2.2⟩
        rcases hp.2.1 t h with h | h
        · rcases List.mem_cons.1 h with rfl | h
          · right
            simp only
            split
            · rename_i he; rw [he]; exact hp.1
            · exact upd_self
          · exact Or.inl h
        · exact Or.inr (key t h)
    | telling =>
      simp only [hpc] at hp
      simp only [act, hpc] at hninv hreq hlog ⊢
      refine ⟨hninv, ht, hc, by simp, hl.trans hlog, fun x hx => Int.le_trans (hold x hx) hreq, ?_⟩
      refine ⟨hp.1, ?_⟩
      have htell := tell_stop hn me
      obtain ⟨d, hd⟩ := hl.trans hlog
      simp only
      rw [← hd] at htell ⊢
      rw [List.drop_left]
      rw [Notify.stopTimes_append, List.mem_append] at htell
      rcases htell with h | h
      · exact absurd (hp.2 _ h) (Int.lt_irrefl _)
      · obtain ⟨t, r, h⟩ := stop_of_time h
        exact ⟨_, t, r, h⟩
    | done =>
      simp only [act, hpc]; exact h0

theorem after_run {me : Tid} {ts : List Tid} {log0 : List Notify.Ev} (acts : List Act) :
    ∀ {s : St}, After me ts log0 s → (∀ t, .letGo t ∉ acts) → After me ts log0 (run me ts s acts) := by
  induction acts with
  | nil => intro s h _; exact h
  | cons a acts ih =>
    intro s h hgo
    exact ih (after_act h a (fun t e => hgo t (by simp [e]))) (fun t ht => hgo t (by simp [ht]))

/-- The callback returned only if it was called. -/
theorem over_called (me : Tid) (ts : List Tid) (single : Bool) (timeout : Int) (n : Notify.State)
    (acts : List Act) :
    let s := run me ts (start single timeout n) acts
    (s.timer = .over ∨ s.timer = .telling ∨ (∃ l, s.timer = .resuming l) → s.called = true) := by
  have key : ∀ (acts : List Act) (s : St),
      (s.timer = .over ∨ s.timer = .telling ∨ (∃ l, s.timer = .resuming l) → s.called = true) →
      let s' := run me ts s acts
      (s'.timer = .over ∨ s'.timer = .telling ∨ (∃ l, s'.timer = .resuming l) → s'.called = true) := by
    intro acts
    induction acts with
    | nil => intro s h; exact h
    | cons a acts ih =>
      intro s h
      apply ih
      cases a with
      | fire => simp only [act]; split <;> (try split) <;> simp_all
      | callback =>
        simp only [act]
        split <;> simp_all
      | finish => simp only [act]; split <;> simp_all
      | own =>
        simp only [act]
        split <;> (try split) <;> simp_all
      | incr => exact h
      | hit t => simp only [act]; split <;> simp_all
      | hitStep => simp only [act]; split <;> simp_all
      | enter t r => simp only [act]; split <;> simp_all
      | wake t => simp only [act]; split <;> simp_all
      | leave t => simp only [act]; split <;> simp_all
      | letGo t => exact h
  apply key
  simp only [start]
  split <;> simp

/-- **C110, held again.** The evaluation ended after the callback had returned (so the others had been let
go), and has returned since: then, as long as the client lets no thread go, every thread is held, and the
client was told of a stop after the evaluation ended. -/
theorem c110_held_again (me : Tid) (ts : List Tid) (single : Bool) (timeout : Int)
    (before : List Notify.Action) (pre post : List Act)
    (hev : (run me ts (start single timeout (Notify.run noRaise Notify.start before)) pre).pc = .evaluating)
    (hover : (run me ts (start single timeout (Notify.run noRaise Notify.start before)) pre).timer = .over)
    (hgo : ∀ t, .letGo t ∉ post)
    (hdone : (run me ts (start single timeout (Notify.run noRaise Notify.start before))
      (pre ++ .finish :: post)).pc = .done) :
    let s0 := run me ts (start single timeout (Notify.run noRaise Notify.start before)) pre
    let s := run me ts (start single timeout (Notify.run noRaise Notify.start before)) (pre ++ .finish :: post)
    (∀ t, t = me ∨ t ∈ ts → s.held t = true) ∧
    ∃ x t r, Notify.Ev.stop x t r ∈ s.n.log.drop s0.n.log.length := by
  have hcalled := over_called me ts single timeout (Notify.run noRaise Notify.start before) pre
    (Or.inl hover)
  rw [run_append, run_cons] at hdone ⊢
  have hninv : Notify.Inv (run me ts (start single timeout (Notify.run noRaise Notify.start before)) pre).n :=
    inv_run pre (Notify.inv_run noRaise Notify.inv_start before)
  generalize run me ts (start single timeout (Notify.run noRaise Notify.start before)) pre = s0 at *
  have h1 : After me ts s0.n.log (act me ts s0 .finish) := by
    simp only [act, hev, if_true]
    refine ⟨hninv, hover, hcalled, by simp, List.prefix_refl _, ?_, by simp⟩
    intro x hx
    exact Int.le_trans (hninv.timesLe x hx) hninv.lastLe
  have h2 := after_run post h1 hgo
  have := h2.phase
  rw [hdone] at this
  exact this

/-! ### A quick evaluation -/

/-- Before anybody is let go: nobody is about to leave, and the client was not told of a continuation. -/
structure Quiet (log0 : List Notify.Ev) (s : St) : Prop where
  held : ∀ t, s.held t = true
  called : s.called = false
  timer : s.timer = .armed ∨ s.timer = .none
  out : s.out = []
  log : ∃ d, s.n.log = log0 ++ d ∧ ∀ t, Notify.Ev.cont t ∉ d

theorem quiet_log {log0 : List Notify.Ev} {n : Notify.State}
    (h : ∃ d, n.log = log0 ++ d ∧ ∀ t, Notify.Ev.cont t ∉ d) (b : Notify.Action)
    (hb : ∀ t, b ≠ .resume t) :
    ∃ d, (Notify.step noRaise n b).log = log0 ++ d ∧ ∀ t, Notify.Ev.cont t ∉ d := by
  obtain ⟨d, hd, hc⟩ := h
  have add : ∀ e, (∀ t, e ≠ Notify.Ev.cont t) →
      ∃ d', n.log ++ [e] = log0 ++ d' ∧ ∀ t, Notify.Ev.cont t ∉ d' := by
    intro e he
    refine ⟨d ++ [e], by rw [hd, List.append_assoc], fun t h => ?_⟩
    rcases List.mem_append.1 h with h | h
    · exact hc t h
    · exact he t (List.mem_singleton.1 h).symm
  cases b with
  | increment => exact ⟨d, hd, hc⟩
  | pause => exact ⟨d, hd, hc⟩
  | timeout g =>
    simp only [Notify.step]
    split
    · split
      · exact ⟨d, hd, hc⟩
      · split
        · exact add _ (by simp)
        · exact ⟨d, hd, hc⟩
    · exact ⟨d, hd, hc⟩
  | suspend t r =>
    simp only [Notify.step]
    split
    · split
      · exact add _ (by simp)
      · exact ⟨d, hd, hc⟩
    · exact ⟨d, hd, hc⟩
  | resume t => exact absurd rfl (hb t)
  | addCallback cb => exact add _ (by simp)

theorem quiet_act {me : Tid} {ts : List Tid} {log0 : List Notify.Ev} {s : St} (h : Quiet log0 s) (a : Act)
    (hgo : ∀ t, a ≠ .letGo t) (hfire : a = .fire → s.timer = .none ∨ s.disposed = true) :
    Quiet log0 (act me ts s a) := by
  obtain ⟨hh, hc, ht, ho, hl⟩ := h
  have hup : ∀ t u, upd s.held t true u = true := fun t u => upd_true (hh u)
  cases a with
  | fire =>
    simp only [act]
    split
    · rename_i h'
      have : s.disposed = true := by
        rcases hfire rfl with e | e
        · rw [e] at h'; exact absurd h' (by simp)
        · exact e
      simp only [this, if_true]
      exact ⟨hh, hc, Or.inr rfl, ho, hl⟩
    · exact ⟨hh, hc, ht, ho, hl⟩
  | callback =>
    rcases ht with ht | ht <;> simp only [act, ht] <;> exact ⟨hh, hc, by simp [ht], ho, hl⟩
  | finish =>
    simp only [act]; split
    · exact ⟨hh, hc, ht, ho, hl⟩
    · exact ⟨hh, hc, ht, ho, hl⟩
  | own =>
    simp only [act]
    split
    · simp only [hc, Bool.false_eq_true, if_false]; exact ⟨hh, rfl, ht, ho, hl⟩
    · split <;> exact ⟨hh, hc, ht, ho, hl⟩
    · exact ⟨hup me, hc, ht, ho, hl⟩
    · exact ⟨hh, hc, ht, ho, quiet_log hl _ (by simp)⟩
    · rename_i u todo _
      refine ⟨fun t => ?_, hc, ht, ho, hl⟩
      simp only
      split
      · exact hh t
      · exact hup u t
    · exact ⟨hh, hc, ht, ho, hl⟩
    · exact ⟨hh, hc, ht, ho, quiet_log hl _ (by simp)⟩
    · exact ⟨hh, hc, ht, ho, hl⟩
  | incr => exact ⟨hh, hc, ht, ho, quiet_log hl _ (by simp)⟩
  | hit t =>
    simp only [act]; split
    · exact ⟨hup t, hc, ht, ho, hl⟩
    · exact ⟨hh, hc, ht, ho, hl⟩
  | hitStep =>
    simp only [act]; split
    · rename_i t u todo _
      refine ⟨fun x => ?_, hc, ht, ho, hl⟩
      simp only
      split
      · exact hh x
      · exact hup u x
    · exact ⟨hh, hc, ht, ho, hl⟩
    · exact ⟨hh, hc, ht, ho, hl⟩
  | enter t r =>
    simp only [act]; split
    · exact ⟨hh, hc, ht, ho, quiet_log hl _ (by simp)⟩
    · exact ⟨hh, hc, ht, ho, hl⟩
  | wake t =>
    simp only [act, hh t]; simp only [Bool.true_eq_false, and_false, if_false]
    exact ⟨hh, hc, ht, ho, hl⟩
  | leave t =>
    simp only [act, ho]; simp only [List.not_mem_nil, if_false]
    exact ⟨hh, hc, ht, ho, hl⟩
  | letGo t => exact absurd rfl (hgo t)

/-- What makes the callback impossible lasts. -/
theorem disposed_stays (me : Tid) (ts : List Tid) (s : St) (a : Act)
    (h : s.timer = .none ∨ s.disposed = true) :
    (act me ts s a).timer = .none ∨ (act me ts s a).disposed = true := by
  cases a with
  | fire => simp only [act]; split <;> (try split) <;> simp_all
  | callback => simp only [act]; split <;> simp_all
  | finish => simp only [act]; split <;> simp_all
  | own => simp only [act]; split <;> (try split) <;> simp_all
  | incr => exact h
  | hit t => simp only [act]; split <;> simp_all
  | hitStep => simp only [act]; split <;> simp_all
  | enter t r => simp only [act]; split <;> simp_all
  | wake t => simp only [act]; split <;> simp_all
  | leave t => simp only [act]; split <;> simp_all
  | letGo t => exact h

theorem quiet_run {me : Tid} {ts : List Tid} {log0 : List Notify.Ev} (acts : List Act) :
    ∀ {s : St}, Quiet log0 s → (∀ t, .letGo t ∉ acts) → (s.timer = .none ∨ s.disposed = true) →
      Quiet log0 (run me ts s acts) := by
  induction acts with
  | nil => intro s h _ _; exact h
  | cons a acts ih =>
    intro s h hgo hd
    exact ih (quiet_act h a (fun t e => hgo t (by simp [e])) (fun _ => hd))
      (fun t ht => hgo t (by simp [ht])) (disposed_stays me ts s a hd)

theorem quiet_pre {me : Tid} {ts : List Tid} {log0 : List Notify.Ev} (acts : List Act) :
    ∀ {s : St}, Quiet log0 s → (∀ t, .letGo t ∉ acts) → .fire ∉ acts → Quiet log0 (run me ts s acts) := by
  induction acts with
  | nil => intro s h _ _; exact h
  | cons a acts ih =>
    intro s h hgo hf
    exact ih (quiet_act h a (fun t e => hgo t (by simp [e])) (fun e => absurd (by simp [e]) hf))
      (fun t ht => hgo t (by simp [ht])) (fun ht => hf (by simp [ht]))

theorem quiet_start (single : Bool) (timeout : Int) (n : Notify.State) :
    Quiet n.log (start single timeout n) := by
  refine ⟨fun _ => rfl, rfl, ?_, rfl, [], by simp [start], by simp⟩
  simp only [start]; split <;> simp

theorem pc_evaluating (me : Tid) (ts : List Tid) (acts : List Act) : ∀ (s : St), .finish ∉ acts →
    s.pc = .evaluating → (run me ts s acts).pc = .evaluating := by
  induction acts with
  | nil => intro s _ h; exact h
  | cons a acts ih =>
    intro s hf h
    apply ih _ (fun h => hf (by simp [h]))
    cases a with
    | finish => simp at hf
    | fire => simp only [act]; split <;> (try split) <;> exact h
    | callback => simp only [act]; split <;> exact h
    | own => simp only [act, h]
    | incr => exact h
    | hit t => simp only [act]; split <;> exact h
    | hitStep => simp only [act]; split <;> exact h
    | enter t r => simp only [act]; split <;> exact h
    | wake t => simp only [act]; split <;> exact h
    | leave t => simp only [act]; split <;> exact h
    | letGo t => exact h

/-- **C110, a quick evaluation.** If the evaluation ends before its timeout is noticed, and the client
lets no thread go, then all threads stay held and the client is told of no continuation, whatever
happens before and after the end. -/
theorem c110_quick (me : Tid) (ts : List Tid) (single : Bool) (timeout : Int) (n : Notify.State)
    (pre post : List Act) (hfire : .fire ∉ pre) (hfin : .finish ∉ pre)
    (hgo : ∀ t, .letGo t ∉ pre ++ .finish :: post) :
    let s := run me ts (start single timeout n) (pre ++ .finish :: post)
    (∀ t, s.held t = true) ∧ ∃ d, s.n.log = n.log ++ d ∧ ∀ t, Notify.Ev.cont t ∉ d := by
  rw [run_append, run_cons]
  have h1 : Quiet n.log (run me ts (start single timeout n) pre) :=
    quiet_pre pre (quiet_start single timeout n) (fun t h => hgo t (by simp [h])) hfire
  have hpc := pc_evaluating me ts pre (start single timeout n) hfin rfl
  have h2 := quiet_act (me := me) (ts := ts) h1 .finish (by simp) (by simp)
  have h3 := quiet_run (me := me) (ts := ts) post h2 (fun t h => hgo t (by simp [h]))
    (Or.inr (by simp [act, hpc]))
  exact ⟨h3.held, h3.log⟩

/-- **C110, only when asked for.** With threads told of one by one, or with a negative timeout, an
evaluation lets no thread go, however long it takes. -/
theorem c110_off (me : Tid) (ts : List Tid) (single : Bool) (timeout : Int) (n : Notify.State)
    (hoff : single = false ∨ timeout < 0) (acts : List Act) (hgo : ∀ t, .letGo t ∉ acts) :
    let s := run me ts (start single timeout n) acts
    (∀ t, s.held t = true) ∧ ∃ d, s.n.log = n.log ++ d ∧ ∀ t, Notify.Ev.cont t ∉ d := by
  have hu : unblocks single timeout = false := by
    simp only [unblocks, decide_eq_false_iff_not]
    rcases hoff with rfl | h
    · simp
    · split <;> omega
  have h := quiet_run (me := me) (ts := ts) acts (quiet_start single timeout n) hgo
    (Or.inl (by simp [start, hu]))
  exact ⟨h.held, h.log⟩

/-! ### Letting go -/

/-- While the callback runs and nobody else stops. -/
structure Going (me : Tid) (ts : List Tid) (s : St) : Prop where
  pc : s.pc = .evaluating
  heldMe : s.held me = true
  busy : s.busy = Option.none
  inMap : s.timer ≠ .over → me ∈ s.n.suspended
  out : me ∉ s.out
  ninv : Notify.Inv s.n
  phase : match s.timer with
    | .resuming todo => ∀ t ∈ ts, t = me ∨ t ∈ todo ∨ s.held t = false
    | .telling => ∀ t ∈ ts, t = me ∨ s.held t = false
    | .over => ∀ t ∈ ts, t = me ∨ s.held t = false
    | _ => True

/-- What the others do which is not a stop. -/
def calm (me : Tid) : Act → Prop
  | .hit _ | .finish => False
  | .letGo t => t ≠ me
  | _ => True

theorem upd_false {f : Tid → Bool} {t u : Tid} (h : f u = false) : upd f t false u = false := by
  simp only [upd]; split <;> simp [h]

theorem mem_insert {l : List Tid} {t u : Tid} (h : t ∈ l) : t ∈ Notify.insert l u := by
  unfold Notify.insert; split
  · exact h
  · exact List.mem_append_left _ h

theorem suspended_keep {n : Notify.State} {me : Tid} (h : me ∈ n.suspended) (b : Notify.Action)
    (hb : b ≠ .resume me) : me ∈ (Notify.step noRaise n b).suspended := by
  cases b with
  | increment => exact h
  | pause => exact h
  | timeout g => simp only [Notify.step]; split <;> (try split) <;> (try split) <;> exact h
  | suspend t r => simp only [Notify.step]; split <;> (try split) <;> exact mem_insert h
  | resume t =>
    have ht : me ≠ t := fun e => hb (by rw [e])
    simp only [Notify.step]
    split
    · split <;> exact (List.mem_erase_of_ne ht).2 h
    · exact h
  | addCallback cb => exact h

theorem going_act {me : Tid} {ts : List Tid} {s : St} (h : Going me ts s) (a : Act) (hc : calm me a) :
    Going me ts (act me ts s a) := by
  have hn' := inv_act (me := me) (ts := ts) h.ninv a
  have h0 := h
  obtain ⟨hpc, hme, hb, hin, ho, hn, hp⟩ := h
  cases a with
  | hit t => exact absurd hc id
  | finish => exact absurd hc id
  | fire =>
    simp only [act]
    split
    · rename_i ht
      split
      · exact ⟨hpc, hme, hb, fun _ => hin (by simp [ht]), ho, hn, by simp⟩
      · exact ⟨hpc, hme, hb, fun _ => hin (by simp [ht]), ho, hn, by simp⟩
    · exact h0
  | callback =>
    cases ht : s.timer with
    | armed => simpa [act, ht] using h0
    | none => simpa [act, ht] using h0
    | over => simpa [act, ht] using h0
    | entered =>
      simp only [act, ht]
      exact ⟨hpc, hme, hb, fun _ => hin (by simp [ht]), ho, hn, fun t h => Or.inr (Or.inl h)⟩
    | telling =>
      simp only [act, ht] at hn' ⊢
      rw [ht] at hp
      exact ⟨hpc, hme, hb, by simp, ho, hn', hp⟩
    | resuming todo =>
      rw [ht] at hp
      simp only at hp
      cases todo with
      | nil =>
        simp only [act, ht]
        refine ⟨hpc, hme, hb, fun _ => hin (by simp [ht]), ho, hn, fun t h => ?_⟩
        simpa using hp t h
      | cons u todo =>
        simp only [act, ht]
        refine ⟨hpc, ?_, hb, fun _ => hin (by simp [ht]), ho, hn, fun t h => ?_⟩
        · simp only; split
          · exact hme
          · rename_i hu
            simp only [upd]
            rw [if_neg (fun e => hu e.symm)]; exact hme
        · simp only
          rcases hp t h with h | h | h
          · exact Or.inl h
          · rcases List.mem_cons.1 h with rfl | h
            · by_cases e : t = me
              · exact Or.inl e
              · exact Or.inr (Or.inr (by rw [if_neg e]; exact upd_self))
            · exact Or.inr (Or.inl h)
          · right; right; split
            · exact h
            · exact upd_false h
  | own => simpa [act, hpc] using h0
  | incr => exact ⟨hpc, hme, hb, fun h => suspended_keep (hin h) _ (by simp), ho, hn', hp⟩
  | hitStep => simpa [act, hb] using h0
  | enter t r =>
    simp only [act] at hn' ⊢
    split
    · rename_i ht
      rw [if_pos ht] at hn'
      exact ⟨hpc, hme, hb, fun h => suspended_keep (hin h) _ (by simp), ho, hn', hp⟩
    · exact h0
  | wake t =>
    simp only [act]
    split
    · rename_i ht
      refine ⟨hpc, hme, hb, hin, ?_, hn, hp⟩
      simp only [List.mem_cons, not_or]
      exact ⟨fun e => ht.1 e.symm, ho⟩
    · exact h0
  | leave t =>
    simp only [act] at hn' ⊢
    split
    · rename_i ht
      rw [if_pos ht] at hn'
      refine ⟨hpc, hme, hb, fun h => suspended_keep (hin h) _ ?_, fun h => ho (List.mem_of_mem_erase h), hn',
        hp⟩
      intro e
      injection e with e
      exact ho (e ▸ ht)
    · exact h0
  | letGo t =>
    simp only [act]
    refine ⟨hpc, ?_, hb, hin, ho, hn, ?_⟩
    · simp only [upd]; rw [if_neg (fun e => hc e.symm)]; exact hme
    · cases ht : s.timer <;> simp only [ht] at hp ⊢
      · exact fun t h => (hp t h).imp id (Or.imp id upd_false)
      · exact fun t h => (hp t h).imp id upd_false
      · exact fun t h => (hp t h).imp id upd_false

theorem going_run {me : Tid} {ts : List Tid} (acts : List Act) : ∀ {s : St}, Going me ts s →
    (∀ a ∈ acts, calm me a) → Going me ts (run me ts s acts) := by
  induction acts with
  | nil => intro s h _; exact h
  | cons a acts ih =>
    intro s h hc
    exact ih (going_act h a (hc a (by simp))) (fun b hb => hc b (by simp [hb]))

/-- **C110, the others are let go.** When the callback has returned and nobody stopped meanwhile, every
other thread runs and the evaluating one does not. -/
theorem c110_lets_go (me : Tid) (ts : List Tid) (single : Bool) (timeout : Int)
    (before : List Notify.Action) (hme : me ∈ (Notify.run noRaise Notify.start before).suspended)
    (acts : List Act) (hcalm : ∀ a ∈ acts, calm me a)
    (hover : (run me ts (start single timeout (Notify.run noRaise Notify.start before)) acts).timer = .over) :
    let s := run me ts (start single timeout (Notify.run noRaise Notify.start before)) acts
    s.held me = true ∧ ∀ t ∈ ts, t ≠ me → s.held t = false := by
  have h0 : Going me ts (start single timeout (Notify.run noRaise Notify.start before)) := by
    refine ⟨rfl, rfl, rfl, fun _ => hme, by simp [start],
      Notify.inv_run noRaise Notify.inv_start before, ?_⟩
    simp only [start]; cases unblocks single timeout <;> simp
  have h := going_run acts h0 hcalm
  have hp := h.phase
  rw [hover] at hp
  exact ⟨h.heldMe, fun t ht hne => (hp t ht).resolve_left hne⟩

/-- **C110, the client is told that they run.** With the last step of the callback the client, if it took
the threads to be stopped, is told that they continue. -/
theorem c110_told_running (me : Tid) (ts : List Tid) (single : Bool) (timeout : Int)
    (before : List Notify.Action) (hme : me ∈ (Notify.run noRaise Notify.start before).suspended)
    (acts : List Act) (hcalm : ∀ a ∈ acts, calm me a)
    (htell : (run me ts (start single timeout (Notify.run noRaise Notify.start before)) acts).timer = .telling) :
    let s := run me ts (start single timeout (Notify.run noRaise Notify.start before)) acts
    let s' := act me ts s .callback
    clientStopped s'.n.log = false ∧
    (clientStopped s.n.log = true → .cont me ∈ s'.n.log.drop s.n.log.length) := by
  have h0 : Going me ts (start single timeout (Notify.run noRaise Notify.start before)) := by
    refine ⟨rfl, rfl, rfl, fun _ => hme, by simp [start],
      Notify.inv_run noRaise Notify.inv_start before, ?_⟩
    simp only [start]; cases unblocks single timeout <;> simp
  have h := going_run acts h0 hcalm
  generalize run me ts (start single timeout (Notify.run noRaise Notify.start before)) acts = s at *
  have hin := h.inMap (by simp [htell])
  have hi := h.ninv
  simp only [act, htell, Notify.step, hin, if_true]
  constructor
  · split
    · simp only
      rw [List.append_cons, Notify.clientStopped_calls]; simp [clientStopped]
    · rename_i hlt
      cases hc : clientStopped s.n.log with
      | false => rfl
      | true => exact absurd (hi.stopped.1 hc) hlt
  · intro hc
    have := hi.stopped.1 hc
    simp [this]

theorem callback_resuming (me : Tid) (ts : List Tid) : ∀ (todo : List Tid) (s : St),
    s.timer = .resuming todo →
    (run me ts s (List.replicate (todo.length + 2) .callback)).timer = .over := by
  intro todo
  induction todo with
  | nil => intro s h; simp [List.replicate, run, act, h]
  | cons u todo ih =>
    intro s h
    rw [List.length_cons, Nat.add_right_comm, List.replicate_succ, run_cons]
    exact ih _ (by simp [act, h])

theorem armed_run (me : Tid) (ts : List Tid) (acts : List Act) : ∀ (s : St), s.timer = .armed →
    s.disposed = false → .fire ∉ acts → .finish ∉ acts →
    (run me ts s acts).timer = .armed ∧ (run me ts s acts).disposed = false := by
  induction acts with
  | nil => intro s h1 h2 _ _; exact ⟨h1, h2⟩
  | cons a acts ih =>
    intro s h1 h2 hf hn
    suffices h : (act me ts s a).timer = .armed ∧ (act me ts s a).disposed = false from
      ih _ h.1 h.2 (fun h => hf (by simp [h])) (fun h => hn (by simp [h]))
    cases a with
    | fire => simp at hf
    | finish => simp at hn
    | callback => simp [act, h1, h2]
    | own => simp only [act]; split <;> (try split) <;> exact ⟨h1, h2⟩
    | incr => exact ⟨h1, h2⟩
    | hit t => simp only [act]; split <;> exact ⟨h1, h2⟩
    | hitStep => simp only [act]; split <;> exact ⟨h1, h2⟩
    | enter t r => simp only [act]; split <;> exact ⟨h1, h2⟩
    | wake t => simp only [act]; split <;> exact ⟨h1, h2⟩
    | leave t => simp only [act]; split <;> exact ⟨h1, h2⟩
    | letGo t => exact ⟨h1, h2⟩

/-- **C110, when asked for.** With one notification for all threads and a timeout which is not negative, the
callback of an evaluation which is found to be too slow runs to its end, whoever is held. -/
theorem c110_on (me : Tid) (ts : List Tid) (single : Bool) (timeout : Int) (n : Notify.State)
    (hs : single = true) (ht : 0 ≤ timeout) (pre : List Act) (hf : .fire ∉ pre) (hn : .finish ∉ pre) :
    (run me ts (start single timeout n)
      (pre ++ .fire :: .callback :: List.replicate (ts.length + 2) .callback)).timer = .over := by
  have h := armed_run me ts pre (start single timeout n)
    (by simp [start, unblocks, hs, ht]) rfl hf hn
  rw [run_append, run_cons, run_cons]
  apply callback_resuming
  simp [act, h.1, h.2]

/-! ### The evaluation returns -/

def hitSteps : Option (Tid × List Tid) → Nat
  | some (_, todo) => todo.length + 1
  | Option.none => 0

theorem free_lock (me : Tid) (ts : List Tid) : ∀ (k : Nat) (s : St), hitSteps s.busy = k →
    (run me ts s (List.replicate k .hitStep)).busy = Option.none ∧
    (run me ts s (List.replicate k .hitStep)).pc = s.pc ∧
    (run me ts s (List.replicate k .hitStep)).called = s.called := by
  intro k
  induction k with
  | zero =>
    intro s h
    cases hb : s.busy with
    | none => exact ⟨hb, rfl, rfl⟩
    | some p => rw [hb] at h; simp [hitSteps] at h
  | succ k ih =>
    intro s h
    cases hb : s.busy with
    | none => rw [hb] at h; simp [hitSteps] at h
    | some p =>
      obtain ⟨t, todo⟩ := p
      rw [List.replicate_succ, run_cons]
      rw [hb] at h
      cases todo with
      | nil =>
        have := ih (act me ts s .hitStep) (by simp [act, hb, hitSteps] at h ⊢; omega)
        simpa [act, hb] using this
      | cons u todo =>
        have := ih (act me ts s .hitStep) (by simp [act, hb, hitSteps] at h ⊢; omega)
        simpa [act, hb] using this

theorem own_suspending (me : Tid) (ts : List Tid) : ∀ (todo : List Tid) (s : St), s.pc = .suspending todo →
    (run me ts s (List.replicate (todo.length + 2) .own)).pc = .done := by
  intro todo
  induction todo with
  | nil => intro s h; simp [List.replicate, run, act, h]
  | cons u todo ih =>
    intro s h
    rw [List.length_cons, Nat.add_right_comm, List.replicate_succ, run_cons]
    exact ih _ (by simp [act, h])

/-- **C110, it returns.** From every moment after the end of the evaluation the evaluating thread and the
one which owns the lock, if any, can bring it to an end by themselves: nobody waits for a thread which is
held. -/
theorem c110_returns (me : Tid) (ts : List Tid) (s : St) (h : s.pc = .check) :
    ∃ acts : List Act, (∀ a ∈ acts, a = .own ∨ a = .hitStep) ∧ (run me ts s acts).pc = .done := by
  have hmem : ∀ (j k : Nat) (a : Act), a ∈ List.replicate j Act.hitStep ++ List.replicate k Act.own →
      a = .own ∨ a = .hitStep := by
    intro j k a ha
    rcases List.mem_append.1 ha with ha | ha
    · exact Or.inr (List.eq_of_mem_replicate ha)
    · exact Or.inl (List.eq_of_mem_replicate ha)
  cases hc : s.called with
  | false => exact ⟨[.own], by simp, by simp [run, act, h, hc]⟩
  | true =>
    obtain ⟨h1, h2, h3⟩ := free_lock me ts (hitSteps s.busy) s rfl
    refine ⟨List.replicate (hitSteps s.busy) .hitStep ++ List.replicate (4 + (ts.length + 2)) .own,
      hmem _ _, ?_⟩
    rw [run_append, ← List.replicate_append_replicate, run_append]
    rw [h] at h2
    rw [hc] at h3
    generalize run me ts s (List.replicate (hitSteps s.busy) .hitStep) = s1 at *
    apply own_suspending
    simp [List.replicate, run, act, h1, h2, h3]

/-! ### What goes wrong -/

/-- Two threads, 0 evaluates; it stopped at a breakpoint and the other one was stopped with it. -/
def stopped2 : Notify.State :=
  Notify.run noRaise Notify.start [.increment, .suspend 0 setBreak, .suspend 1 .threadSuspend]

def begin2 : St := start true 1 stopped2

/-- A slow evaluation in order: the other thread is let go, leaves, is held again and enters. -/
def slow2 : List Act :=
  [.fire, .callback, .callback, .callback, .callback, .callback, .wake 1, .leave 1]

/-- The hypotheses of `c110_held_again`, `c110_lets_go` are met, and the client sees stop, continue,
stop. -/
example :
    (run 0 [0, 1] begin2 slow2).timer = .over ∧ (run 0 [0, 1] begin2 slow2).pc = .evaluating ∧
    (run 0 [0, 1] begin2 slow2).held 1 = false ∧ (∀ a ∈ slow2, calm 0 a) ∧
    (run 0 [0, 1] begin2 (slow2 ++ .finish :: List.replicate 8 .own)).pc = .done ∧
    (run 0 [0, 1] begin2 (slow2 ++ .finish :: List.replicate 8 .own)).held 1 = true ∧
    (run 0 [0, 1] begin2 (slow2 ++ .finish :: List.replicate 8 .own)).n.log =
      [.stop 1 0 setBreak, .cont 0, .stop 2 0 setBreak] := by
  refine ⟨by decide, by decide, by decide, ?_, by decide, by decide, by decide⟩
  intro a ha
  simp only [slow2, List.mem_cons, List.not_mem_nil, or_false] at ha
  rcases ha with rfl | rfl | rfl | rfl | rfl | rfl | rfl | rfl <;> simp [calm]

/-- **The callback is not waited for (1).** If the evaluation ends when the callback was called but did not
set its flag, the threads are let go after the end: the evaluation returned, the client is told that all
threads continue, the other thread runs, and the one which evaluated stays where it is. -/
theorem c110_late_callback_witness :
    let s := run 0 [0, 1] begin2
      [.fire, .finish, .own, .callback, .callback, .callback, .callback, .callback]
    s.pc = .done ∧ s.held 0 = true ∧ s.held 1 = false ∧ clientStopped s.n.log = false := by
  decide

/-- **The callback is not waited for (2).** If the evaluation ends just after the callback set its flag, the
threads are held again first and let go then. -/
theorem c110_overtaken_callback_witness :
    let s := run 0 [0, 1] begin2
      ([.fire, .callback, .finish] ++ List.replicate 8 .own ++ List.replicate 4 .callback)
    s.pc = .done ∧ s.held 0 = true ∧ s.held 1 = false ∧ clientStopped s.n.log = false := by
  decide

/-- **A thread which leaves late.** A thread which was let go and held again before it told that it left
tells the client, after the stop, that the threads continue; when it stops again nothing is told. -/
theorem c110_late_leave_witness :
    let s := run 0 [0, 1] begin2
      ([.fire, .callback, .callback, .callback, .callback, .callback, .wake 1, .finish] ++
        List.replicate 8 .own ++ [.leave 1, .enter 1 .threadSuspend])
    s.pc = .done ∧ s.held 0 = true ∧ s.held 1 = true ∧ clientStopped s.n.log = false := by
  decide

end EvalTimeout
