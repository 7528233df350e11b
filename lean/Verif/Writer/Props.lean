import Verif.Writer.Lemmas
/-! Property C04: outgoing messages. Schedules are arbitrary lists of actions of the writer and of any
number of other threads. -/

namespace Writer

/-- **C04, order.** In every execution what has been sent is an initial part of what was accepted, in
the order of acceptance (no reordering, no duplication, no invention). -/
theorem c04_fifo (as : List Action) : (run start as).sent <+: (run start as).accepted :=
  (inv_run inv_start as).pre

/-- **C04, at most once.** No message is sent more often than some thread asked for it. -/
theorem c04_at_most_once (as : List Action) (m : Msg) :
    (run start as).sent.count m ≤ (run start as).asked.count m := by
  have h := inv_run inv_start as
  have h1 := (List.IsPrefix.sublist h.pre).count_le m
  have h2 := h.counts m
  omega

/-- **C04, nothing after exit.** Whatever is sent after an exit message does not exist. -/
theorem c04_nothing_after_exit (as : List Action) (a b : List Msg) (m : Msg)
    (hs : (run start as).sent = a ++ m :: b) (hm : m.exit = true) : b = [] := by
  have h := inv_run inv_start as
  by_cases hp : (run start as).pc = .stoppedExit
  · obtain ⟨a', m', hs', _, hne⟩ := h.lastExit hp
    cases hb : b.reverse with
    | nil => simpa using hb
    | cons y ys =>
      have hb' : b = ys.reverse ++ [y] := by
        have := congrArg List.reverse hb; simpa using this
      rw [hs', hb'] at hs
      have : a' = a ++ m :: ys.reverse := by
        have h2 : a' ++ [m'] = (a ++ m :: ys.reverse) ++ [y] := by simpa using hs
        exact (List.append_inj' h2 rfl).1
      have := hne m (by simp [this])
      rw [hm] at this; cases this
  · have := h.noExit hp m (by simp [hs])
    rw [hm] at this; cases this

/-- **C04, completeness at exit.** When the writer stopped because it sent an exit message, it has
sent everything that was accepted before that exit message: the sent list is the accepted list up to
and including its first exit message. -/
theorem c04_complete_at_exit (as : List Action) (hp : (run start as).pc = .stoppedExit) :
    ∃ before e after, (run start as).accepted = before ++ e :: after ∧
      (∀ m ∈ before, m.exit = false) ∧ e.exit = true ∧
      (run start as).sent = before ++ [e] := by
  have h := inv_run inv_start as
  obtain ⟨a, m, hs, hm, hne⟩ := h.lastExit hp
  have hf := h.fifo (by rw [hp]; decide)
  rw [hs] at hf
  exact ⟨a, m, _, by simpa using hf.symm, hne, hm, hs⟩

/-- **C04, completeness otherwise.** When the writer stopped because the queue was empty and the kill
flag set, it has sent everything accepted up to the moment it saw the queue empty. -/
theorem c04_complete_at_empty (as : List Action) (hp : (run start as).pc = .stoppedEmpty) :
    (run start as).sent = (run start as).accepted.take (run start as).seenEmptyAt :=
  (inv_run inv_start as).seen (.inr hp)

/-- **C04, progress.** While the writer is running and sends do not fail, nothing accepted is missing:
it is sent or still queued in order; and after as many turns as there are queued messages before the
first exit message, all of them are sent. -/
theorem c04_progress (as : List Action) (before rest : List Msg)
    (hp : (run start as).pc = .waiting) (hq : (run start as).queue = before ++ rest)
    (hne : ∀ m ∈ before, m.exit = false) :
    (run start as).sent ++ before ++ rest = (run start as).accepted ∧
    (run start (as ++ List.replicate before.length .send)).sent = (run start as).sent ++ before := by
  have h := inv_run inv_start as
  refine ⟨?_, ?_⟩
  · have := h.fifo (by rw [hp]; decide)
    rw [hq] at this
    simpa using this
  · have := (drain (run start as) hp before rest hq hne).1
    simpa [run, List.foldl_append] using this

/-- **C04, nothing accepted after kill.** Once the kill flag is set, an `add_command` that starts later
has no effect: in every continuation, a message is accepted at most as often as it was accepted, or
already past the test, when the flag was set. -/
theorem c04_no_accept_after_kill (as bs : List Action) (m : Msg) (hk : (run start as).kill = true) :
    (run start (as ++ bs)).accepted.count m ≤
      (run start as).accepted.count m + (run start as).passed.count m := by
  have := killed_run hk bs m
  have e : run start (as ++ bs) = run (run start as) bs := by simp [run, List.foldl_append]
  rw [e]
  omega

/-- The stronger reading "every message accepted before the exit message is sent" is false of the
code: `Empty` is raised, then a message and the exit message are queued and the flag is set, and only
then the writer reads the flag (391-408) and returns. -/
theorem c04_lost_before_exit :
    ∃ as m e, m.exit = false ∧ e.exit = true ∧ (run start as).accepted = [m, e] ∧
      (run start as).sent = [] ∧ (run start as).pc = .stoppedEmpty ∧
      ∀ bs, (run start (as ++ bs)).sent = [] := by
  let m : Msg := ⟨1, false⟩
  let e : Msg := ⟨2, true⟩
  let as : List Action := [.getEmpty, .check m, .put m, .check e, .put e, .setKill, .readKill]
  refine ⟨as, m, e, rfl, rfl, by decide, by decide, by decide, ?_⟩
  have key : ∀ (bs : List Action) (s : State), s.pc = .stoppedEmpty → s.sent = [] →
      (run s bs).sent = [] := by
    intro bs
    induction bs with
    | nil => intro s _ h; exact h
    | cons b bs ih =>
      intro s hp hs
      refine ih _ ?_ ?_
      · cases b <;> simp only [step, hp] <;> (try split) <;> simp_all
      · cases b <;> simp only [step, hp] <;> (try split) <;> simp_all
  intro bs
  have e' : run start (as ++ bs) = run (run start as) bs := by simp [run, List.foldl_append]
  rw [e']
  exact key bs _ (by decide) (by decide)

/-- Non-vacuity: an execution that ends by sending exit, with a message queued behind it. -/
example :
    let m1 : Msg := ⟨1, false⟩
    let ex : Msg := ⟨2, true⟩
    let m3 : Msg := ⟨3, false⟩
    let s := run start [.check m1, .check ex, .put m1, .check m3, .send, .put ex, .put m3, .setKill, .send]
    s.pc = .stoppedExit ∧ s.sent = [m1, ex] ∧ s.accepted = [m1, ex, m3] := by decide

example : (run start [.getEmpty, .setKill, .readKill]).pc = .stoppedEmpty := by decide
example : let m : Msg := ⟨1, false⟩
    (run start [.check m, .put m]).pc = .waiting ∧ (run start [.check m, .put m]).queue = [m] ++ [] := by
  decide
example : (run start [.setKill]).kill = true := by decide

end Writer
