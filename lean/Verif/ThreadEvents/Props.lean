import Verif.ThreadEvents.Model
/-! Property C13: started/exited events alternate per thread id within a client session. -/

namespace ThreadEvents

namespace Spec

/-- Reading the events about thread id `id`: is a 'started' without 'exited' outstanding? `none` if the
rule was broken (two starts in a row, or an exit without a start). A new session starts afresh. -/
def track (id : Tid) : Option Bool → Ev → Option Bool
  | none, _ => none
  | some r, .started i => if i = id then (if r then none else some true) else some r
  | some r, .exited i => if i = id then (if r then some false else none) else some r
  | some _, .enabled => some false

/-- The events about `id` alternate started, exited, started, ... within every session. -/
def Alternates (id : Tid) (log : List Ev) : Prop := log.foldl (track id) (some false) ≠ none

end Spec

open Spec

def ids (s : State) : List Tid := s.running.map (·.1)

/-- Decisions follow the automaton, whose state says whether the id is in `_running_thread_ids`. -/
structure Inv (s : State) : Prop where
  auto : ∀ id, s.decided.foldl (track id) (some false) = some ((ids s).contains id)

theorem inv_created {s : State} (h : Inv s) (id : Tid) (t : Thread) : Inv (decideCreated s id t).1 := by
  unfold decideCreated
  split
  · exact h
  · split
    · exact h
    · rename_i hn
      split
      · exact h
      · constructor
        intro i
        simp only [List.foldl_append, h.auto i, List.foldl_cons, List.foldl_nil, track, ids,
          List.map_append, List.map_cons, List.map_nil]
        by_cases hi : id = i
        · subst hi
          simp at hn
          simp [hn]
        · simp [hi, Ne.symm hi]

theorem inv_notAlive {s : State} (h : Inv s) (id : Tid) : Inv (decideNotAlive s id).1 := by
  unfold decideNotAlive
  split
  · exact h
  · split
    · exact h
    · rename_i i t hf
      have hm := List.mem_of_find?_eq_some hf
      have hi : (i == id) = true := by
        have := List.find?_some hf; exact this
      simp only [beq_iff_eq] at hi
      constructor
      intro j
      simp only [List.foldl_append, h.auto j, List.foldl_cons, List.foldl_nil, track, ids]
      by_cases hj : id = j
      · subst hj
        have hc : (s.running.map (·.1)).contains id = true := by
          simp only [List.contains_iff_mem, List.mem_map]
          exact ⟨_, hm, hi⟩
        have hn : ((s.running.filter (fun e => e.1 != id)).map (·.1)).contains id = false := by
          simp
        simp only [hc, hn, if_true]
      · simp only [hj, if_false, Option.some.injEq]
        rw [Bool.eq_iff_iff]
        simp only [List.contains_iff_mem, List.mem_map, List.mem_filter, bne_iff_ne, ne_eq]
        constructor
        · rintro ⟨e, he, rfl⟩; exact ⟨e, ⟨he, fun hc => hj hc.symm⟩, rfl⟩
        · rintro ⟨e, ⟨he, _⟩, rfl⟩; exact ⟨e, he, rfl⟩

theorem inv_congr {s s' : State} (h : Inv s) (hd : s'.decided = s.decided) (hr : s'.running = s.running) :
    Inv s' := by
  constructor; intro id; simp only [ids, hd, hr]; exact h.auto id

theorem inv_pollAlive {s : State} (h : Inv s) (l : List (Tid × Thread)) : Inv (pollAlive s l) := by
  induction l generalizing s with
  | nil => exact h
  | cons p l ih =>
    obtain ⟨id, t⟩ := p
    simp only [pollAlive]
    apply ih
    have := inv_created h id t
    split
    · exact inv_congr this rfl rfl
    · exact this

theorem inv_pollDead {s : State} (h : Inv s) (l : List Tid) : Inv (pollDead s l) := by
  induction l generalizing s with
  | nil => exact h
  | cons id l ih =>
    simp only [pollDead]
    apply ih
    have := inv_notAlive h id
    split
    · exact inv_congr this rfl rfl
    · exact this

theorem inv_step {s : State} (h : Inv s) (a : Action) : Inv (step s a) := by
  cases a with
  | created id t =>
    simp only [step]
    have := inv_created h id t
    split
    · exact inv_congr this rfl rfl
    · exact this
  | notAlive id =>
    simp only [step]
    have := inv_notAlive h id
    split
    · exact inv_congr this rfl rfl
    · exact this
  | emit e => simp only [step]; split
              · exact inv_congr h rfl rfl
              · exact h
  | poll alive => simp only [step]; exact inv_pollDead (inv_pollAlive h alive) _
  | enable b =>
    simp only [step]
    split
    · split
      · constructor
        intro id
        simp [List.foldl_append, h.auto id, track, ids]
      · exact inv_congr h rfl rfl
    · exact h

theorem inv_run {s : State} (h : Inv s) (as : List Action) : Inv (run s as) := by
  induction as generalizing s with
  | nil => exact h
  | cons a as ih => exact ih (inv_step h a)

theorem inv_start : Inv start := by constructor; simp [start, ids]

/-- **C13, decisions.** For every interleaving of polling, thread notifications and enabling/disabling,
the messages, in the order in which the debugger decides to send them, alternate for every thread id. -/
theorem c13_decided_alternate (as : List Action) (id : Tid) : Alternates id (run start as).decided := by
  simp [Alternates, (inv_run inv_start as).auto id]

/-! What reaches the client -/

theorem sent_decideCreated (s : State) (id : Tid) (t : Thread) :
    (decideCreated s id t).1.sent = s.sent ∧ (decideCreated s id t).1.inflight = s.inflight ∧
    (decideCreated s id t).1.decided =
      s.decided ++ (if (decideCreated s id t).2 then [.started id] else []) := by
  unfold decideCreated
  split
  · simp
  · split
    · simp
    · split <;> simp

theorem sent_decideNotAlive (s : State) (id : Tid) :
    (decideNotAlive s id).1.sent = s.sent ∧ (decideNotAlive s id).1.inflight = s.inflight ∧
    (decideNotAlive s id).1.decided =
      s.decided ++ (if (decideNotAlive s id).2 then [.exited id] else []) := by
  unfold decideNotAlive
  split
  · simp
  · split <;> simp

theorem count_pollAlive (e : Ev) (l : List (Tid × Thread)) (s : State)
    (h : s.sent.count e + s.inflight.count e = s.decided.count e) :
    (pollAlive s l).sent.count e + (pollAlive s l).inflight.count e = (pollAlive s l).decided.count e := by
  induction l generalizing s with
  | nil => exact h
  | cons p l ih =>
    obtain ⟨id, t⟩ := p
    simp only [pollAlive]
    apply ih
    obtain ⟨h1, h2, h3⟩ := sent_decideCreated s id t
    split <;> rename_i hb <;> simp only [hb] at h3 <;>
      simp only [h1, h2, h3, List.count_append, if_true, Bool.false_eq_true, if_false, List.count_nil] <;> omega

theorem count_pollDead (e : Ev) (l : List Tid) (s : State)
    (h : s.sent.count e + s.inflight.count e = s.decided.count e) :
    (pollDead s l).sent.count e + (pollDead s l).inflight.count e = (pollDead s l).decided.count e := by
  induction l generalizing s with
  | nil => exact h
  | cons id l ih =>
    simp only [pollDead]
    apply ih
    obtain ⟨h1, h2, h3⟩ := sent_decideNotAlive s id
    split <;> rename_i hb <;> simp only [hb] at h3 <;>
      simp only [h1, h2, h3, List.count_append, if_true, Bool.false_eq_true, if_false, List.count_nil] <;> omega

/-- **C13, nothing lost or invented.** Every message is sent exactly as often as it was decided, once the
threads that decided it have handed it over. -/
theorem c13_sent_once (as : List Action) (e : Ev) :
    (run start as).sent.count e + (run start as).inflight.count e = (run start as).decided.count e := by
  have key : ∀ (l : List Action) (s : State), s.sent.count e + s.inflight.count e = s.decided.count e →
      (run s l).sent.count e + (run s l).inflight.count e = (run s l).decided.count e := by
    intro l
    induction l with
    | nil => intro s h; exact h
    | cons a l ih =>
      intro s h
      refine ih _ ?_
      cases a with
      | created id t =>
        simp only [step]
        obtain ⟨h1, h2, h3⟩ := sent_decideCreated s id t
        split <;> rename_i hb <;> simp only [hb] at h3 <;>
          simp only [h1, h2, h3, List.count_append, if_true, Bool.false_eq_true, if_false, List.count_nil] <;> omega
      | notAlive id =>
        simp only [step]
        obtain ⟨h1, h2, h3⟩ := sent_decideNotAlive s id
        split <;> rename_i hb <;> simp only [hb] at h3 <;>
          simp only [h1, h2, h3, List.count_append, if_true, Bool.false_eq_true, if_false, List.count_nil] <;> omega
      | emit x =>
        simp only [step]
        split
        · rename_i hm
          simp only [List.count_append, List.count_erase, List.count_singleton]
          by_cases hx : x = e
          · subst hx
            have := List.count_pos_iff.2 hm
            simp only [beq_self_eq_true, if_true]; omega
          · simp only [beq_iff_eq, hx, if_false]
            omega
        · exact h
      | poll alive => simp only [step]; exact count_pollDead e _ _ (count_pollAlive e alive s h)
      | enable b =>
        simp only [step]
        split
        · split
          · simp only [List.count_append]; omega
          · exact h
        · exact h
  exact key as start (by simp [start])

/-- The operations of the program when each notification is handed over before the next decision. -/
inductive Op where
  | created (id : Tid) (t : Thread)
  | notAlive (id : Tid)
  | poll (alive : List (Tid × Thread))
  | enable (b : Bool)
deriving Repr

/-- Such an operation as a schedule. -/
def Op.atomic : Op → List Action
  | .created id t => [.created id t, .emit (.started id)]
  | .notAlive id => [.notAlive id, .emit (.exited id)]
  | .poll alive => [.poll alive]
  | .enable b => [.enable b]

theorem same_pollAlive (l : List (Tid × Thread)) (s : State) (h : s.sent = s.decided ∧ s.inflight = []) :
    (pollAlive s l).sent = (pollAlive s l).decided ∧ (pollAlive s l).inflight = [] := by
  induction l generalizing s with
  | nil => exact h
  | cons p l ih =>
    obtain ⟨id, t⟩ := p
    simp only [pollAlive]
    apply ih
    obtain ⟨h1, h2, h3⟩ := sent_decideCreated s id t
    split <;> rename_i hb <;> simp only [hb] at h3 <;> simp [h1, h2, h3, h.1, h.2]

theorem same_pollDead (l : List Tid) (s : State) (h : s.sent = s.decided ∧ s.inflight = []) :
    (pollDead s l).sent = (pollDead s l).decided ∧ (pollDead s l).inflight = [] := by
  induction l generalizing s with
  | nil => exact h
  | cons id l ih =>
    simp only [pollDead]
    apply ih
    obtain ⟨h1, h2, h3⟩ := sent_decideNotAlive s id
    split <;> rename_i hb <;> simp only [hb] at h3 <;> simp [h1, h2, h3, h.1, h.2]

/-- **C13, what the client sees**, when each notification reaches the writer before the next decision
is made (for instance when they come from polling): the events alternate for every thread id, within
each client session. *Missing for the full property*: two threads notifying at the same time, see
`c13_race`. -/
theorem c13_sent_alternate_partial (ops : List Op) (id : Tid) :
    Alternates id (run start (ops.flatMap Op.atomic)).sent := by
  have key : ∀ (l : List Op) (s : State), s.sent = s.decided ∧ s.inflight = [] →
      (run s (l.flatMap Op.atomic)).sent = (run s (l.flatMap Op.atomic)).decided ∧
      (run s (l.flatMap Op.atomic)).inflight = [] := by
    intro l
    induction l with
    | nil => intro s h; exact h
    | cons o l ih =>
      intro s h
      have e : run s ((o :: l).flatMap Op.atomic) = run (run s o.atomic) (l.flatMap Op.atomic) := by
        simp [run, List.foldl_append]
      rw [e]
      apply ih
      cases o with
      | created i t =>
        simp only [Op.atomic, run, List.foldl_cons, List.foldl_nil]
        obtain ⟨h1, h2, h3⟩ := sent_decideCreated s i t
        simp only [step]
        split <;> rename_i hb <;> simp only [hb] at h3 <;> simp [h1, h2, h3, h.1, h.2]
      | notAlive i =>
        simp only [Op.atomic, run, List.foldl_cons, List.foldl_nil]
        obtain ⟨h1, h2, h3⟩ := sent_decideNotAlive s i
        simp only [step]
        split <;> rename_i hb <;> simp only [hb] at h3 <;> simp [h1, h2, h3, h.1, h.2]
      | poll alive => exact same_pollDead _ _ (same_pollAlive alive s h)
      | enable b =>
        simp only [Op.atomic, run, List.foldl_cons, List.foldl_nil, step]
        split
        · split
          · simp [h.1, h.2]
          · exact h
        · exact h
  rw [(key ops start (by simp [start])).1]
  exact c13_decided_alternate _ id

/-- The full property fails: the creation of a thread is decided, before the message is handed over a
poll finds the thread dead, and the client gets 'exited' before 'started'. -/
theorem c13_race :
    let as := [Action.enable true, .created 5 1, .poll [], .emit (.started 5)]
    (run start as).sent = [.enabled, .exited 5, .started 5] ∧ ¬ Alternates 5 (run start as).sent := by
  refine ⟨by decide, ?_⟩
  simp [Alternates, show (run start [Action.enable true, .created 5 1, .poll [], .emit (.started 5)]).sent =
    [.enabled, .exited 5, .started 5] by decide, track]

/-- **C13, polling is complete.** After a poll with notifications on, an id is outstanding exactly if the
poll found it alive, except for threads whose exit had been announced already. -/
theorem c13_poll_tracks_alive (as : List Action) (alive : List (Tid × Thread)) (id : Tid)
    (h : id ∈ ids (run start (as ++ [.poll alive]))) (hen : (run start as).enabled = true) :
    id ∈ alive.map (·.1) := by
  have e : run start (as ++ [.poll alive]) = step (run start as) (.poll alive) := by
    simp [run, List.foldl_append]
  rw [e] at h
  simp only [step] at h
  have hen2 : ∀ (l : List (Tid × Thread)) (s : State), s.enabled = true → (pollAlive s l).enabled = true := by
    intro l
    induction l with
    | nil => intro s h; exact h
    | cons p l ih =>
      intro s h
      obtain ⟨i, t⟩ := p
      simp only [pollAlive]
      apply ih
      have : (decideCreated s i t).1.enabled = true := by
        unfold decideCreated; split
        · exact h
        · split
          · exact h
          · split <;> exact h
      split <;> exact this
  have hdead : ∀ (l : List Tid) (s : State), s.enabled = true → ∀ i ∈ ids (pollDead s l), i ∈ ids s ∧ i ∉ l := by
    intro l
    induction l with
    | nil => intro s _ i hi; exact ⟨hi, by simp⟩
    | cons j l ih =>
      intro s hs i hi
      simp only [pollDead] at hi
      have hs' : (decideNotAlive s j).1.enabled = true := by
        unfold decideNotAlive; split
        · exact hs
        · split <;> exact hs
      have hids : ∀ k ∈ ids (decideNotAlive s j).1, k ∈ ids s ∧ k ≠ j := by
        clear hi
        intro i hi
        unfold decideNotAlive at hi
        simp only [hs, Bool.not_true, Bool.false_eq_true, if_false] at hi
        split at hi
        · rename_i hf
          refine ⟨hi, ?_⟩
          rintro rfl
          simp only [ids, List.mem_map] at hi
          obtain ⟨x, hx, rfl⟩ := hi
          have := List.find?_eq_none.1 hf x hx
          simp at this
        · simp only [ids, List.mem_map, List.mem_filter, bne_iff_ne, ne_eq] at hi
          obtain ⟨x, ⟨hx, hne⟩, rfl⟩ := hi
          exact ⟨by simp only [ids, List.mem_map]; exact ⟨x, hx, rfl⟩, hne⟩
      have hi2 : i ∈ ids (decideNotAlive s j).1 ∧ i ∉ l := by
        split at hi
        · exact ih { (decideNotAlive s j).1 with sent := (decideNotAlive s j).1.sent ++ [.exited j] } hs' i hi
        · exact ih _ hs' i hi
      have := hids i hi2.1
      exact ⟨this.1, by simp [this.2, hi2.2]⟩
  have := hdead _ _ (hen2 alive _ hen) id h
  obtain ⟨h1, h2⟩ := this
  simp only [ids] at h1
  simp only [List.mem_filter, Bool.not_eq_true', not_and, Bool.not_eq_false] at h2
  have := h2 h1
  simpa [List.contains_iff_mem] using this

/-- Non-vacuity. -/
example :
    (run start ([Op.enable true, .created 5 1, .poll [(5, 1), (6, 2)], .notAlive 5, .created 5 1,
      .poll [(6, 2)], .created 5 9, .enable false, .enable true, .poll [(6, 2)]].flatMap Op.atomic)).sent =
    [.enabled, .started 5, .started 6, .exited 5, .started 5, .enabled, .started 6] := by decide

/-! Switching off, and threads that were told to have exited -/

theorem off_pollAlive {s : State} (h : s.enabled = false) (l : List (Tid × Thread)) : pollAlive s l = s := by
  induction l with
  | nil => rfl
  | cons p l ih => obtain ⟨id, t⟩ := p; simp [pollAlive, decideCreated, h, ih]

theorem off_pollDead {s : State} (h : s.enabled = false) (l : List Tid) : pollDead s l = s := by
  induction l with
  | nil => rfl
  | cons p l ih => simp [pollDead, decideNotAlive, h, ih]

/-- **C13, switched off.** After the client switches thread notifications off, no message is decided, whatever happens, until it switches
them on again; before it switches them on for the first time neither. -/
theorem c13_off (as bs : List Action) (h : as = [] ∨ ∃ pre, as = pre ++ [.enable false]) (hb : .enable true ∉ bs) :
    (run start (as ++ bs)).decided = (run start as).decided := by
  have h0 : (run start as).enabled = false := by
    rcases h with rfl | ⟨pre, rfl⟩
    · rfl
    · simp only [run, List.foldl_append, List.foldl_cons, List.foldl_nil]
      generalize List.foldl step start pre = s
      cases he : s.enabled <;> simp [step, he]
  have e : run start (as ++ bs) = run (run start as) bs := by simp [run, List.foldl_append]
  rw [e]
  clear e h
  generalize run start as = s at h0
  induction bs generalizing s with
  | nil => rfl
  | cons a bs ih =>
    have hs : (step s a).enabled = false ∧ (step s a).decided = s.decided := by
      cases a with
      | created id t => simp [step, decideCreated, h0]
      | notAlive id => simp [step, decideNotAlive, h0]
      | emit ev => simp only [step]; split <;> exact ⟨h0, rfl⟩
      | poll alive => simp [step, off_pollAlive h0, off_pollDead h0, h0]
      | enable b =>
        cases b with
        | true => simp at hb
        | false => simp [step, h0]
    show (run (step s a) bs).decided = s.decided
    rw [ih (fun hm => hb (List.mem_cons_of_mem _ hm)) _ hs.1, hs.2]

theorem kill_created {s : State} {u : Thread} (h : s.notifyKill u = true) (id : Tid) (t : Thread) : (decideCreated s id t).1.notifyKill u = true := by
  unfold decideCreated
  repeat' split
  all_goals exact h

theorem kill_notAlive {s : State} {u : Thread} (h : s.notifyKill u = true) (id : Tid) : (decideNotAlive s id).1.notifyKill u = true := by
  unfold decideNotAlive
  repeat' split
  all_goals first
    | exact h
    | (simp only; split <;> first | rfl | exact h)

theorem kill_pollAlive {s : State} {u : Thread} (h : s.notifyKill u = true) (l : List (Tid × Thread)) : (pollAlive s l).notifyKill u = true := by
  induction l generalizing s with
  | nil => exact h
  | cons p l ih =>
    obtain ⟨id, t⟩ := p
    simp only [pollAlive]
    apply ih
    split <;> exact kill_created h id t

theorem kill_pollDead {s : State} {u : Thread} (h : s.notifyKill u = true) (l : List Tid) : (pollDead s l).notifyKill u = true := by
  induction l generalizing s with
  | nil => exact h
  | cons p l ih =>
    simp only [pollDead]
    apply ih
    split <;> exact kill_notAlive h p

theorem kill_run {s : State} {u : Thread} (h : s.notifyKill u = true) (as : List Action) : (run s as).notifyKill u = true := by
  induction as generalizing s with
  | nil => exact h
  | cons a as ih =>
    refine ih (s := step s a) ?_
    cases a with
    | created id t => simp only [step]; split <;> exact kill_created h id t
    | notAlive id => simp only [step]; split <;> exact kill_notAlive h id
    | emit e => simp only [step]; split <;> exact h
    | poll alive => simp only [step]; exact kill_pollDead (kill_pollAlive h _) _
    | enable b => simp only [step]; repeat' split
                  all_goals exact h

/-- **C13, no return.** A thread the client was told to have exited is never told to have started again by the thread itself: not under another id,
and not in another session. -/
theorem c13_no_return (as bs : List Action) (id id' : Tid) (t : Thread) (hen : (run start as).enabled = true)
    (hr : (run start as).running.find? (fun e => e.1 == id) = some (id, t)) :
    (run start (as ++ [.notAlive id])).decided = (run start as).decided ++ [.exited id] ∧
    (run start (as ++ [.notAlive id] ++ bs ++ [.created id' t])).decided = (run start (as ++ [.notAlive id] ++ bs)).decided := by
  have e1 : run start (as ++ [.notAlive id]) = step (run start as) (.notAlive id) := by simp [run, List.foldl_append]
  have hk : (run start (as ++ [.notAlive id])).notifyKill t = true := by
    rw [e1]; simp [step, decideNotAlive, hen, hr]
  refine ⟨by rw [e1]; simp [step, decideNotAlive, hen, hr], ?_⟩
  have e2 : run start (as ++ [.notAlive id] ++ bs ++ [.created id' t]) = step (run start (as ++ [.notAlive id] ++ bs)) (.created id' t) := by
    simp [run, List.foldl_append]
  have e3 : run start (as ++ [.notAlive id] ++ bs) = run (run start (as ++ [.notAlive id])) bs := by simp [run, List.foldl_append]
  have hk' : (run start (as ++ [.notAlive id] ++ bs)).notifyKill t = true := by rw [e3]; exact kill_run hk bs
  rw [e2]
  generalize run start (as ++ [.notAlive id] ++ bs) = s at hk'
  simp only [step, decideCreated, hk', if_true]
  repeat' split
  all_goals first | rfl | (rename_i h; cases h)

/-- Concrete: thread 7 exits under id 3; asking again under id 4 says nothing. -/
theorem c13_no_return_example :
    (run start [.enable true, .created 3 7]).running.find? (fun e => e.1 == 3) = some (3, 7) ∧
    (run start [.enable true, .created 3 7, .notAlive 3, .created 4 7]).decided = [.enabled, .started 3, .exited 3] := by decide

end ThreadEvents
