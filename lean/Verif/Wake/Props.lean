import Verif.Wake.Model

/-!
# C68: a suspended thread hears of every command

First the wait of one thread; then which thread is woken when a thread's state is changed.
-/
namespace Wake

/-! ## The wait -/

theorem wrun_nil (w : W) : wrun w [] = w := rfl
theorem wrun_cons (w : W) (a : WAct) (as : List WAct) : wrun w (a :: as) = wrun (wstep w a) as := rfl

theorem order_step (w : W) (h : w.done ++ w.queue = w.posted) (a : WAct) :
    (wstep w a).done ++ (wstep w a).queue = (wstep w a).posted := by
  obtain ⟨pc, q, e, r, p, d, t⟩ := w
  cases a <;> simp only [wstep] at * <;> try exact h
  · rw [← h]; simp
  · cases pc <;> simp only <;> try exact h
    cases q
    · exact h
    · simpa using h

theorem order_run (as : List WAct) : ∀ w : W, w.done ++ w.queue = w.posted →
    (wrun w as).done ++ (wrun w as).queue = (wrun w as).posted := by
  induction as with
  | nil => exact fun _ h => h
  | cons a r ih => exact fun w h => ih _ (order_step w h a)

/-- **No command for a suspended thread is lost, done twice or overtaken**: the commands done,
followed by those in the queue, are those posted, in their order. -/
theorem c68_in_order (q : List Nat) (e : Bool) (as : List WAct) :
    (wrun (.start q e) as).done ++ (wrun (.start q e) as).queue = (wrun (.start q e) as).posted :=
  order_run as _ (by simp [W.start])

/-- How far a thread is from looking at its queue again: what it did since its last timeout. -/
private def slack (w : W) : Nat :=
  match w.pc with
  | .clear | .check | .get => 1
  | .wait | .left => 0

/-- While the command number `k` is not done, and the thread has not left, there were at most as
many timeouts since `t0` as commands done since `d0`, and one. -/
private def Late (k t0 d0 : Nat) (w : W) : Prop :=
  w.done.length ≤ k → w.pc ≠ .left → w.timeouts + d0 ≤ t0 + w.done.length + slack w

private theorem late_step (k t0 d0 : Nat) (w : W) (hk : k < w.posted.length)
    (ho : w.done ++ w.queue = w.posted) (h : Late k t0 d0 w) (a : WAct) :
    Late k t0 d0 (wstep w a) := by
  obtain ⟨pc, q, e, r, p, d, t⟩ := w
  simp only [Late] at *
  cases a <;> simp only [wstep] at * <;> try exact h
  cases pc <;> simp only [slack] at * <;> intro hd hl
  · have := h hd (by simp)
    cases r <;> simp at * <;> omega
  · cases q with
    | nil => simp only [List.append_nil] at ho; subst ho; simp at hd; omega
    | cons c rest =>
      simp only [List.length_append, List.length_cons, List.length_nil] at *
      have := h (by omega) (by simp)
      omega
  · have := h hd (by simp)
    cases e <;> simp at * <;> omega
  · have := h hd (by simp)
    omega
  · exact absurd rfl hl

private theorem posted_le (w : W) (a : WAct) : w.posted.length ≤ (wstep w a).posted.length := by
  obtain ⟨pc, q, e, r, p, d, t⟩ := w
  cases a <;> simp [wstep]
  cases pc <;> simp
  cases q <;> simp

private theorem late_run (k t0 d0 : Nat) (as : List WAct) : ∀ w : W, k < w.posted.length →
    w.done ++ w.queue = w.posted → Late k t0 d0 w → Late k t0 d0 (wrun w as) := by
  induction as with
  | nil => exact fun _ _ _ h => h
  | cons a r ih =>
    exact fun w hk ho h => ih _ (Nat.lt_of_lt_of_le hk (posted_le w a)) (order_step w ho a)
      (late_step k t0 d0 w hk ho h a)

/-- **Every command is done in time.** Take a thread which waits, in any state, and the command
which is number `k` of those posted to it. Whatever happens, the thread leaves the wait, or does the
command before its wait has run into its timeout more than `n + 1` times, where `n` is the number of
commands which were still before it in the queue — even if its event is never set. -/
theorem c68_in_time (q : List Nat) (e : Bool) (before later : List WAct) (n : Nat)
    (hn : n < (wrun (.start q e) before).queue.length) :
    let w := wrun (.start q e) before
    let w' := wrun w later
    w'.pc = .left ∨ w.done.length + n < w'.done.length ∨ w'.timeouts ≤ w.timeouts + n + 1 := by
  intro w w'
  have ho : w.done ++ w.queue = w.posted := c68_in_order q e before
  have hlen : w.posted.length = w.done.length + w.queue.length := by rw [← ho]; simp
  have hk : w.done.length + n < w.posted.length := by
    have : n < w.queue.length := hn
    omega
  by_cases hl : w'.pc = .left
  · exact Or.inl hl
  by_cases hd : w.done.length + n < w'.done.length
  · exact Or.inr (Or.inl hd)
  refine Or.inr (Or.inr ?_)
  have h := late_run (w.done.length + n) w.timeouts w.done.length later w hk ho
    (fun _ _ => by omega) (Nat.le_of_not_lt hd) hl
  have hs : slack w' ≤ 1 := by
    unfold slack
    split <;> omega
  have : w'.timeouts + w.done.length ≤ w.timeouts + w'.done.length + slack w' := h
  omega

/-- The next command is ready: it is at the head of the queue, and the thread will look at the queue
before it can run into a timeout. -/
private def Ready (w : W) : Prop := w.queue ≠ [] ∧ (w.pc = .wait → w.event = true)

/-- **The first command is done at once.** If there is a command in the queue and the event was set
after it was put there, the thread does it, or leaves, before its wait runs into another timeout. -/
theorem c68_first_at_once (w : W) (hq : w.queue ≠ []) (he : w.event = true) (later : List WAct) :
    let w' := wrun w later
    w'.pc = .left ∨ w.done.length < w'.done.length ∨ w'.timeouts = w.timeouts := by
  have key : ∀ as : List WAct, ∀ x : W,
      (x.pc = .left ∨ w.done.length < x.done.length ∨
        (Ready x ∧ w.done.length ≤ x.done.length ∧ x.timeouts = w.timeouts)) →
      ((wrun x as).pc = .left ∨ w.done.length < (wrun x as).done.length ∨
        (Ready (wrun x as) ∧ w.done.length ≤ (wrun x as).done.length ∧
          (wrun x as).timeouts = w.timeouts)) := by
    intro as
    induction as with
    | nil => exact fun _ h => h
    | cons a r ih =>
      intro x h
      refine ih (wstep x a) ?_
      obtain ⟨pc, q, e, rn, p, d, t⟩ := x
      simp only [Ready] at *
      cases a <;> simp only [wstep] at *
      · rcases h with h | h | ⟨⟨h1, h2⟩, h3⟩
        · exact Or.inl h
        · exact Or.inr (Or.inl h)
        · exact Or.inr (Or.inr ⟨⟨by simp, h2⟩, h3⟩)
      · exact h
      · rcases h with h | h | ⟨⟨h1, h2⟩, h3⟩
        · exact Or.inl h
        · exact Or.inr (Or.inl h)
        · exact Or.inr (Or.inr ⟨⟨h1, fun _ => trivial⟩, h3⟩)
      · cases pc <;> simp at * <;> try (cases q <;> simp at *) <;> try omega
        all_goals (cases e <;> cases rn <;> simp at * <;> try omega)
  have := key later w (Or.inr (Or.inr ⟨⟨hq, fun _ => he⟩, Nat.le_refl _, rfl⟩))
  rcases this with h | h | h
  · exact Or.inl h
  · exact Or.inr (Or.inl h)
  · exact Or.inr (Or.inr h.2.2)

/-- **A resumed thread leaves, and only then.** A thread whose state was set to running has left the
wait after five more of its steps, whatever else happens; and no thread leaves without that. -/
theorem c68_leaves (w : W) (hr : w.run = true) (later : List WAct) (h : 5 ≤ later.count .turn) :
    (wrun w later).pc = .left := by
  have key : ∀ as : List WAct, ∀ x : W, x.run = true →
      (match x.pc with | .get => 4 | .wait => 3 | .clear => 2 | .check => 1 | .left => 0)
        ≤ as.count .turn → (wrun x as).pc = .left := by
    intro as
    induction as with
    | nil =>
      intro x hx hc
      obtain ⟨pc, q, e, r, p, d, t⟩ := x
      cases pc <;> simp at hc ⊢
      rfl
    | cons a r ih =>
      intro x hx hc
      refine ih (wstep x a) ?_ ?_
      · obtain ⟨pc, q, e, r, p, d, t⟩ := x
        cases a <;> simp only [wstep] at * <;> try exact hx
        cases pc <;> simp only <;> try exact hx
        cases q <;> exact hx
      · obtain ⟨pc, q, e, r, p, d, t⟩ := x
        simp only at hx
        subst hx
        cases a <;> simp only [wstep] at * <;> try simpa using hc
        cases pc <;> simp at hc ⊢ <;> try omega
        cases q <;> simp <;> omega
  refine key later w hr ?_
  split <;> omega

theorem c68_leaves_only (q : List Nat) (e : Bool) (as : List WAct)
    (h : (wrun (.start q e) as).pc = .left) : .resume ∈ as := by
  have key : ∀ as : List WAct, ∀ x : W, (x.run = false ∧ x.pc ≠ .left) → .resume ∉ as →
      (wrun x as).pc ≠ .left := by
    intro as
    induction as with
    | nil => exact fun _ h _ => h.2
    | cons a r ih =>
      intro x hx hn
      simp only [List.mem_cons, not_or] at hn
      refine ih (wstep x a) ?_ hn.2
      obtain ⟨pc, q, e, r, p, d, t⟩ := x
      obtain ⟨h1, h2⟩ := hx
      simp only at h1 h2
      subst h1
      cases a <;> simp only [wstep] at * <;> try exact ⟨trivial, h2⟩
      · exact absurd trivial hn.1
      · cases pc <;> simp at * <;> try (cases q <;> simp)
  exact Decidable.byContradiction fun hn => key as (.start q e) ⟨rfl, by simp [W.start]⟩ hn h

private def budget : Pc → Nat
  | .get | .wait => 1
  | _ => 0

/-- **A resumed thread leaves in time.** From the moment its state is set to running, the thread's
wait runs into its timeout at most once more; and never, if its event is set after that moment. -/
theorem c68_leaves_in_time (w : W) (hr : w.run = true) (later : List WAct) :
    (wrun w later).timeouts ≤ w.timeouts + 1 ∧
      (w.event = true → (wrun w later).timeouts = w.timeouts) := by
  have key : ∀ as : List WAct, ∀ x : W, x.run = true →
      (wrun x as).timeouts ≤ x.timeouts + budget x.pc ∧
      (x.event = true → (wrun x as).timeouts = x.timeouts) := by
    intro as
    induction as with
    | nil => intro x _; exact ⟨Nat.le_add_right _ _, fun _ => rfl⟩
    | cons a r ih =>
      intro x hx
      rw [wrun_cons]
      obtain ⟨pc, q, e, rn, p, d, t⟩ := x
      simp only at hx
      subst hx
      rcases a with c | _ | _ | _
      · have := ih (wstep ⟨pc, q, e, true, p, d, t⟩ (.put c)) rfl
        exact this
      · have := ih (wstep ⟨pc, q, e, true, p, d, t⟩ .resume) rfl
        exact this
      · have := ih (wstep ⟨pc, q, e, true, p, d, t⟩ .signal) rfl
        exact ⟨this.1, fun _ => this.2 rfl⟩
      · cases pc
        · have := (ih (wstep ⟨.check, q, e, true, p, d, t⟩ .turn) rfl).1
          have h2 := (ih (wstep ⟨.check, q, e, true, p, d, t⟩ .turn) rfl).2
          simp [wstep, budget] at this h2 ⊢
          exact ⟨this, h2⟩
        · cases q with
          | nil =>
            have := ih (wstep ⟨.get, [], e, true, p, d, t⟩ .turn) rfl
            simpa [wstep, budget] using this
          | cons c q =>
            have := ih (wstep ⟨.get, c :: q, e, true, p, d, t⟩ .turn) rfl
            simpa [wstep, budget] using this
        · have := ih (wstep ⟨.wait, q, e, true, p, d, t⟩ .turn) rfl
          cases e
          · simp [wstep, budget] at this ⊢
            omega
          · simp [wstep, budget] at this ⊢
            omega
        · have := (ih (wstep ⟨.clear, q, e, true, p, d, t⟩ .turn) rfl).1
          simp [wstep, budget] at this ⊢
          have mono : ∀ as : List WAct, ∀ x : W, x.timeouts ≤ (wrun x as).timeouts := by
            intro as
            induction as with
            | nil => exact fun _ => Nat.le_refl _
            | cons a r ih =>
              intro x
              refine Nat.le_trans ?_ (ih (wstep x a))
              obtain ⟨pc, q, e, rn, p, d, t⟩ := x
              cases a <;> simp [wstep]
              cases pc <;> simp <;> try (cases q <;> simp)
              split <;> omega
          have m := mono r ⟨.check, q, false, true, p, d, t⟩
          simp at m
          omega
        · have := ih (wstep ⟨.left, q, e, true, p, d, t⟩ .turn) rfl
          simpa [wstep, budget] using this
  refine ⟨?_, (key later w hr).2⟩
  have := (key later w hr).1
  have hb : budget w.pc ≤ 1 := by cases w.pc <;> simp [budget]
  omega

/-- Three commands which come together: the third has to wait for a timeout, although its event was
set after it was put in the queue. The thread does one command in each round, and one round clears
the event for all. -/
theorem c68_burst_witness :
    let posts : List WAct := [.put 1, .signal, .put 2, .signal, .put 3, .signal]
    let w := wrun (.start [] false) (posts ++ List.replicate 7 .turn)
    w.done = [1, 2] ∧ w.queue = [3] ∧ w.timeouts = 1 := by decide

/-! ## Which thread is woken -/

/-- A thread not known to have ended: not killed, its object known; and if the object still exists, it is alive, has an ident and
is the one registered under it. -/
def NotEnded (i : Info) : Prop :=
  i.killed = false ∧ (i.thr = some .collected ∨ i.thr = some (.object true true true))

/-- A thread steps if it runs with a step command, or waits suspended. -/
def Stepping (i : Info) : Prop :=
  (i.suspended = false ∧ i.stepCmd = true) ∨ (i.suspended = true ∧ i.inWaitLoop = true)

theorem notEnded_iff (i : Info) : related i ≠ .none_ ↔ NotEnded i := by
  obtain ⟨k, t, a, b, c⟩ := i
  rcases t with _ | _ | ⟨al, hi, ac⟩
  · cases k <;> simp [related, NotEnded]
  · cases k <;> simp [related, NotEnded]
  · cases k <;> cases al <;> cases hi <;> cases ac <;> simp [related, NotEnded]

theorem stepping_iff (i : Info) : isStepping i = true ↔ Stepping i := by
  obtain ⟨k, t, a, b, c⟩ := i
  cases a <;> cases b <;> cases c <;> simp [isStepping, Stepping]

/-- **Who is stepping is known.** After a thread's state was changed and the bookkeeping updated, the threads known to step are
the registered threads not known to have ended that step. -/
theorem c68_stepping (s : State) (arg : Nat) (f g : List Nat) (h : Orders s f g) (i : Nat) :
    i ∈ (update s arg f g).stepping ↔ i ∈ s.all ∧ NotEnded (s.info i) ∧ Stepping (s.info i) := by
  obtain ⟨h1, h2⟩ := h
  show i ∈ g.filter _ ↔ _
  rw [List.mem_filter, h2.mem_iff, List.mem_filter, h1.mem_iff, stepping_iff, decide_eq_true_iff, notEnded_iff]
  exact and_assoc

/-- So `any_thread_stepping` answers whether there is one. -/
theorem c68_any_stepping (s : State) (arg : Nat) (f g : List Nat) (h : Orders s f g) :
    (update s arg f g).stepping ≠ [] ↔ ∃ i, i ∈ s.all ∧ NotEnded (s.info i) ∧ Stepping (s.info i) := by
  constructor
  · intro hne
    obtain ⟨i, hi⟩ := List.exists_mem_of_ne_nil _ hne
    exact ⟨i, (c68_stepping s arg f g h i).1 hi⟩
  · rintro ⟨i, hi⟩ hn
    have := (c68_stepping s arg f g h i).2 hi
    rw [hn] at this
    exact nomatch this

/-- A new thread is known to step at once if it does, a removed one is forgotten; other threads are not touched. -/
theorem c68_new_and_removed (s : State) (i j : Nat) :
    (j ∈ (apply s (.add i)).stepping ↔ j ∈ s.stepping ∨ (j = i ∧ Stepping (s.info i))) ∧
    (j ∈ (apply s (.add i)).all ↔ j ∈ s.all ∨ j = i) ∧
    (j ∈ (apply s (.remove i)).stepping ↔ j ∈ s.stepping ∧ j ≠ i) ∧
    (j ∈ (apply s (.remove i)).all ↔ j ∈ s.all ∧ j ≠ i) := by
  refine ⟨?_, ?_, by simp [apply], by simp [apply]⟩
  · simp only [apply, stepping_iff]
    split
    · rename_i h
      rw [List.mem_cons]
      constructor
      · rintro (rfl | h')
        · exact .inr ⟨rfl, (stepping_iff _).1 h.1⟩
        · exact .inl h'
      · rintro (h' | h')
        · exact .inr h'
        · exact .inl h'.1
    · rename_i h
      constructor
      · exact .inl
      · rintro (h' | ⟨rfl, h'⟩)
        · exact h'
        · exact Decidable.byContradiction fun hn => h ⟨(stepping_iff _).2 h', hn⟩
  · simp only [apply]
    split
    · rename_i h
      constructor
      · exact .inl
      · rintro (h' | rfl)
        · exact h'
        · exact h
    · rw [List.mem_cons, or_comm]

/-- An event that is set stays set until its own thread has waited for it. -/
theorem c68_event_kept (s : State) (i : Nat) (a : Act) (h : s.set i = true) :
    (apply s a).set i = true ↔ a ≠ .waited i := by
  cases a with
  | waited j =>
    by_cases hj : i = j
    · subst hj; simp [apply]
    · simp [apply, hj, h, Ne.symm hj]
  | update x f g => simp [apply, update, h]
  | add j => simp [apply, h]
  | remove j => simp [apply, h]
  | change j t => simp [apply, h]

/-- A thread which is registered stays so, whatever is done, until it is removed, or the bookkeeping
is updated when the thread was killed or has ended. -/
theorem c68_registered (s : State) (i : Nat) (hi : i ∈ s.all) (a : Act) (hp : Possible s a)
    (hr : a ≠ .remove i) (hu : ∀ x f g, a = .update x f g → NotEnded (s.info i)) :
    i ∈ (apply s a).all := by
  cases a with
  | add j =>
    simp only [apply]
    split
    · exact hi
    · exact List.mem_cons_of_mem _ hi
  | remove j =>
    simp only [apply, List.mem_filter]
    refine ⟨hi, ?_⟩
    simp only [decide_eq_true_eq]
    exact fun h => hr (by rw [h])
  | change j t => exact hi
  | update x f g =>
    have h := hp
    simp only [apply, update]
    rw [h.2.mem_iff, List.mem_filter, h.1.mem_iff]
    exact ⟨hi, by rw [decide_eq_true_iff, notEnded_iff]; exact hu x f g rfl⟩
  | waited j => exact hi

/-- **Whose event is set**: exactly that of the thread last in the second loop, whichever thread's
state was changed. -/
theorem c68_woken (s : State) (arg : Nat) (f g : List Nat) (last : Nat) (hl : g.getLast? = some last)
    (i : Nat) :
    (update s arg f g).set i = true ↔
      s.set i = true ∨ (i = last ∧ hasObject (s.info last) = true) := by
  simp only [update, loopVar, hl, Option.getD_some]
  split
  · rename_i h
    obtain ⟨rfl, h⟩ := h
    simp [h]
  · rename_i h
    constructor
    · exact Or.inl
    · rintro (h' | h')
      · exact h'
      · exact absurd h' h

/-- **A thread alone is woken.** If the only registered thread is the one whose state is changed, and
it is alive, its event is set, in every possible order of the loops. -/
theorem c68_alone_woken (s : State) (i : Nat) (ha : s.all = [i]) (hk : (s.info i).killed = false)
    (ht : (s.info i).thr = some (.object true true true))
    (f g : List Nat) (h : Orders s f g) : (update s i f g).set i = true := by
  have hr : related (s.info i) = .thread := by simp [related, hk, ht]
  obtain ⟨h1, h2⟩ := h
  rw [ha] at h1
  have hf : f = [i] := List.perm_singleton.1 h1
  subst hf
  have hk : ([i].filter fun j => decide (related (s.info j) ≠ .none_)) = [i] := by simp [hr]
  rw [hk] at h2
  have hg : g = [i] := List.perm_singleton.1 h2
  subst hg
  refine (c68_woken s i [i] [i] i rfl i).2 (Or.inr ⟨rfl, ?_⟩)
  have : ∀ x : Info, related x = .thread → hasObject x = true := by
    intro x hx
    unfold related at hx
    unfold hasObject
    split at hx
    · exact nomatch hx
    · split at hx
      · exact nomatch hx
      · exact nomatch hx
      · rename_i h
        rw [h]
  exact this _ hr

/-- A suspended thread in its wait. -/
def waiting : Info := ⟨false, some (.object true true true), true, false, true⟩
/-- The same thread, told to run. -/
def running : Info := ⟨false, some (.object true true true), false, false, true⟩
/-- A thread whose object was collected before the debugger noticed that it ended. -/
def gone : Info := ⟨false, some .collected, false, true, false⟩

/-- The states used by the witnesses can be reached. -/
theorem two_reachable (a b : Info) : ∃ s : State, Reachable s ∧ s.all = [2, 1] ∧ s.info 1 = a ∧
    s.info 2 = b ∧ s.set 1 = false ∧ s.set 2 = false := by
  have h0 : Reachable _ := Reachable.start (fun _ => waiting)
  have h1 := Reachable.step (.add 1) h0 trivial
  have h2 := Reachable.step (.add 2) h1 trivial
  have h3 := Reachable.step (.change 1 a) h2 trivial
  have h4 := Reachable.step (.change 2 b) h3 trivial
  exact ⟨_, h4, by simp [apply], by simp [apply], by simp [apply], by simp [apply], by simp [apply]⟩

/-- Two suspended threads. The first is told to run; the second one's event is set and the first
one's is not, so the first notices only when its wait runs into the timeout. -/
theorem c68_wrong_thread_witness : ∃ (s : State) (f g : List Nat), Reachable s ∧ Orders s f g ∧
    (s.info 1).suspended = false ∧ related (s.info 1) = .thread ∧
    (update s 1 f g).set 1 = false ∧ (update s 1 f g).set 2 = true := by
  obtain ⟨s, hr, ha, h1, h2, e1, e2⟩ := two_reachable running waiting
  refine ⟨s, [2, 1], [1, 2], hr, ⟨by rw [ha], ?_⟩, by rw [h1]; rfl, by rw [h1]; rfl, ?_, ?_⟩
  · have : ([2, 1].filter fun i => decide (related (s.info i) ≠ .none_)) = [2, 1] := by
      simp [h1, h2, running, waiting, related]
    rw [this]
    exact List.Perm.swap 2 1 []
  · simp [update, loopVar, e1]
  · simp [update, loopVar, h2, waiting, hasObject]

/-- A thread whose object was collected stays registered, and as stepping, for ever; and if it is
the last in the loops no thread is woken. -/
theorem c68_collected_witness : ∃ (s : State) (f g : List Nat), Reachable s ∧ Orders s f g ∧
    related (s.info 1) = .thread ∧ (s.info 2).thr = some .collected ∧
    (∀ i, (update s 1 f g).set i = true → s.set i = true) ∧
    (update s 1 f g).stepping = [2] := by
  obtain ⟨s, hr, ha, h1, h2, e1, e2⟩ := two_reachable running gone
  refine ⟨s, [2, 1], [1, 2], hr, ⟨by rw [ha], ?_⟩, by rw [h1]; rfl, by rw [h2]; rfl, ?_, ?_⟩
  · have : ([2, 1].filter fun i => decide (related (s.info i) ≠ .none_)) = [2, 1] := by
      simp [h1, h2, running, gone, related]
    rw [this]
    exact List.Perm.swap 2 1 []
  · intro i hi
    have := (c68_woken s 1 [2, 1] [1, 2] 2 rfl i).1 hi
    rcases this with h | h
    · exact h
    · rw [h2] at h
      exact absurd h.2 (by decide)
  · simp [update, h1, h2, running, gone, isStepping]

/-- A thread gets two commands and is resumed: it does both, then leaves, without a timeout. -/
theorem c68_example :
    let w := wrun (.start [] false) ([.turn, .turn, .put 7, .signal, .turn, .turn, .turn, .turn,
      .put 8, .signal, .turn, .turn, .turn, .turn, .resume, .signal] ++ List.replicate 5 .turn)
    w.done = [7, 8] ∧ w.pc = .left ∧ w.timeouts = 0 ∧ w.queue = [] := by decide

end Wake
