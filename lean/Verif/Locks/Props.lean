import Verif.Locks.Lemmas

namespace Locks

/-- **C54.**  However many threads there are, whatever they call and however they are interleaved,
the debugger's locks are never in a deadlock. -/
theorem c54_no_deadlock (cfg : Cfg) (hq : cfg.quiet) (s : State) (h : Reachable cfg s) :
    ¬ Deadlock s := by
  rintro ⟨d, hd, hall⟩
  have hi := inv_reachable hq h
  obtain ⟨t, ht⟩ := List.exists_mem_of_ne_nil d hd
  obtain ⟨u, hc, hm⟩ := chain_end hi 18 t (fun _ _ _ => by omega)
  have hu : ∀ a b, Chain s a b → a ∈ d → b ∈ d := by
    intro a b hab
    induction hab with
    | refl => exact id
    | step hb _ ih =>
      intro ha
      apply ih
      obtain ⟨v, hv, l, r, hw, ho, _⟩ := hall _ ha
      obtain ⟨l', r', hw', ho', _⟩ := hb
      rw [hw] at hw'
      obtain ⟨rfl, rfl⟩ : l = l' ∧ r = r' := by simpa using hw'
      rw [ho] at ho'
      exact (Option.some.inj ho') ▸ hv
  obtain ⟨v, _, l, r, hw, _, hng⟩ := hall u (hu t u hc ht)
  rcases hm with hm | ⟨l', r', hw', hg⟩
  · rw [hw] at hm; exact nomatch hm
  · rw [hw] at hw'
    obtain ⟨rfl, rfl⟩ : l = l' ∧ r = r' := by simpa using hw'
    exact hng hg

/-- **C54.**  A thread which waits for a lock waits, directly or through other waiting threads, for
a thread which can go on. -/
theorem c54_someone_moves (cfg : Cfg) (hq : cfg.quiet) (s : State) (h : Reachable cfg s)
    (t : Nat) : ∃ u, Chain s t u ∧ CanMove s u :=
  chain_end (inv_reachable hq h) 18 t (fun _ _ _ => by omega)

/-- **C54.**  Two threads never hold the same lock, and a lock has an owner exactly while some
region of it is being executed. -/
theorem c54_exclusive (cfg : Cfg) (hq : cfg.quiet) (s : State) (h : Reachable cfg s)
    (t : Nat) (l : Lock) : s.owner l = some t ↔ l ∈ (s.thread t).held := by
  have hi := inv_reachable hq h
  constructor
  · intro ho
    have := hi.count t l ho
    exact List.count_pos_iff.1 (by omega)
  · exact hi.held t l

/-- **C54.**  Once every thread has left the debugger, all the locks are free. -/
theorem c54_all_released (cfg : Cfg) (hq : cfg.quiet) (s : State) (h : Reachable cfg s)
    (hidle : ∀ t, (s.thread t).stack = []) (l : Lock) : s.owner l = none ∧ s.count l = 0 := by
  have hi := inv_reachable hq h
  have : s.owner l = none := by
    cases ho : s.owner l with
    | none => rfl
    | some t =>
      have := (c54_exclusive cfg hq s h t l).1 ho
      simp [Thread.held, hidle t] at this
  exact ⟨this, hi.free l this⟩

/-! ## Executions written down -/

/-- A step chosen by hand. -/
inductive Move
  | enter (t : Nat) (f : Fn)
  | call (t : Nat) (f : Fn)
  | request (t : Nat) (l : Lock) (r : Fn)
  | grant (t : Nat)
  | back (t : Nat)

instance (s : State) (t : Nat) (l : Lock) : Decidable (grantable s t l) :=
  inferInstanceAs (Decidable (_ ∨ _))

/-- Performs a step, if it is one. -/
def move (cfg : Cfg) (s : State) : Move → State
  | .enter t f =>
    if (s.thread t).stack = [] ∧ (s.thread t).want = none then setThread s t ⟨[⟨f, none⟩], none⟩
    else s
  | .call t f =>
    match (s.thread t).stack with
    | [] => s
    | fr :: rest =>
      if (s.thread t).want = none ∧ Act.call f ∈ body cfg fr.fn then
        setThread s t ⟨⟨f, none⟩ :: fr :: rest, none⟩
      else s
  | .request t l r =>
    match (s.thread t).stack with
    | [] => s
    | fr :: rest =>
      if (s.thread t).want = none ∧ Act.lock l.kind r ∈ body cfg fr.fn ∧
          (l.kind.reentrant = true → ∀ h ∈ (s.thread t).held, h.kind = l.kind → h = l) then
        setThread s t ⟨fr :: rest, some (l, r)⟩
      else s
  | .grant t =>
    match (s.thread t).want with
    | none => s
    | some (l, r) =>
      if grantable s t l then
        setThread (setLock s l (some t) (s.count l + 1)) t
          ⟨⟨r, some l⟩ :: (s.thread t).stack, none⟩
      else s
  | .back t =>
    match (s.thread t).stack with
    | [] => s
    | ⟨_, none⟩ :: rest =>
      if (s.thread t).want = none then setThread s t ⟨rest, none⟩ else s
    | ⟨_, some l⟩ :: rest =>
      if (s.thread t).want = none then setThread (release s l) t ⟨rest, none⟩ else s

theorem move_reachable {cfg : Cfg} {s : State} (h : Reachable cfg s) (m : Move) :
    Reachable cfg (move cfg s m) := by
  cases m with
  | enter t f =>
    simp only [move]
    split
    · next hc => exact h.step (.enter s t f hc.1 hc.2)
    · exact h
  | call t f =>
    simp only [move]
    split
    · exact h
    · next fr rest htop =>
      split
      · next hc => exact h.step (.call s t fr rest f htop hc.1 hc.2)
      · exact h
  | request t l r =>
    simp only [move]
    split
    · exact h
    · next fr rest htop =>
      split
      · next hc => exact h.step (.request s t fr rest l r htop hc.1 hc.2.1 hc.2.2)
      · exact h
  | grant t =>
    simp only [move]
    split
    · exact h
    · next l r hw =>
      split
      · next hc => exact h.step (.grant s t l r hw hc)
      · exact h
  | back t =>
    simp only [move]
    split
    · exact h
    · next f rest htop =>
      split
      · next hc => exact h.step (.ret s t f rest htop hc)
      · exact h
    · next f l rest htop =>
      split
      · next hc => exact h.step (.leave s t f l rest htop hc)
      · exact h

def play (cfg : Cfg) (ms : List Move) : State := ms.foldl (move cfg) start

theorem play_reachable (cfg : Cfg) (ms : List Move) : Reachable cfg (play cfg ms) := by
  have : ∀ (ms : List Move) s, Reachable cfg s → Reachable cfg (ms.foldl (move cfg) s) := by
    intro ms
    induction ms with
    | nil => exact fun s h => h
    | cons m ms ih => exact fun s h => ih _ (move_reachable h m)
  exact this ms start .start

/-- Thread 0 makes a message for the client and logs it; thread 1 of the user prints. -/
def logAndPrint : List Move :=
  [.enter 0 .netCommand, .request 0 ⟨.showDebug, 0⟩ .showDebugRegion, .grant 0,
   .enter 1 .stdWrite, .request 1 ⟨.stream, 2⟩ .streamRegion, .grant 1,
   .call 0 .log, .call 0 .stdWrite, .request 0 ⟨.stream, 2⟩ .streamRegion,
   .call 1 .netCommand, .request 1 ⟨.showDebug, 0⟩ .showDebugRegion]

/-- Thread 0 initializes the log and its file cannot be opened; thread 1 of the user prints. -/
def failAndPrint : List Move :=
  [.enter 1 .stdWrite, .request 1 ⟨.stream, 2⟩ .streamRegion, .grant 1,
   .call 1 .netCommand, .request 1 ⟨.showDebug, 0⟩ .showDebugRegion, .grant 1, .call 1 .log,
   .enter 0 .log, .request 0 ⟨.logInit, 0⟩ .logInitRegion, .grant 0,
   .call 0 .stdWrite, .request 0 ⟨.stream, 2⟩ .streamRegion,
   .request 1 ⟨.logInit, 0⟩ .logInitRegion]

theorem deadlock_of_two {s : State} {l0 l1 : Lock} {r0 r1 : Fn}
    (w0 : (s.thread 0).want = some (l0, r0)) (w1 : (s.thread 1).want = some (l1, r1))
    (o0 : s.owner l0 = some 1) (o1 : s.owner l1 = some 0) : Deadlock s := by
  refine ⟨[0, 1], by simp, ?_⟩
  intro t ht
  simp only [List.mem_cons, List.not_mem_nil, or_false] at ht
  rcases ht with rfl | rfl
  · exact ⟨1, by simp, l0, r0, w0, o0, by simp [grantable, o0]⟩
  · exact ⟨0, by simp, l1, r1, w1, o1, by simp [grantable, o1]⟩

/-- **C54**, what fails: with logging on, a log which goes to a redirected `sys.stderr` and a
thread of the user which prints, the debugger and the program stop for ever. -/
theorem c54_log_to_redirected_stream_witness (fails : Bool) :
    ∃ s, Reachable ⟨true, true, fails⟩ s ∧ Deadlock s :=
  ⟨play _ logAndPrint, play_reachable _ _, by
    refine deadlock_of_two (l0 := ⟨.stream, 2⟩) (l1 := ⟨.showDebug, 0⟩)
      (r0 := .streamRegion) (r1 := .showDebugRegion) ?_ ?_ ?_ ?_ <;> cases fails <;> decide⟩

/-- **C54**, what fails: the same when the file of the log cannot be opened. -/
theorem c54_log_file_fails_witness (redirected : Bool) :
    ∃ s, Reachable ⟨true, redirected, true⟩ s ∧ Deadlock s :=
  ⟨play _ failAndPrint, play_reachable _ _, by
    refine deadlock_of_two (l0 := ⟨.stream, 2⟩) (l1 := ⟨.logInit, 0⟩)
      (r0 := .streamRegion) (r1 := .logInitRegion) ?_ ?_ ?_ ?_ <;> cases redirected <;> decide⟩

/-- **C54.**  These are the only ways: deadlocks are impossible exactly when messages for the
client are not logged, or are logged to a stream which does not come back to the debugger. -/
theorem c54_exactly (cfg : Cfg) :
    (∀ s, Reachable cfg s → ¬ Deadlock s) ↔ cfg.quiet := by
  constructor
  · intro h
    obtain ⟨v, r, e⟩ := cfg
    cases v with
    | false => intro hv; exact nomatch hv
    | true =>
      intro _
      refine ⟨?_, ?_⟩
      · cases r with
        | false => rfl
        | true =>
          obtain ⟨s, hs, hd⟩ := c54_log_to_redirected_stream_witness e
          exact absurd hd (h s hs)
      · cases e with
        | false => rfl
        | true =>
          obtain ⟨s, hs, hd⟩ := c54_log_file_fails_witness r
          exact absurd hd (h s hs)
  · exact fun hq s hs => c54_no_deadlock cfg hq s hs

/-- Locks are waited for, and through other threads: a request is being handled, another thread
which stops at a breakpoint waits for the main lock, and the handler of the request waits for the
lock of the redirections, which an evaluation holds. -/
theorem c54_example :
    let s := play ⟨false, false, false⟩
      [.enter 0 .evaluate, .request 0 ⟨.redirections, 0⟩ .replRegion, .grant 0,
       .enter 1 .onRequest, .request 1 ⟨.main, 0⟩ .onRequestRegion, .grant 1,
       .call 1 .redirectStream, .request 1 ⟨.redirections, 0⟩ .redirectRegion,
       .enter 2 .cancelAsync, .request 2 ⟨.main, 0⟩ .cancelAsyncRegion]
    Cfg.quiet ⟨false, false, false⟩ ∧ Blocked s 2 1 ∧ Blocked s 1 0 ∧ CanMove s 0 := by
  refine ⟨by simp [Cfg.quiet], ⟨⟨.main, 0⟩, .cancelAsyncRegion, ?_, ?_, ?_⟩,
    ⟨⟨.redirections, 0⟩, .redirectRegion, ?_, ?_, ?_⟩, .inl ?_⟩ <;> decide

end Locks
