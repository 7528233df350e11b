import Verif.Startup.Progress
/-!
# C98: nothing of the program goes on before the client is ready
-/
namespace Startup
open Spec

/-- **C98 (a script).**  The first line of a script launched by the debugger runs only after a connection to the
client was made and the client said that it is ready — so every request it sent before that was handled —
whatever the client does and whatever the schedule. -/
theorem c98_script {s : St} (hs : Reachable s) {t d : Nat} {a : Args} {pre post : List Ev}
    (h : s.hist = pre ++ .returned t d a :: post) (ha : a.script = true) :
    Ev.attempt d true ∈ pre ∧ Go pre d := by
  obtain ⟨_, h2, h3⟩ := (inv_reachable hs).fine pre _ post h
  rcases h2 (h3 ha) with h4 | ⟨_, h4⟩
  · exact h4.2 ha
  · rw [ha] at h4; cases h4

/-- **C98 (`settrace`).**  A call of `settrace` — by whichever thread, and however many threads call it at the
same time — returns only when the debugger in use is set up as the call which created it asked for: connected,
and told to go on by the client.  Unless connecting had failed. -/
theorem c98_settrace {s : St} (hs : Reachable s) {t d : Nat} {a : Args} {pre post : List Ev}
    (h : s.hist = pre ++ .returned t d a :: post) (hm : a.attach = false) (hf : ¬ Failed pre d) :
    SetUp pre d := by
  obtain ⟨_, h2, _⟩ := (inv_reachable hs).fine pre _ post h
  rcases h2 hm with h3 | ⟨h3, _⟩
  · exact h3.1
  · exact absurd h3 hf

/-- **C98 (one debugger).**  However many calls there are, a debugger is only created when every earlier one was
disposed of, and no debugger connects (or tries to) more than once. -/
theorem c98_once {s : St} (hs : Reachable s) {pre post : List Ev} :
    (∀ t d a, s.hist = pre ++ .made t d a :: post →
      ∀ t' d' a', Ev.made t' d' a' ∈ pre → Ev.disposed d' ∈ pre ∧ d' ≠ d) ∧
    (∀ d b, s.hist = pre ++ .attempt d b :: post → ∀ b', Ev.attempt d b' ∉ pre) := by
  refine ⟨fun t d a h t' d' a' hm => ?_, fun d b h => (inv_reachable hs).fine pre _ post h⟩
  obtain ⟨h1, h2⟩ := (inv_reachable hs).fine pre _ post h t' d' a' hm
  exact ⟨h1, by omega⟩

/-- **C98 (nobody waits for nothing).**  A thread waiting for the client goes on when the client has said that
it is ready. -/
theorem c98_released {s : St} (hs : Reachable s) {t d : Nat} {a : Args} (h : s.pc t = .polling a d)
    (hg : Go s.hist d) : (step s (.poll t)).pc t = .tracing a d := by
  have := (inv_reachable hs).flags.ready d hg
  simp [step, poll, h, this, upd_self]

/-- **C98 (`_enable_attach`).**  It returns an address only when the socket is bound. -/
theorem c98_enable_attach {s : St} (hs : Reachable s) {t d : Nat} {a : Args} {pre post : List Ev}
    (h : s.hist = pre ++ .returned t d a :: post) (ha : a.attach = true) : Ev.listening d ∈ pre :=
  ((inv_reachable hs).fine pre _ post h).1 ha

/-- **C98 (`_is_attached`).**  It answers whether a client of the global debugger sent `configurationDone` and
neither disconnected, nor was replaced, nor began a new session since. -/
theorem c98_is_attached {s : St} (hs : Reachable s) :
    isAttached s = true ↔ ∃ d, s.glob = some d ∧ Attached s.hist d := by
  unfold isAttached
  cases h : s.glob with
  | none => simp
  | some d => simp [(inv_reachable hs).flags.configured d]

/-- **C98 (`_wait_for_attach`).**  It returns only when the client is attached, or when the event given to cancel
it was set. -/
theorem c98_wait_for_attach {s : St} (hs : Reachable s) {t d : Nat} {c : Option Nat} {pre post : List Ev}
    (h : s.hist = pre ++ .attached t d c :: post) :
    Attached pre d ∨ ∃ e, c = some e ∧ CancelSet pre e :=
  (inv_reachable hs).fine pre _ post h

/-- **C98 (breakpoints).**  Breakpoints are accepted exactly when the connection they come from has sent
`launch` or `attach`, and not disconnected since. -/
theorem c98_breakpoints {s : St} (hs : Reachable s) {d c : Nat} {b : Bool} {pre post : List Ev}
    (h : s.hist = pre ++ .handled d c .setBreakpoints b :: post) : b = true ↔ Launched pre c :=
  (inv_reachable hs).fine pre _ post h

/-! ### Examples -/

/-- A script: the client connects, sets breakpoints (refused, then accepted), and lets it run. -/
def exampleScript : List Act :=
  [.connect 0 true, .setReady 0, .poll 0, .handle 0 .initialize, .handle 0 .setBreakpoints, .handle 0 .launch,
   .poll 0, .handle 0 .setBreakpoints, .handle 0 .configurationDone, .poll 0, .finish 0]

theorem c98_example_script : (exec (script 5678) exampleScript).hist =
    [.made 0 0 (mainArgs 5678), .attempt 0 true, .handled 0 0 .initialize true,
     .handled 0 0 .setBreakpoints false, .handled 0 0 .launch true, .handled 0 0 .setBreakpoints true,
     .handled 0 0 .configurationDone true, .returned 0 0 (mainArgs 5678)] ∧
    isAttached (exec (script 5678) exampleScript) = true := by decide +kernel

/-- Two threads call `settrace` at the same time: one connects, the other waits for the lock. -/
def exampleThreads : List Act :=
  [.call 1 {}, .call 2 {}, .acquire 2, .acquire 1, .enter 2, .connect 2 true, .setReady 2, .poll 2,
   .acquire 1, .handle 0 .run, .poll 2, .finish 2, .acquire 1, .enter 1, .finish 1]

theorem c98_example_threads : (exec program exampleThreads).hist =
    [.made 2 0 {}, .attempt 0 true, .handled 0 0 .run true, .returned 2 0 {}, .returned 1 0 {}] := by
  decide +kernel

/-- `_enable_attach` and `_wait_for_attach`; the second wait with the same event returns at once. -/
def exampleAttach : List Act :=
  let a : Args := { wait := false, block := false, attach := true }
  [.call 1 a, .acquire 1, .enter 1, .connect 1 true, .setReady 1, .poll 1, .finish 1, .reread 1,
   .socketReady 1, .listen 0 true, .socketReady 1, .waitAttach 1 (some 7), .pollAttach 1,
   .accept 0, .network 0, .handle 0 .initialize, .handle 0 .attach, .pollAttach 1,
   .handle 0 .configurationDone, .pollAttach 1, .handle 0 .disconnect, .waitAttach 1 (some 7), .pollAttach 1]

theorem c98_example_attach : (exec program exampleAttach).hist =
    [.made 1 0 { wait := false, block := false, attach := true }, .listening 0,
     .returned 1 0 { wait := false, block := false, attach := true },
     .handled 0 0 .initialize true, .handled 0 0 .attach true, .handled 0 0 .configurationDone true,
     .attached 1 0 (some 7), .handled 0 0 .disconnect true, .attached 1 0 (some 7)] ∧
    isAttached (exec program exampleAttach) = false := by decide +kernel

/-! ### What goes wrong -/

/-- Connecting fails, and the program tries again later. -/
def retried : List Act :=
  [.call 1 {}, .acquire 1, .enter 1, .connect 1 false, .call 1 {}, .acquire 1, .enter 1, .finish 1]

/-- **Finding.**  When connecting fails `settrace` raises, but the debugger it created stays the global one: the
next call returns normally, without trying to connect, and the thread is left to stop for a client which does
not exist. -/
theorem c98_failed_connect_witness : (exec program retried).hist =
    [.made 1 0 {}, .attempt 0 false, .raised 1 {}, .returned 1 0 {}] := by decide +kernel

/-- After a failed attempt no call of `settrace` ever connects, until `stoptrace` is called: no later state has
another attempt of the same debugger. -/
theorem c98_failed_forever_witness {s : St} (hs : Reachable s) {d : Nat} (hf : Failed s.hist d) (acts : List Act) :
    ∀ b, (exec s acts).hist.count (.attempt d b) ≤ 1 ∧ Ev.attempt d true ∉ (exec s acts).hist := by
  have hr : Reachable (exec s acts) := by
    obtain ⟨a0, h | ⟨port, h⟩⟩ := hs
    · exact ⟨a0 ++ acts, Or.inl (by rw [h]; simp [exec, List.foldl_append])⟩
    · exact ⟨a0 ++ acts, Or.inr ⟨port, by rw [h]; simp [exec, List.foldl_append]⟩⟩
  have fine := (inv_reachable hr).fine
  have hmono : ∀ (l : List Act) (s : St) (e : Ev), e ∈ s.hist → e ∈ (exec s l).hist := by
    intro l
    induction l with
    | nil => intro s e h; exact h
    | cons a r ih =>
      intro s e h
      refine ih (step s a) e ?_
      cases a <;>
        simp only [step, call, acquire, enter, connect, setReady, poll, finish, reread, socketReady, listen, accept,
          swap, handle, stop, waitAttach, pollAttach, network] <;>
        (repeat' split) <;> simp [h]
  have hf' : Ev.attempt d false ∈ (exec s acts).hist := hmono acts s _ hf
  have key : ∀ b b', ∀ p q r, (exec s acts).hist = p ++ Ev.attempt d b :: q ++ Ev.attempt d b' :: r → False := by
    intro b b' p q r h
    exact fine (p ++ Ev.attempt d b :: q) (Ev.attempt d b') r h b (by simp)
  intro b
  constructor
  · apply Decidable.byContradiction
    intro hc
    have hc : 2 ≤ (exec s acts).hist.count (.attempt d b) := by omega
    have hsub : [Ev.attempt d b, Ev.attempt d b].Sublist (exec s acts).hist := by
      have := List.replicate_sublist_iff.2 hc
      simpa using this
    obtain ⟨p, l, h1, h2, h3⟩ := List.cons_sublist_iff.1 hsub
    obtain ⟨p1, p2, hp⟩ := List.append_of_mem h2
    obtain ⟨q1, q2, hq⟩ := List.append_of_mem (List.singleton_sublist.1 h3)
    exact key b b p1 (p2 ++ q1) q2 (by rw [h1, hp, hq]; simp)
  · intro ht
    obtain ⟨p1, p2, hp⟩ := List.append_of_mem ht
    rw [hp] at hf'
    rcases List.mem_append.1 hf' with h | h
    · obtain ⟨q1, q2, hq⟩ := List.append_of_mem h
      exact key false true q1 q2 p2 (by rw [hp, hq])
    · rcases List.mem_cons.1 h with h | h
      · cases h
      · obtain ⟨q1, q2, hq⟩ := List.append_of_mem h
        exact key true false p1 q1 q2 (by rw [hp, hq]; simp)

/-- The waiting socket cannot be bound (its port is in use). -/
def unbound : List Act :=
  let a : Args := { wait := false, block := false, attach := true }
  [.call 1 a, .acquire 1, .enter 1, .connect 1 true, .setReady 1, .poll 1, .finish 1, .reread 1, .listen 0 false]

/-- The thread waits for a socket nobody will bind. -/
def Stuck (s : St) (t d : Nat) (a : Args) : Prop :=
  s.pc t = .socket a d ∧ Ev.listening d ∉ s.hist ∧ ((s.dbg d).listener = .none ∨ (s.dbg d).listener = .dead) ∧
  d < s.next ∧ ∀ t' a', s.pc t' ≠ .connecting a' d

theorem upd_same {s : St} {t t' d : Nat} {a : Args} {p : PC} (h : s.pc t = .socket a d) (ht : s.pc t' ≠ .socket a d) :
    upd s.pc t' p t = .socket a d := by
  rw [upd_apply]
  split
  · rename_i x; subst x; exact absurd h ht
  · exact h

theorem upd_not {s : St} {t' d : Nat} {p : PC} (h : ∀ t a, s.pc t ≠ .connecting a d) (hp : ∀ a, p ≠ .connecting a d) :
    ∀ t a, upd s.pc t' p t ≠ .connecting a d := by
  intro t a
  rw [upd_apply]
  split
  · exact hp a
  · exact h t a

theorem onDbg_listener (r : Req) (d : Dbg) : (onDbg r d).listener = d.listener := by cases r <;> rfl

theorem stuck_step {s : St} {t d : Nat} {a : Args} (h : Stuck s t d a) (x : Act) : Stuck (step s x) t d a := by
  obtain ⟨h1, h2, h3, h4, h5⟩ := h
  have hne : d ≠ s.next := by omega
  cases x <;>
    simp only [step, call, acquire, enter, connect, setReady, poll, finish, reread, socketReady, listen, accept,
      swap, handle, stop, waitAttach, pollAttach, network] <;>
    (repeat' split)
  all_goals try exact ⟨h1, h2, h3, h4, h5⟩
  all_goals refine ⟨?_, ?_, ?_, ?_, ?_⟩
  all_goals try exact h1
  all_goals try exact h2
  all_goals try exact h3
  all_goals try exact h4
  all_goals try exact h5
  all_goals try (refine upd_same h1 ?_; simp_all; done)
  all_goals try (refine upd_not h5 ?_; simp_all; done)
  all_goals try (simp_all; done)
  all_goals try (simp only [upd_apply]; split <;> simp_all; done)
  all_goals try (exact Nat.lt_succ_of_lt h4)
  all_goals try (apply upd_not h5; intro a' hc; injection hc; omega)
  all_goals try (simp only [upd_apply]; split <;> grind [onDbg_listener])
  all_goals grind [upd]

theorem stuck_exec {s : St} {t d : Nat} {a : Args} (h : Stuck s t d a) (acts : List Act) :
    Stuck (exec s acts) t d a := by
  induction acts generalizing s with
  | nil => exact h
  | cons x r ih => exact ih (stuck_step h x)

/-- **Finding.**  If the port is in use, `_enable_attach` does not raise: the thread which binds the socket ends,
and the caller waits for ever, whatever happens after that. -/
theorem c98_port_in_use_witness (acts : List Act) :
    (exec (exec program unbound) acts).pc 1 = .socket { wait := false, block := false, attach := true } 0 := by
  refine (stuck_exec ?_ acts).1
  refine ⟨by decide +kernel, by decide +kernel, Or.inr (by decide +kernel), by decide +kernel, ?_⟩
  intro t' a' h
  by_cases x : t' = 1
  · subst x
    have : (exec program unbound).pc 1 = .socket { wait := false, block := false, attach := true } 0 := by
      decide +kernel
    rw [this] at h; cases h
  · have : (exec program unbound).pc t' = .idle := by
      simp [exec, unbound, program, step, call, acquire, enter, connect, setReady, poll, finish, reread, listen, upd,
        x, otherPort]
    rw [this] at h; cases h

/-- The program connects to a client, and later waits for clients on the same port. -/
def clientFirst : List Act :=
  let a : Args := { wait := false, block := false, attach := true }
  [.call 1 {}, .acquire 1, .enter 1, .connect 1 true, .setReady 1, .handle 0 .run, .poll 1, .finish 1,
   .call 1 a, .acquire 1, .enter 1, .finish 1, .reread 1]

/-- **Finding.**  After a `settrace` which connected to a client, `_enable_attach` with the same port waits for
ever: the debugger has no waiting socket, and no other debugger is created. -/
theorem c98_client_first_witness (acts : List Act) :
    (exec (exec program clientFirst) acts).pc 1 = .socket { wait := false, block := false, attach := true } 0 := by
  refine (stuck_exec ?_ acts).1
  refine ⟨by decide +kernel, by decide +kernel, Or.inl (by decide +kernel), by decide +kernel, ?_⟩
  intro t' a' h
  by_cases x : t' = 1
  · subst x
    have : (exec program clientFirst).pc 1 = .socket { wait := false, block := false, attach := true } 0 := by
      decide +kernel
    rw [this] at h; cases h
  · have : (exec program clientFirst).pc t' = .idle := by
      simp [exec, clientFirst, program, step, call, acquire, enter, connect, setReady, poll, finish, reread, upd,
        x, otherPort, handle, network, onDbg]
    rw [this] at h; cases h

/-- A second client connects while the first is about to send `configurationDone`. -/
def replaced : List Act :=
  let a : Args := { wait := false, block := false, attach := true }
  [.call 1 a, .acquire 1, .enter 1, .connect 1 true, .setReady 1, .poll 1, .finish 1, .reread 1,
   .listen 0 true, .socketReady 1, .accept 0, .network 0, .handle 0 .initialize, .handle 0 .attach, .waitAttach 1 none,
   .accept 0, .handle 0 .configurationDone, .network 0, .pollAttach 1]

/-- **Finding.**  When a second client replaces one which did not disconnect, what the first client configured is
dropped before its reader is stopped: a `configurationDone` handled in between counts for the second client,
and `_wait_for_attach` returns although that client has sent nothing. -/
theorem c98_replaced_client_witness :
    Ev.attached 1 0 none ∈ (exec program replaced).hist ∧ isAttached (exec program replaced) = true ∧
    ((exec program replaced).dbg 0).reader = some 1 ∧
    ∀ d r b, Ev.handled d 1 r b ∉ (exec program replaced).hist := by
  refine ⟨by decide +kernel, by decide +kernel, by decide +kernel, ?_⟩
  intro d r b h
  have hh : (exec program replaced).hist =
      [.made 1 0 { wait := false, block := false, attach := true }, .listening 0,
       .returned 1 0 { wait := false, block := false, attach := true }, .handled 0 0 .initialize true,
       .handled 0 0 .attach true, .dropped 0, .handled 0 0 .configurationDone true, .attached 1 0 none] := by
    decide +kernel
  rw [hh] at h
  simp at h

end Startup
