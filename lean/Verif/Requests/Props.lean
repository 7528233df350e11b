import Verif.Requests.Model

/-!
# Every request is answered at most once, with its own number and command (C65)
-/

namespace Requests

/-! ### Specification -/

/-- Number and command of the request an answer is for. -/
def Answer.key (a : Answer) : Nat × String := (a.seq, a.command)

/-- Requests which wait for a thread of the debuggee, by number and command. -/
def waiting (s : State) : List (Nat × String) :=
  s.posted.map (fun p => (p.seq, p.command.name))
    ++ s.resumed.map (fun n => (n, "continue"))
    ++ s.gotoMsg.map (fun m => (m.2, "goto"))

/-- Commands answered by a thread of the debuggee. All others are answered by the thread which reads
the messages. -/
def deferred : List String :=
  ["completions", "stepInTargets", "stackTrace", "exceptionInfo", "evaluate", "setExpression",
   "variables", "setVariable", "goto", "continue"]

/-- A request whose arguments are what the protocol asks for: threads are given by ids of threads,
frames by ids of frames, variables by ids of variables or scopes, sources by paths, and nothing else
in it makes a handler raise. -/
structure WellFormed (r : Request) : Prop where
  raises : r.raises = false
  path : r.path = true
  thread : r.command ∈ [.pause, .continue_, .next, .stepIn, .stepOut, .goto] →
    ∃ t, r.thread = .thread t
  frame : r.command = .scopes → ∃ f, r.frame = .ref f
  target : r.command = .goto → ∃ n, r.target = some n

/-- A command the debugger has a handler for. -/
def Handled (c : Command) : Prop := ∀ n, c ≠ .other n

/-! ### Counting -/

def cnt (k : Nat × String) (s : State) : Nat :=
  (s.out.map Answer.key).count k + (waiting s).count k + (s.lost.map (·.1)).count k

theorem cnt_answer (k) (s : State) (n c b j) :
    cnt k (answer s n c b j) = cnt k s + [(n, c)].count k := by
  simp only [cnt, answer, waiting, List.map_append, List.count_append, List.map_cons, List.map_nil,
    Answer.key]
  omega

theorem cnt_lose (k) (s : State) (n c w) :
    cnt k (lose s n c w) = cnt k s + [(n, c)].count k := by
  simp only [cnt, lose, waiting, List.map_append, List.count_append, List.map_cons, List.map_nil]
  omega

theorem cnt_stopReading (k) (s : State) : cnt k (stopReading s) = cnt k s := rfl

theorem cnt_resumeThreads (k) (s : State) (o) : cnt k (resumeThreads s o) = cnt k s := by
  unfold resumeThreads
  repeat' split
  all_goals rfl

theorem cnt_effects (k) (s : State) (r) : cnt k (effects s r) = cnt k s := by
  unfold effects
  split
  all_goals first
    | rfl
    | (split
       · rfl
       · exact (cnt_resumeThreads k _ _).trans rfl)
    | exact cnt_resumeThreads k _ _

theorem cnt_login (k) (s : State) (r) : cnt k (login s r) = cnt k s := by
  unfold login
  split <;> rfl

theorem received_login (s : State) (r) : (login s r).received = s.received := by
  unfold login
  split <;> rfl

theorem received_resumeThreads (s : State) (o) : (resumeThreads s o).received = s.received := by
  unfold resumeThreads
  repeat' split
  all_goals rfl

theorem received_effects (s : State) (r) : (effects s r).received = s.received := by
  unfold effects
  split
  all_goals first
    | rfl
    | (split
       · rfl
       · exact (received_resumeThreads _ _).trans rfl)
    | exact received_resumeThreads _ _

theorem handler_onResumed {s : State} {r : Request} (h : handler s r = .onResumed) :
    r.command = .continue_ := by
  unfold handler postOr at h
  repeat' split at h
  all_goals first | assumption | exact absurd h (by simp)

theorem cnt_perform (k) (s : State) (r : Request) :
    cnt k (perform s r) = cnt k s + [(r.seq, r.command.name)].count k := by
  unfold perform
  split
  · rw [cnt_answer, cnt_effects]
  · rw [← cnt_effects k s r]
    simp only [cnt, waiting, List.map_append, List.count_append, List.map_cons, List.map_nil]
    omega
  · rename_i h
    rw [← cnt_effects k s r]
    rw [handler_onResumed h]
    simp only [cnt, waiting, List.map_append, List.count_append, List.map_cons, List.map_nil,
      Command.name]
    omega
  · rw [cnt_lose, cnt_effects]
  · rw [cnt_stopReading, cnt_lose, cnt_effects]

theorem received_perform (s : State) (r : Request) : (perform s r).received = s.received := by
  unfold perform
  split <;> simp only [answer, lose, stopReading, received_effects]

theorem cnt_note (k) (s : State) (n c) : cnt k (note s n c) = cnt k s := rfl

theorem cnt_receive (k) (s : State) (m : Msg) (h : s.received.count k = cnt k s) :
    (receive s m).received.count k = cnt k (receive s m) := by
  unfold receive
  split
  · exact h
  · dsimp only
    split
    · rw [cnt_lose, cnt_note]
      simp only [lose, note, List.count_append, h]
    · rw [cnt_answer, cnt_note]
      simp only [answer, note, List.count_append, h]
  · exact h
  · dsimp only
    split
    · rw [cnt_lose, cnt_note]
      simp only [lose, note, List.count_append, h]
    · split
      · rename_i hc
        rw [cnt_lose, cnt_note, hc]
        simp only [lose, note, List.count_append, h, Command.name]
      · split
        · rw [cnt_answer, cnt_login, cnt_note]
          simp only [answer, received_login, note, List.count_append, h]
        · rw [cnt_perform, received_perform, cnt_login, cnt_note, received_login]
          simp only [note, List.count_append, h]

theorem cnt_execute (k) (s : State) (p : Post) (o) :
    cnt k (execute s p o) = cnt k s + [(p.seq, p.command.name)].count k := by
  unfold execute
  split
  all_goals first
    | exact cnt_answer ..
    | (split
       · exact cnt_answer ..
       · exact cnt_answer ..
       · exact cnt_lose ..)

theorem received_execute (s : State) (p : Post) (o) : (execute s p o).received = s.received := by
  unfold execute
  repeat' split
  all_goals rfl

theorem count_filter_split {α} (k : Nat × String) (f : α → Nat × String) (q : α → Bool) (l : List α) :
    (l.map f).count k
      = ((l.filter q).map f).count k + ((l.filter (fun x => !q x)).map f).count k := by
  induction l with
  | nil => rfl
  | cons x xs ih =>
    cases hq : q x <;>
      simp only [List.filter_cons, hq, List.map_cons, List.count_cons, Bool.not_true, Bool.not_false,
        if_true, if_false, Bool.false_eq_true] <;> omega

theorem cnt_doGoto (k) (s : State) (t n) :
    cnt k (doGoto s t n) = cnt k s + [(n, "goto")].count k := by
  have h := count_filter_split k (fun m : Nat × Nat => (m.2, "goto")) (fun m => decide (m.1 = t))
    s.gotoMsg
  simp only [cnt, doGoto, waiting, List.map_append, List.count_append, List.map_cons, List.map_nil,
    List.map_map, Function.comp_def]
  have hf : s.gotoMsg.filter (fun m => !decide (m.1 = t)) = s.gotoMsg.filter (fun m => decide (m.1 ≠ t)) :=
    List.filter_congr (fun m _ => by simp)
  rw [hf] at h
  omega

theorem cnt_erase (k) (s : State) (p : Post) (h : p ∈ s.posted) :
    cnt k { s with posted := s.posted.erase p } + [(p.seq, p.command.name)].count k = cnt k s := by
  have hp := ((List.perm_cons_erase h).map (fun p : Post => (p.seq, p.command.name))).count_eq k
  simp only [List.map_cons, List.count_cons] at hp
  simp only [cnt, waiting, List.count_append, List.count_cons, List.count_nil]
  omega

theorem find_posted {s : State} {t : Nat} {p : Post}
    (h : s.posted.find? (fun p => p.to = some t) = some p) : p ∈ s.posted ∧ p.to = some t := by
  refine ⟨List.mem_of_find?_eq_some h, ?_⟩
  simpa using List.find?_some h

theorem cnt_serve (k) {s s' : State} {t o} (h : serve s t o = some s') :
    cnt k s' = cnt k s ∧ s'.received = s.received := by
  unfold serve at h
  split at h
  · exact absurd h (by simp)
  · rename_i p hp
    have hm := (find_posted hp).1
    injection h with h
    have he := cnt_erase k s p hm
    split at h
    · rename_i hc
      subst h
      rw [hc] at he
      refine ⟨?_, rfl⟩
      rw [cnt_doGoto]
      exact he
    · subst h
      exact ⟨(cnt_execute ..).trans he, received_execute ..⟩

theorem collect_count (k) (f : Post → Nat × String) : ∀ (ps : List Post) (vs : List Verdict),
    (ps.map f).count k
      = (((collect ps vs).1.map (·.1)).map f).count k + ((collect ps vs).2.1.map f).count k
        + (((collect ps vs).2.2.getD []).map f).count k := by
  intro ps vs
  fun_induction collect ps vs
  · rfl
  all_goals (simp_all only [List.map_cons, List.map_nil, List.count_cons, List.count_nil,
    Option.getD_some])
  all_goals try omega

theorem cnt_executeAll (k) : ∀ (es : List (Post × Outcome)) (s : State),
    cnt k (executeAll s es)
      = cnt k s + ((es.map (·.1)).map (fun p => (p.seq, p.command.name))).count k := by
  intro es
  induction es with
  | nil => intro s; rfl
  | cons e es ih =>
    intro s
    obtain ⟨p, o⟩ := e
    simp only [executeAll, ih, cnt_execute, List.map_cons, List.count_cons, List.count_nil]
    omega

theorem received_executeAll : ∀ (es : List (Post × Outcome)) (s : State),
    (executeAll s es).received = s.received := by
  intro es
  induction es with
  | nil => intro s; rfl
  | cons e es ih =>
    intro s
    obtain ⟨p, o⟩ := e
    simp only [executeAll, ih, received_execute]

theorem cnt_drain (k) (s : State) (vs) :
    cnt k (drain s vs) = cnt k s ∧ (drain s vs).received = s.received := by
  have h1 := count_filter_split k (fun p : Post => (p.seq, p.command.name)) isAny s.posted
  have h2 := collect_count k (fun p : Post => (p.seq, p.command.name)) (s.posted.filter isAny) vs
  unfold drain
  dsimp only
  split
  · rename_i e b hc
    rw [hc] at h2
    refine ⟨?_, received_executeAll ..⟩
    rw [cnt_executeAll]
    simp only [cnt, waiting, List.map_append, List.count_append, Option.getD_none, List.map_nil,
      List.count_nil] at *
    omega
  · rename_i e b rest hc
    rw [hc] at h2
    refine ⟨?_, rfl⟩
    simp only [cnt, waiting, List.map_append, List.count_append, Option.getD_some, List.map_map,
      Function.comp_def] at *
    omega

theorem cnt_leave (k) {s s' : State} {t w} (h : leave s t w = some s') :
    cnt k s' = cnt k s ∧ s'.received = s.received := by
  unfold leave at h
  split at h
  · split at h
    · exact absurd h (by simp)
    · rename_i m hm
      injection h with h
      subst h
      have hp := ((List.perm_cons_erase (List.mem_of_find?_eq_some hm)).map
        (fun m : Nat × Nat => (m.2, "goto"))).count_eq k
      refine ⟨?_, rfl⟩
      rw [cnt_answer]
      simp only [List.map_cons, List.count_cons] at hp
      simp only [cnt, waiting, List.count_append, List.count_cons, List.count_nil]
      omega
  · injection h with h
    subst h
    exact ⟨rfl, rfl⟩

theorem cnt_step (k) {s s' : State} {a} (h : step s a = some s') (hs : s.received.count k = cnt k s) :
    s'.received.count k = cnt k s' := by
  cases a with
  | receive m =>
    injection h with h; subst h
    exact cnt_receive k s m hs
  | serve t o =>
    obtain ⟨h1, h2⟩ := cnt_serve k h
    rw [h1, h2, hs]
  | drain vs =>
    injection h with h; subst h
    obtain ⟨h1, h2⟩ := cnt_drain k s vs
    rw [h1, h2, hs]
  | resumed =>
    injection h with h; subst h
    simp only [resumedNotified, hs, cnt, waiting, List.map_append, List.count_append, List.map_map,
      Function.comp_def, Answer.key, List.map_nil, List.count_nil]
    omega
  | leave t w =>
    obtain ⟨h1, h2⟩ := cnt_leave k h
    rw [h1, h2, hs]
  | environment =>
    injection h with h; subst h
    exact hs
  | clearStep t =>
    injection h with h; subst h
    exact hs

theorem cnt_run (k) : ∀ (as : List Action) {s s' : State}, run s as = some s' →
    s.received.count k = cnt k s → s'.received.count k = cnt k s' := by
  intro as
  induction as with
  | nil =>
    intro s s' h hs
    injection h with h
    subst h
    exact hs
  | cons a as ih =>
    intro s s' h hs
    simp only [run, Option.bind_eq_some_iff] at h
    obtain ⟨s1, h1, h2⟩ := h
    exact ih h2 (cnt_step k h1 hs)

/-! ### The property -/

/-- **C65**, accounting: whatever the client sends, whatever the threads do and in whatever order, each
request which came is answered once, or waits in one place, or is one of those lost, and in none of
these twice; no answer is for anything else. -/
theorem c65_accounted (auth single : Bool) (as : List Action) (s : State)
    (h : run (start auth single) as = some s) :
    s.received.Perm (s.out.map Answer.key ++ waiting s ++ s.lost.map (·.1)) := by
  rw [List.perm_iff_count]
  intro k
  rw [cnt_run k as h rfl]
  simp only [cnt, List.count_append]

/-- **C65**: if the client gives each request its own number, then no number is answered twice. -/
theorem c65_at_most_once (auth single : Bool) (as : List Action) (s : State)
    (h : run (start auth single) as = some s) (hd : (s.received.map (·.1)).Nodup) :
    (s.out.map (·.seq)).Nodup := by
  have hp := (c65_accounted auth single as s h).map (·.1)
  have hn := hp.nodup_iff.1 hd
  simp only [List.map_append, List.map_map, Function.comp_def, Answer.key] at hn
  exact (List.nodup_append.1 (List.nodup_append.1 hn).1).1

/-- **C65**: an answer carries number and command of a request which came before it. -/
theorem c65_own_request (auth single : Bool) (as : List Action) (s : State)
    (h : run (start auth single) as = some s) (a : Answer) (ha : a ∈ s.out) :
    (a.seq, a.command) ∈ s.received := by
  rw [(c65_accounted auth single as s h).mem_iff]
  simp only [List.mem_append, List.mem_map]
  exact Or.inl (Or.inl ⟨a, ha, rfl⟩)

/-- **C65**: when nothing waits and nothing was lost, exactly the requests which came are answered, each
once. -/
theorem c65_exactly_once (auth single : Bool) (as : List Action) (s : State)
    (h : run (start auth single) as = some s) (hw : waiting s = []) (hl : s.lost = []) :
    s.received.Perm (s.out.map Answer.key) := by
  have hp := c65_accounted auth single as s h
  rw [hw, hl] at hp
  simpa using hp

/-! ### Answered at once -/

theorem out_resumeThreads (s : State) (o) : (resumeThreads s o).out = s.out := by
  unfold resumeThreads
  repeat' split
  all_goals rfl

theorem out_effects (s : State) (r) : (effects s r).out = s.out := by
  unfold effects
  split
  all_goals first
    | rfl
    | (split
       · rfl
       · exact (out_resumeThreads _ _).trans rfl)
    | exact out_resumeThreads _ _

theorem out_login (s : State) (r) : (login s r).out = s.out := by
  unfold login
  split <;> rfl

theorem handler_not_deferred {s : State} {r : Request} (hh : Handled r.command)
    (hd : r.command.name ∉ deferred) :
    (∃ b, handler s r = .answer b) ∨ handler s r = .raise := by
  unfold handler
  split
  all_goals rename_i hc
  all_goals first
    | exact absurd (by rw [hc]; decide) hd
    | exact absurd hc (hh _)
    | skip
  all_goals repeat' split
  all_goals simp

/-- **C65**: a request for anything but the `deferred` commands is answered before the next message is
read, with one response, unless its handler raises and the session ends; so is any message whose number
can be read but which isn't a correct request. -/
theorem c65_answered_at_once (s : State) (r : Request) (hr : s.reading = true)
    (hh : Handled r.command) (hd : r.command.name ∉ deferred) :
    (∃ success, (receive s (.request r)).out
        = s.out ++ [{ seq := r.seq, command := r.command.name, success }])
      ∨ (receive s (.request r)).reading = false := by
  simp only [receive, note, hr, Bool.not_true, Bool.false_eq_true, if_false]
  split
  · rename_i n hc
    exact absurd hc (hh n)
  · split
    · exact Or.inl ⟨false, by simp only [answer, out_login]⟩
    · generalize hs1 : login _ r = s1
      have ho : s1.out = s.out := by rw [← hs1, out_login]
      rcases handler_not_deferred (s := s1) hh hd with ⟨b, hb⟩ | hb
      · refine Or.inl ⟨b, ?_⟩
        simp only [perform, hb, answer, out_effects, ho]
      · refine Or.inr ?_
        simp only [perform, hb, stopReading]

theorem c65_bad_answered (s : State) (n : Nat) (c : String) (hr : s.reading = true) :
    (receive s (.bad n c)).out = s.out ++ [{ seq := n, command := c, success := false }] := by
  simp only [receive, note, hr, Bool.not_true, Bool.false_eq_true, if_false, answer]

/-- **C65**: before the client has authenticated, the answer to every request is a failure, sent at
once. -/
theorem c65_unauthenticated (s : State) (r : Request) (hr : s.reading = true)
    (hh : Handled r.command) (ha : s.authenticated = false) (hc : r.command ≠ .authorize) :
    (receive s (.request r)).out
      = s.out ++ [{ seq := r.seq, command := r.command.name, success := false }] := by
  simp only [receive, note, hr, Bool.not_true, Bool.false_eq_true, if_false]
  split
  · rename_i n h
    exact absurd h (hh n)
  · simp only [login, hc, if_false, ha, Bool.not_false, if_true, answer]

/-- **C65**: breakpoints can't be set before launch or attach, and the client is told so. -/
theorem c65_not_launched (s : State) (r : Request) (hr : s.reading = true)
    (hl : s.launched = false) (hc : r.command = .setBreakpoints ∨ r.command = .setFunctionBreakpoints) :
    (receive s (.request r)).out
      = s.out ++ [{ seq := r.seq, command := r.command.name, success := false }] := by
  rcases hc with hc | hc <;>
    cases ha : s.authenticated <;>
    simp [receive, note, hr, hc, login, ha, perform, handler, hl, answer, effects]

/-- **C65**: a correct request does not end the session. -/
theorem c65_session_goes_on (s : State) (r : Request) (hw : WellFormed r) :
    (receive s (.request r)).reading = s.reading := by
  have hst : ∀ s : State, ∀ t, stepRaises s (.thread t) = false := by
    intro s t
    simp [stepRaises, Obj.isStr]
  have hres : ∀ s o, (resumeThreads s o).reading = s.reading := by
    intro s o
    unfold resumeThreads
    repeat' split
    all_goals rfl
  have heff : ∀ s, (effects s r).reading = s.reading := by
    intro s
    unfold effects
    split
    all_goals first
      | rfl
      | (split
         · rfl
         · exact (hres _ _).trans rfl)
      | exact hres _ _
  have hlog : ∀ s, (login s r).reading = s.reading := by
    intro s
    unfold login
    split <;> rfl
  have hnr : ∀ s, handler s r ≠ .raise := by
    intro s
    have h1 := hw.raises
    have h2 := hw.path
    have h3 := hw.thread
    have h4 := hw.frame
    have h5 := hw.target
    unfold handler postOr
    split
    all_goals rename_i hc
    all_goals simp only [hc, List.mem_cons, reduceCtorEq, List.not_mem_nil, or_false, or_true, true_or,
      or_self, false_or, false_implies, forall_const] at h3 h4 h5
    all_goals try obtain ⟨t, h3⟩ := h3
    all_goals try obtain ⟨f, h4⟩ := h4
    all_goals try obtain ⟨n, h5⟩ := h5
    all_goals try simp only [h1, h2, h3, h4, h5, hst, Obj.isStr, Bool.false_eq_true, if_false,
      Bool.not_true, Bool.or_false]
    all_goals repeat' split
    all_goals simp_all [Obj.isStr]
  simp only [receive]
  split
  · rfl
  · split
    · rfl
    · split
      · exact hlog _
      · unfold perform
        split
        all_goals first
          | exact (heff _).trans (hlog _)
          | exact absurd ‹_› (hnr _)

/-! ### Answered later -/

theorem execute_works (s : State) (p : Post) :
    (p.seq, p.command.name) ∈ (execute s p .works).out.map Answer.key := by
  unfold execute
  split <;> simp [answer, Answer.key]

/-- **C65**: a request which waits for a thread is answered when that thread has gone through its
commands (as many as were before it); a `goto` is then done when the thread leaves its loop. -/
theorem c65_thread_answers (t : Nat) (p : Post) : ∀ (s : State), p ∈ s.posted → p.to = some t →
    ∃ n s', run s (List.replicate n (.serve t .works)) = some s' ∧
      ((p.seq, p.command.name) ∈ s'.out.map Answer.key
        ∨ (p.command = .goto ∧ (t, p.seq) ∈ s'.gotoMsg ∧ s'.gotoStep t = true)) := by
  suffices H : ∀ (k : Nat) (s : State), s.posted.length = k → p ∈ s.posted → p.to = some t →
      ∃ n s', run s (List.replicate n (.serve t .works)) = some s' ∧
        ((p.seq, p.command.name) ∈ s'.out.map Answer.key
          ∨ (p.command = .goto ∧ (t, p.seq) ∈ s'.gotoMsg ∧ s'.gotoStep t = true)) from
    fun s => H _ s rfl
  intro k
  induction k with
  | zero =>
    intro s hl hm
    rw [List.length_eq_zero_iff] at hl
    rw [hl] at hm
    exact absurd hm (by simp)
  | succ k ih =>
    intro s hl hm ht
    cases hf : s.posted.find? (fun p => p.to = some t) with
    | none =>
      rw [List.find?_eq_none] at hf
      exact absurd ht (by simpa using hf p hm)
    | some q =>
      have hq := (find_posted hf).1
      by_cases hpq : q = p
      · subst hpq
        refine ⟨1, if q.command = .goto then doGoto { s with posted := s.posted.erase q } t q.seq
            else execute { s with posted := s.posted.erase q } q .works, ?_, ?_⟩
        · simp only [List.replicate, run, step, serve, hf, Option.bind_some]
        · split
          · rename_i hc
            refine Or.inr ⟨hc, ?_, ?_⟩
            · simp [doGoto]
            · simp [doGoto]
          · exact Or.inl (execute_works _ _)
      · have hstep : ∃ s1, serve s t .works = some s1 ∧ s1.posted = s.posted.erase q := by
          simp only [serve, hf]
          refine ⟨_, rfl, ?_⟩
          split
          · rfl
          · unfold execute
            repeat' split
            all_goals rfl
        obtain ⟨s1, h1, h1p⟩ := hstep
        have hlen : s1.posted.length = k := by
          rw [h1p, List.length_erase_of_mem hq, hl]
          rfl
        have hmem : p ∈ s1.posted := by
          rw [h1p]
          exact (List.mem_erase_of_ne (Ne.symm hpq)).2 hm
        obtain ⟨n, s', hr, hres⟩ := ih s1 hlen hmem ht
        refine ⟨n + 1, s', ?_, hres⟩
        simp only [List.replicate, run, step, h1, Option.bind_some]
        exact hr

/-- **C65**: the `goto` of a thread is answered when it leaves the wait loop, whether the jump could be
made or not. -/
theorem c65_goto_answered (s : State) (t : Nat) (worked : Bool) (m : Nat × Nat)
    (hs : s.gotoStep t = true) (hm : s.gotoMsg.find? (·.1 = t) = some m) :
    ∃ s', step s (.leave t worked) = some s'
      ∧ s'.out = s.out ++ [{ seq := m.2, command := "goto", success := worked }] := by
  simp only [step, leave, hs, if_true, hm]
  exact ⟨_, rfl, rfl⟩

/-- **C65**: every `continue` which waits is answered when threads resume. -/
theorem c65_continue_answered (s : State) :
    ∃ s', step s .resumed = some s' ∧ s'.resumed = [] ∧
      s'.out = s.out ++ s.resumed.map (fun seq => { seq, command := "continue", success := true }) :=
  ⟨_, rfl, rfl, rfl⟩

theorem executeAll_out : ∀ (es : List (Post × Outcome)) (s : State),
    (∀ x ∈ s.out, x ∈ (executeAll s es).out)
      ∧ ∀ e ∈ es, e.2 = .works → (e.1.seq, e.1.command.name) ∈ (executeAll s es).out.map Answer.key := by
  intro es
  induction es with
  | nil =>
    intro s
    exact ⟨fun x hx => hx, by simp⟩
  | cons e es ih =>
    intro s
    obtain ⟨p, o⟩ := e
    obtain ⟨h1, h2⟩ := ih (execute s p o)
    have h0 : ∀ x ∈ s.out, x ∈ (execute s p o).out := by
      intro x hx
      unfold execute
      repeat' split
      all_goals simp [answer, lose, hx]
    refine ⟨fun x hx => h1 x (h0 x hx), ?_⟩
    intro e he hw
    rcases List.mem_cons.1 he with rfl | he
    · cases hw
      have hx := execute_works s p
      obtain ⟨x, hx1, hx2⟩ := List.mem_map.1 hx
      exact List.mem_map.2 ⟨x, h1 x hx1, hx2⟩
    · exact h2 e he hw

theorem collect_all : ∀ (ps : List Post),
    collect ps (List.replicate ps.length (.run .works)) = (ps.map (fun p => (p, .works)), [], none) := by
  intro ps
  induction ps with
  | nil => rfl
  | cons p ps ih => simp only [List.length_cons, List.replicate, collect, ih, List.map_cons]

/-- **C65**: a request which waits for any thread is answered when the queue is emptied and all its
commands can run (which for a stack means that the thread is suspended or half a second has passed). -/
theorem c65_any_answers (s : State) (p : Post) (hm : p ∈ s.posted) (ht : p.to = none) :
    ∃ s', step s (.drain (List.replicate (s.posted.filter isAny).length (.run .works))) = some s'
      ∧ (p.seq, p.command.name) ∈ s'.out.map Answer.key := by
  refine ⟨_, rfl, ?_⟩
  simp only [drain, collect_all]
  refine (executeAll_out _ _).2 (p, .works) ?_ rfl
  simp only [List.mem_map, List.mem_filter]
  exact ⟨p, ⟨hm, by simp [isAny, ht]⟩, rfl⟩

/-- **C65**: in the mode where all threads stop and go together, `continue` is not answered before
threads resume. -/
theorem c65_continue_not_before (s : State) (r : Request) (hr : s.reading = true)
    (ha : s.authenticated = true) (hs : s.single = true) (hc : r.command = .continue_) :
    (receive s (.request r)).out = s.out
      ∧ (receive s (.request r)).resumed = s.resumed ++ [r.seq] := by
  have h : ∀ s o, (resumeThreads s o).resumed = s.resumed := by
    intro s o
    unfold resumeThreads
    repeat' split
    all_goals rfl
  simp [receive, note, hr, hc, login, ha, perform, handler, hs, effects, out_resumeThreads, h]

/-- The commands about a frame or a variable of a stopped thread. -/
def aboutFrame : List Command :=
  [.completions, .stepInTargets, .evaluate, .setExpression, .variables, .setVariable]

/-- **C65**: what is asked about a frame or variable of a stopped thread is left to that thread; if the
thread has gone on, the failure is sent at once. -/
theorem c65_left_to_thread (s : State) (r : Request) (f : Nat) (hr : s.reading = true)
    (ha : s.authenticated = true) (hc : r.command ∈ aboutFrame) (hf : r.frame = .ref f)
    (hn : r.returnName = false) :
    match s.threadOf f with
    | some t => (receive s (.request r)).out = s.out
        ∧ (receive s (.request r)).posted
            = s.posted ++ [{ to := some t, seq := r.seq, command := r.command }]
    | none => (receive s (.request r)).posted = s.posted
        ∧ (receive s (.request r)).out
            = s.out ++ [{ seq := r.seq, command := r.command.name, success := false }] := by
  simp only [aboutFrame, List.mem_cons, List.not_mem_nil, or_false] at hc
  rcases hc with hc | hc | hc | hc | hc | hc <;> cases ht : s.threadOf f <;>
    simp [receive, note, hr, hc, login, ha, perform, handler, postOr, threadOfFrame,
      threadOfVariables, hf, ht, hn, effects, answer]

/-! ### Nothing lost -/

/-- What makes no request lost: correct requests for commands the debugger handles, gotos in threads
which exist, no exception out of code run for a request, and no second goto before the first was
done. -/
def Harmless (s : State) : Action → Prop
  | .receive (.request r) => WellFormed r ∧ Handled r.command
      ∧ (r.command = .goto → ∃ t ∈ s.alive, r.thread = .thread t)
  | .receive .notRequest => False
  | .receive _ => True
  | .serve t o => o ≠ .raises ∧ ∀ m ∈ s.gotoMsg, m.1 ≠ t
  | .drain vs => ∀ v ∈ vs, v ≠ .raise ∧ v ≠ .run .raises
  | _ => True

theorem handler_nothing {s : State} {r : Request} (h : handler s r = .nothing)
    (hh : Handled r.command) :
    r.command = .goto ∧ findThread s r.thread = none := by
  unfold handler postOr at h
  repeat' split at h
  all_goals first
    | exact ⟨‹_›, ‹_›⟩
    | exact absurd ‹_› (hh _)
    | exact Effect.noConfusion h

theorem lost_resumeThreads (s : State) (o) : (resumeThreads s o).lost = s.lost := by
  unfold resumeThreads
  repeat' split
  all_goals rfl

theorem lost_effects (s : State) (r) : (effects s r).lost = s.lost := by
  unfold effects
  split
  all_goals first
    | rfl
    | (split
       · rfl
       · exact (lost_resumeThreads _ _).trans rfl)
    | exact lost_resumeThreads _ _

theorem lost_execute {s : State} {p : Post} {o} (h : o ≠ .raises) :
    (execute s p o).lost = s.lost ∧ (execute s p o).reading = s.reading := by
  unfold execute
  repeat' split
  all_goals first
    | exact ⟨rfl, rfl⟩
    | exact absurd rfl h

theorem lost_executeAll : ∀ (es : List (Post × Outcome)) (s : State), (∀ e ∈ es, e.2 ≠ .raises) →
    (executeAll s es).lost = s.lost ∧ (executeAll s es).reading = s.reading := by
  intro es
  induction es with
  | nil => intro s _; exact ⟨rfl, rfl⟩
  | cons e es ih =>
    intro s h
    obtain ⟨p, o⟩ := e
    have h1 := lost_execute (s := s) (p := p) (h (p, o) (by simp))
    have h2 := ih (execute s p o) (fun e he => h e (by simp [he]))
    exact ⟨h2.1.trans h1.1, h2.2.trans h1.2⟩

theorem collect_harmless : ∀ (ps : List Post) (vs : List Verdict),
    (∀ v ∈ vs, v ≠ .raise ∧ v ≠ .run .raises) →
    (collect ps vs).2.2 = none ∧ ∀ e ∈ (collect ps vs).1, e.2 ≠ .raises := by
  intro ps vs
  fun_induction collect ps vs
  · intro _; simp
  all_goals rename_i h1
  · intro h
    have h2 := h1 (by simp)
    simp_all
    exact h2
  · intro h
    have h2 := h1 (fun v hv => h v (by simp [hv]))
    rename_i o vs _ _ _ _
    have h3 := (h (.run o) (by simp)).2
    simp_all
    exact h2
  · intro h
    have h2 := h1 (fun v hv => h v (by simp [hv]))
    simp_all
    exact h2
  · intro h
    exact absurd rfl (h .raise (by simp)).1

theorem c65_step_loses_nothing {s s' : State} {a : Action} (h : step s a = some s')
    (hr : s.reading = true) (hh : Harmless s a) : s'.lost = s.lost ∧ s'.reading = true := by
  cases a with
  | receive m =>
    injection h with h; subst h
    cases m with
    | garbage => exact ⟨rfl, hr⟩
    | notRequest => exact hh.elim
    | bad n c =>
      simp only [receive, note, hr, Bool.not_true, Bool.false_eq_true, if_false, answer]
      exact ⟨trivial, trivial⟩
    | request r =>
      obtain ⟨hw, hc, hg⟩ := hh
      refine ⟨?_, by rw [c65_session_goes_on s r hw, hr]⟩
      have hgo := c65_session_goes_on s r hw
      simp only [receive, note, hr, Bool.not_true, Bool.false_eq_true, if_false] at hgo ⊢
      split
      · rename_i n hn
        exact absurd hn (hc n)
      · have hlog : ∀ s : State, (login s r).lost = s.lost ∧ (login s r).alive = s.alive := by
          intro s
          unfold login
          split <;> exact ⟨rfl, rfl⟩
        split
        · exact (hlog _).1
        · generalize hs1 : login _ r = s1 at *
          have h1 : s1.lost = s.lost := by rw [← hs1]; exact (hlog _).1
          have h2 : s1.alive = s.alive := by rw [← hs1]; exact (hlog _).2
          unfold perform
          split
          all_goals first
            | exact (lost_effects _ _).trans h1
            | skip
          · rename_i hn
            obtain ⟨hgt, hnone⟩ := handler_nothing hn hc
            obtain ⟨t, hal, ht⟩ := hg hgt
            rw [ht, findThread, h2, if_pos hal] at hnone
            exact absurd hnone (by simp)
          · rename_i hn
            exfalso
            have hx : (perform s1 r).reading = false := by
              unfold perform
              rw [hn]
              rfl
            repeat' split at hgo
            all_goals first
              | exact absurd ‹_› (hc _)
              | simp_all
  | serve t o =>
    obtain ⟨ho, hm⟩ := hh
    simp only [step, serve] at h
    split at h
    · exact absurd h (by simp)
    · injection h with h
      split at h
      · subst h
        refine ⟨?_, hr⟩
        have : s.gotoMsg.filter (·.1 = t) = [] := by
          rw [List.filter_eq_nil_iff]
          intro m hm'
          simpa using hm m hm'
        simp only [doGoto, this, List.map_nil, List.append_nil]
      · subst h
        exact ⟨(lost_execute ho).1, (lost_execute ho).2.trans hr⟩
  | drain vs =>
    injection h with h; subst h
    have hc := collect_harmless (s.posted.filter isAny) vs hh
    unfold drain
    dsimp only
    split
    · rename_i e b he
      rw [he] at hc
      have := lost_executeAll e
        { s with posted := s.posted.filter (fun p => !isAny p) ++ b } hc.2
      exact ⟨this.1, this.2.trans hr⟩
    · rename_i he
      rw [he] at hc
      exact absurd hc.1 (by simp)
  | resumed => injection h with h; subst h; exact ⟨rfl, hr⟩
  | leave t w =>
    simp only [step, leave] at h
    repeat' split at h
    all_goals first
      | (injection h with h; subst h; exact ⟨rfl, hr⟩)
      | exact nomatch h
  | environment => injection h with h; subst h; exact ⟨rfl, hr⟩
  | clearStep t => injection h with h; subst h; exact ⟨rfl, hr⟩

/-- A history all of whose actions are harmless when they happen. -/
def HarmlessRun (s : State) : List Action → Prop
  | [] => True
  | a :: as => Harmless s a ∧ ∀ s', step s a = some s' → HarmlessRun s' as

theorem harmless_run : ∀ (as : List Action) {s s' : State}, run s as = some s' →
    HarmlessRun s as → s.reading = true → s'.lost = s.lost := by
  intro as
  induction as with
  | nil => intro s s' h _ _; injection h with h; subst h; rfl
  | cons a as ih =>
    intro s s' h hh hr
    simp only [run, Option.bind_eq_some_iff] at h
    obtain ⟨s1, h1, h2⟩ := h
    obtain ⟨ha, hb⟩ := c65_step_loses_nothing h1 hr hh.1
    exact (ih h2 (hh.2 s1 h1) hb).trans ha

/-- **C65**: in a history without the mishaps which `Harmless` excludes, every request which came has
been answered exactly once when no thread has anything left to do. -/
theorem c65_every_request_answered (auth single : Bool) (as : List Action) (s : State)
    (h : run (start auth single) as = some s) (hh : HarmlessRun (start auth single) as)
    (hw : waiting s = []) : s.received.Perm (s.out.map Answer.key) :=
  c65_exactly_once auth single as s h hw (harmless_run as h hh rfl)

/-! ### Cases -/

private def world : Action :=
  .environment [1, 2] (fun r => if r < 10 then some 1 else none) (fun t => t == 1) (fun _ => [])

private def ask (n : Nat) (c : Command) (t : Obj := .thread 1) (f : Obj := .ref 3)
    (target : Option Nat := none) : Action :=
  .receive (.request { seq := n, command := c, thread := t, frame := f, target })

/-- The answers of a history, as number, command, success. -/
private def answers (as : List Action) : Option (List (Nat × String × Bool)) :=
  (run (start true true) as).map (fun s => s.out.map (fun a => (a.seq, a.command, a.success)))

/-- An ordinary session: answers come in another order than the requests. -/
private def session : List Action :=
  [world, ask 1 .initialize, ask 2 .launch, ask 3 .setBreakpoints, ask 4 .stackTrace,
   ask 5 .variables, ask 6 .scopes, ask 7 .evaluate, ask 8 .gotoTargets,
   ask 9 .goto (target := some 0), .serve 1 .works, .serve 1 .fails, .serve 1 .works,
   .leave 1 true, ask 10 .continue_, ask 11 .threads, .resumed]

theorem c65_example :
    answers session = some [(1, "initialize", true), (2, "launch", true), (3, "setBreakpoints", true),
      (4, "stackTrace", true), (6, "scopes", true), (8, "gotoTargets", true), (5, "variables", true),
      (7, "evaluate", false), (9, "goto", true), (11, "threads", true), (10, "continue", true)]
    ∧ (run (start true true) session).map waiting = some []
    ∧ (run (start true true) session).map (fun s => (s.lost.length, s.received.length)) = some (0, 11) := by
  decide +kernel

theorem c65_wellFormed_example :
    WellFormed { seq := 9, command := .goto, thread := .thread 1, target := some 0 } :=
  ⟨rfl, rfl, fun _ => ⟨1, rfl⟩, nofun, fun _ => ⟨0, rfl⟩⟩

theorem c65_harmless_example : HarmlessRun (start true true)
    [world, ask 1 .launch, ask 2 .evaluate, .serve 1 .fails, ask 3 .continue_, .resumed] := by
  have hl : WellFormed { seq := 1, command := .launch, thread := .thread 1, frame := .ref 3 } :=
    ⟨rfl, rfl, fun _ => ⟨1, rfl⟩, nofun, nofun⟩
  have he : WellFormed { seq := 2, command := .evaluate, thread := .thread 1, frame := .ref 3 } :=
    ⟨rfl, rfl, fun _ => ⟨1, rfl⟩, nofun, nofun⟩
  have hc : WellFormed { seq := 3, command := .continue_, thread := .thread 1, frame := .ref 3 } :=
    ⟨rfl, rfl, fun _ => ⟨1, rfl⟩, nofun, nofun⟩
  refine ⟨trivial, fun s1 h1 => ⟨⟨hl, nofun, nofun⟩, fun s2 h2 => ⟨⟨he, nofun, nofun⟩, fun s3 h3 => ?_⟩⟩⟩
  injection h1 with h1; subst h1
  injection h2 with h2; subst h2
  injection h3 with h3; subst h3
  refine ⟨⟨nofun, ?_⟩, fun s4 _ => ⟨⟨hc, nofun, nofun⟩, fun s5 _ => ⟨trivial, fun _ _ => trivial⟩⟩⟩
  intro m hm
  exact absurd (show m ∈ ([] : List (Nat × Nat)) from hm) (by simp)

/-! ### Ways in which requests stay unanswered -/

/-- Commands of the protocol which the debugger doesn't have get no answer at all. -/
theorem c65_unhandled_witness (s : State) (n : Nat) (name : String) (hr : s.reading = true) :
    (receive s (.request { seq := n, command := .other name })).out = s.out := by
  simp [receive, note, hr, lose]

/-- A `pause` for thread 0, a `scopes` for a thread's id or a `setBreakpoints` without a path end the
session: that request and all later ones are not answered. -/
theorem c65_session_ends_witness :
    answers [world, ask 1 .launch, ask 2 .pause (t := .zero), ask 3 .threads]
        = some [(1, "launch", true)]
    ∧ answers [world, ask 1 .launch, ask 2 .scopes (f := .thread 1), ask 3 .threads]
        = some [(1, "launch", true)]
    ∧ answers [world, ask 1 .launch,
        .receive (.request { seq := 2, command := .setBreakpoints, path := false }), ask 3 .threads]
        = some [(1, "launch", true)]
    ∧ answers [world, ask 1 .launch, .receive .notRequest, ask 3 .threads]
        = some [(1, "launch", true)] := by
  decide +kernel

/-- A `goto` for a thread which has ended is not answered; a `next` for it is answered with success. -/
theorem c65_thread_gone_witness :
    answers [world, ask 1 .gotoTargets, ask 2 .goto (t := .thread 7) (target := some 0),
        ask 3 .next (t := .thread 7)]
      = some [(1, "gotoTargets", true), (3, "next", true)] := by
  decide +kernel

/-- A `continue` handled after the `goto` was taken from the queue and before the thread left its wait
loop makes the answer to the `goto` disappear. -/
theorem c65_goto_continue_witness :
    answers [world, ask 1 .gotoTargets, ask 2 .goto (target := some 0), .serve 1 .works,
        ask 3 .continue_, .leave 1 true, .resumed]
      = some [(1, "gotoTargets", true), (3, "continue", true)] := by
  decide +kernel

/-- In the mode where all threads stop together, a `continue` when no thread is stopped is only
answered when some later stop is resumed: two `continue`s are then answered at the same time. -/
theorem c65_continue_waits_witness :
    answers [world, ask 1 .continue_, ask 2 .threads] = some [(2, "threads", true)]
    ∧ answers [world, ask 1 .continue_, ask 2 .threads, ask 3 .continue_, .resumed]
      = some [(2, "threads", true), (1, "continue", true), (3, "continue", true)] := by
  decide +kernel

/-- An exception out of the evaluated code which isn't an `Exception` (`raise SystemExit` typed in the
console) leaves the request unanswered. -/
theorem c65_system_exit_witness :
    answers [world, ask 1 .evaluate, .serve 1 .raises, ask 2 .threads]
      = some [(2, "threads", true)] := by
  decide +kernel

/-- Completions for a frame which is gone are answered by a message which isn't JSON. -/
theorem c65_completions_witness :
    (run (start true true) [world, ask 1 .completions, .serve 1 .fails]).map
        (fun s => s.out.map (fun a => (a.seq, a.json)))
      = some [(1, false)] := by
  decide +kernel

/-- An exception while checking whether a stack can be sent loses the other requests taken from the
queue in the same round. -/
theorem c65_drain_witness :
    answers [world, ask 1 .evaluate (f := .null), ask 2 .stackTrace (t := .thread 2),
        .drain [.run .works, .raise], .drain [.run .works, .run .works]]
      = some [] := by
  decide +kernel

/-- After a `goto` which worked, a thread released by anything but a resume (the debugger being
disposed of) does it again, with no request to answer: an exception in the debuggee's thread. -/
theorem c65_goto_again_witness :
    (run (start true true) [world, ask 1 .gotoTargets, ask 2 .goto (target := some 0), .serve 1 .works,
        .leave 1 true]).isSome = true
    ∧ (run (start true true) [world, ask 1 .gotoTargets, ask 2 .goto (target := some 0),
        .serve 1 .works, .leave 1 true, .leave 1 true]).isNone = true := by
  decide +kernel

end Requests
