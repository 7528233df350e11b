import Verif.Requests.Props

/-!
# A response says whether the request was carried out (C91)
-/

namespace Requests

/-! ### Specification -/

/-- Whether the client is authenticated after these actions: as the last authorization said. -/
def authAfter (auth : Bool) : List Action → Bool
  | [] => auth
  | .receive (.request r) :: as => authAfter (if r.command = .authorize then r.tokenOk else auth) as
  | _ :: as => authAfter auth as

/-- The requests that came while the client was authenticated, in order. -/
def accepted (auth : Bool) : List Action → List Request
  | [] => []
  | .receive (.request r) :: as =>
    if authAfter auth [.receive (.request r)] then r :: accepted true as else accepted false as
  | _ :: as => accepted auth as

/-- Is the debugger in use: was the last of launch, attach and disconnect (but for a disconnect that ends the program) a launch or
attach? -/
def inUse (rs : List Request) : Bool :=
  match rs.reverse.find? (fun r => r.command = .launch ∨ r.command = .attach ∨ (r.command = .disconnect ∧ r.terminate = false)) with
  | some r => r.command ≠ .disconnect
  | none => false

/-- The number of targets of gotos the client was given. -/
def targetsGiven (rs : List Request) : Nat := (rs.filter fun r => r.command = .gotoTargets).length

/-- Is one notification sent for all threads? As said last. -/
def singleAfter (single : Bool) (rs : List Request) : Bool :=
  ((rs.filter fun r => r.command = .launch ∨ r.command = .attach ∨ r.command = .setDebuggerProperty).reverse.findSome? (·.single)).getD single

/-- The state of the program's threads. -/
structure Threads where
  alive : List Nat
  threadOf : Nat → Option Nat
  stackReady : Nat → Bool
  stepTargets : Nat → List Nat

/-- The state of the threads after these actions. -/
def threadsAfter (e : Threads) : List Action → Threads
  | [] => e
  | .environment alive threadOf stackReady stepTargets :: as => threadsAfter ⟨alive, threadOf, stackReady, stepTargets⟩ as
  | _ :: as => threadsAfter e as

def noThreads : Threads := ⟨[], fun _ => none, fun _ => false, fun _ => []⟩

/-- What a request refers to. -/
def Obj.number : Obj → Option Nat
  | .ref r => some r
  | _ => none
def Obj.numberOrScope : Obj → Option Nat
  | .ref r => some r
  | .scope r => some r
  | _ => none

/-- A request is refused when what it needs is not there. -/
def Refused (rs : List Request) (e : Threads) (r : Request) : Prop :=
  match r.command with
  -- breakpoints can only be set while the debugger is in use
  | .setBreakpoints | .setFunctionBreakpoints => inUse rs = false
  -- no thread is suspended with this frame
  | .completions | .stepInTargets | .setExpression => r.frame.number.bind e.threadOf = none
  | .evaluate => r.frame ≠ .null ∧ r.frame.number.bind e.threadOf = none
  -- or with this variable; values returned by functions can't be changed
  | .variables => r.frame.numberOrScope.bind e.threadOf = none
  | .setVariable => r.returnName = true ∨ r.frame.numberOrScope.bind e.threadOf = none
  -- no such thread
  | .exceptionInfo => ¬ ∃ t ∈ e.alive, r.thread = .thread t
  -- not a place to step into that was offered for this thread
  | .stepIn => ∃ n, r.target = some n ∧ ¬ ∃ t ∈ e.alive, r.thread = .thread t ∧ n ∈ e.stepTargets t
  -- not a place to go to that was offered
  | .goto => ∃ n, r.target = some n ∧ targetsGiven rs ≤ n
  | .source => r.found = false
  | _ => False

/-- All the messages are requests of commands the debugger has, with correct arguments. -/
def Correct (as : List Action) : Prop :=
  ∀ m, Action.receive m ∈ as → m = .garbage ∨ (∃ n c, m = .bad n c) ∨ ∃ r, m = .request r ∧ WellFormed r ∧ Handled r.command

/-! ### What the state says about the history -/

structure Track (auth single : Bool) (as : List Action) (s : State) : Prop where
  reading : s.reading = true
  authenticated : s.authenticated = authAfter auth as
  launched : s.launched = inUse (accepted auth as)
  single : s.single = singleAfter single (accepted auth as)
  gotoTargets : s.gotoTargets = targetsGiven (accepted auth as)
  alive : s.alive = (threadsAfter noThreads as).alive
  threadOf : s.threadOf = (threadsAfter noThreads as).threadOf
  stackReady : s.stackReady = (threadsAfter noThreads as).stackReady
  stepTargets : s.stepTargets = (threadsAfter noThreads as).stepTargets

/-- the fields `Track` looks at -/
def sameFields (s s' : State) : Prop :=
  s'.reading = s.reading ∧ s'.authenticated = s.authenticated ∧ s'.launched = s.launched ∧ s'.single = s.single ∧
    s'.gotoTargets = s.gotoTargets ∧ s'.alive = s.alive ∧ s'.threadOf = s.threadOf ∧ s'.stackReady = s.stackReady ∧
    s'.stepTargets = s.stepTargets

theorem sameFields.refl (s : State) : sameFields s s := ⟨rfl, rfl, rfl, rfl, rfl, rfl, rfl, rfl, rfl⟩
theorem sameFields.trans {a b c : State} (h1 : sameFields a b) (h2 : sameFields b c) : sameFields a c := by
  obtain ⟨a1, a2, a3, a4, a5, a6, a7, a8, a9⟩ := h1
  obtain ⟨b1, b2, b3, b4, b5, b6, b7, b8, b9⟩ := h2
  exact ⟨b1.trans a1, b2.trans a2, b3.trans a3, b4.trans a4, b5.trans a5, b6.trans a6, b7.trans a7, b8.trans a8, b9.trans a9⟩

theorem same_answer (s : State) (n c b j) : sameFields s (answer s n c b j) := sameFields.refl s
theorem same_resumeThreads (s : State) (o) : sameFields s (resumeThreads s o) := by
  unfold resumeThreads
  split
  · exact sameFields.refl s
  · split <;> exact sameFields.refl s
  · exact sameFields.refl s
theorem same_execute (s : State) (p : Post) (o) : sameFields s (execute s p o) := by
  unfold execute
  split <;> first
    | exact same_answer ..
    | (split <;> exact sameFields.refl s)
theorem same_executeAll : ∀ (es : List (Post × Outcome)) (s : State), sameFields s (executeAll s es)
  | [], s => sameFields.refl s
  | (p, o) :: es, s => (same_execute s p o).trans (same_executeAll es _)

theorem same_serve {s s' : State} {t o} (h : serve s t o = some s') : sameFields s s' := by
  unfold serve at h
  split at h
  · cases h
  · simp only [Option.some.injEq] at h
    subst h
    split
    · exact sameFields.refl s
    · exact (sameFields.refl s).trans (same_execute { s with posted := _ } _ _)
theorem same_drain (s : State) (vs) : sameFields s (drain s vs) := by
  unfold drain
  simp only
  split
  · exact (sameFields.refl s).trans (same_executeAll _ _)
  · exact sameFields.refl s
theorem same_leave {s s' : State} {t w} (h : leave s t w = some s') : sameFields s s' := by
  unfold leave at h
  split at h
  · split at h
    · cases h
    · simp only [Option.some.injEq] at h; subst h; exact sameFields.refl s
  · simp only [Option.some.injEq] at h; subst h; exact sameFields.refl s

theorem authAfter_append (auth : Bool) (as bs : List Action) : authAfter auth (as ++ bs) = authAfter (authAfter auth as) bs := by
  induction as generalizing auth with
  | nil => rfl
  | cons a as ih =>
    rcases a with m | _ | _ | _ | _ | _ | _ <;> try exact ih auth
    rcases m with _ | _ | _ | r <;> try exact ih auth
    exact ih _

theorem accepted_append (auth : Bool) (as bs : List Action) :
    accepted auth (as ++ bs) = accepted auth as ++ accepted (authAfter auth as) bs := by
  induction as generalizing auth with
  | nil => rfl
  | cons a as ih =>
    rcases a with m | _ | _ | _ | _ | _ | _ <;> try exact ih auth
    rcases m with _ | _ | _ | r <;> try exact ih auth
    have h1 : authAfter auth (.receive (.request r) :: as) = authAfter (authAfter auth [.receive (.request r)]) as := rfl
    rw [h1]
    simp only [List.cons_append, accepted]
    by_cases h : authAfter auth [.receive (.request r)] = true
    · rw [if_pos h, if_pos h, h, ih]; rfl
    · rw [if_neg h, if_neg h, Bool.eq_false_iff.2 h, ih]

theorem threadsAfter_append (e : Threads) (as bs : List Action) : threadsAfter e (as ++ bs) = threadsAfter (threadsAfter e as) bs := by
  induction as generalizing e with
  | nil => rfl
  | cons a as ih => cases a <;> first | exact ih _ | exact ih e

theorem inUse_snoc (rs : List Request) (r : Request) : inUse (rs ++ [r]) =
    if r.command = .launch ∨ r.command = .attach then true
    else if r.command = .disconnect ∧ r.terminate = false then false else inUse rs := by
  unfold inUse
  rw [List.reverse_append, List.reverse_singleton, List.singleton_append, List.find?_cons]
  by_cases h1 : r.command = .launch ∨ r.command = .attach
  · rcases h1 with h1 | h1 <;> simp [h1]
  · simp only [not_or] at h1
    by_cases h2 : r.command = .disconnect ∧ r.terminate = false
    · simp [h2]
    · simp [h1, h2]

theorem targetsGiven_snoc (rs : List Request) (r : Request) :
    targetsGiven (rs ++ [r]) = targetsGiven rs + if r.command = .gotoTargets then 1 else 0 := by
  unfold targetsGiven
  rw [List.filter_append, List.length_append]
  by_cases h : r.command = .gotoTargets <;> simp [h]

theorem singleAfter_snoc (single : Bool) (rs : List Request) (r : Request) : singleAfter single (rs ++ [r]) =
    if r.command = .launch ∨ r.command = .attach ∨ r.command = .setDebuggerProperty then r.single.getD (singleAfter single rs)
    else singleAfter single rs := by
  unfold singleAfter
  rw [List.filter_append]
  by_cases h : r.command = .launch ∨ r.command = .attach ∨ r.command = .setDebuggerProperty
  · have : [r].filter (fun r => decide (r.command = .launch ∨ r.command = .attach ∨ r.command = .setDebuggerProperty)) = [r] := by
      simp [h]
    rw [this, if_pos h]
    cases hs : r.single <;> simp [hs]
  · have : [r].filter (fun r => decide (r.command = .launch ∨ r.command = .attach ∨ r.command = .setDebuggerProperty)) = [] := by
      simp [h]
    rw [this, if_neg h]
    simp

/-- what `effects` does to the fields -/
theorem effects_fields (s : State) (r : Request) :
    (effects s r).launched = (if r.command = .launch ∨ r.command = .attach then true
      else if r.command = .disconnect ∧ r.terminate = false then false else s.launched) ∧
    (effects s r).single = (if r.command = .launch ∨ r.command = .attach ∨ r.command = .setDebuggerProperty then r.single.getD s.single
      else s.single) ∧
    (effects s r).gotoTargets = s.gotoTargets + (if r.command = .gotoTargets then 1 else 0) ∧
    (effects s r).reading = s.reading ∧ (effects s r).authenticated = s.authenticated ∧ (effects s r).alive = s.alive ∧
    (effects s r).threadOf = s.threadOf ∧ (effects s r).stackReady = s.stackReady ∧ (effects s r).stepTargets = s.stepTargets := by
  unfold effects
  split
  · rename_i h; simp [h]
  · rename_i h; simp [h]
  · rename_i h; simp [h]
  · rename_i h
    cases ht : r.terminate
    · obtain ⟨a1, a2, a3, a4, a5, a6, a7, a8, a9⟩ := same_resumeThreads { s with launched := false } none
      simp [h, a1, a2, a3, a4, a5, a6, a7, a8, a9]
    · simp [h]
  · rename_i h
    obtain ⟨a1, a2, a3, a4, a5, a6, a7, a8, a9⟩ := same_resumeThreads s (if s.single then none else some r.thread)
    simp [h, a1, a2, a3, a4, a5, a6, a7, a8, a9]
  · rename_i h; simp [h]
  · rename_i h1 h2 h3 h4 h5 h6
    have h1 : ¬ r.command = .launch := h1
    have h2 : ¬ r.command = .attach := h2
    have h3 : ¬ r.command = .setDebuggerProperty := h3
    have h4 : ¬ r.command = .disconnect := h4
    have h6 : ¬ r.command = .gotoTargets := h6
    simp [h1, h2, h3, h4, h6]

theorem perform_same (s : State) (r : Request) (hne : handler s r ≠ .raise) : sameFields (effects s r) (perform s r) := by
  unfold perform
  simp only
  split <;> try exact sameFields.refl _
  rename_i h; exact (hne h).elim

theorem handler_correct {s : State} {r : Request} (hw : WellFormed r) : handler s r ≠ .raise := by
  have hst : ∀ t, stepRaises s (.thread t) = false := fun t => by simp [stepRaises, Obj.isStr]
  have h1 := hw.raises
  have h2 := hw.path
  have h3 := hw.thread
  have h4 := hw.frame
  have h5 := hw.target
  unfold handler postOr
  split
  all_goals rename_i hc
  all_goals simp only [hc, List.mem_cons, reduceCtorEq, List.not_mem_nil, or_false, or_true, true_or,
    or_self, false_or, false_implies, forall_const] at h3 h4 h5
  all_goals try obtain ⟨t, h3⟩ := h3
  all_goals try obtain ⟨f, h4⟩ := h4
  all_goals try obtain ⟨n, h5⟩ := h5
  all_goals try simp only [h1, h2, h3, h4, h5, hst, Obj.isStr, Bool.false_eq_true, if_false,
    Bool.not_true, Bool.or_false]
  all_goals repeat' split
  all_goals simp_all [Obj.isStr]

theorem receive_handled {s : State} {r : Request} (hr : s.reading = true) (hh : Handled r.command) :
    receive s (.request r) =
      if (login (note s r.seq r.command.name) r).authenticated then perform (login (note s r.seq r.command.name) r) r
      else answer (login (note s r.seq r.command.name) r) r.seq r.command.name false := by
  simp only [receive]
  rw [if_neg (by simp [note, hr])]
  split
  · rename_i n h; exact absurd h (hh n)
  · cases (login (note s r.seq r.command.name) r).authenticated <;> rfl

theorem login_fields (s : State) (r : Request) :
    login s r = { s with authenticated := if r.command = .authorize then r.tokenOk else s.authenticated } := by
  unfold login; split <;> rfl

theorem track_request {auth single : Bool} {as : List Action} {s : State} (ht : Track auth single as s) {r : Request}
    (hw : WellFormed r) (hh : Handled r.command) :
    Track auth single (as ++ [.receive (.request r)]) (receive s (.request r)) := by
  obtain ⟨t1, t2, t3, t4, t5, t6, t7, t8, t9⟩ := ht
  rw [receive_handled t1 hh]
  have ha : (login (note s r.seq r.command.name) r).authenticated = authAfter auth (as ++ [.receive (.request r)]) := by
    rw [login_fields, authAfter_append, ← t2]; rfl
  have hb : accepted auth (as ++ [.receive (.request r)]) =
      accepted auth as ++ if authAfter auth (as ++ [.receive (.request r)]) then [r] else [] := by
    rw [accepted_append, authAfter_append]
    simp only [accepted]
  have hth : threadsAfter noThreads (as ++ [.receive (.request r)]) = threadsAfter noThreads as := by
    rw [threadsAfter_append]; rfl
  by_cases hauth : authAfter auth (as ++ [.receive (.request r)]) = true
  · rw [if_pos (ha.trans hauth)]
    rw [if_pos hauth] at hb
    obtain ⟨b1, b2, b3, b4, b5, b6, b7, b8, b9⟩ := perform_same _ _ (handler_correct (s := login (note s r.seq r.command.name) r) hw)
    obtain ⟨e1, e2, e3, e4, e5, e6, e7, e8, e9⟩ := effects_fields (login (note s r.seq r.command.name) r) r
    have hl := login_fields (note s r.seq r.command.name) r
    refine ⟨?_, ?_, ?_, ?_, ?_, ?_, ?_, ?_, ?_⟩
    · rw [b1, e4, hl]; exact t1
    · rw [b2, e5, ha]
    · rw [b3, e1, hb, inUse_snoc, hl, ← t3]; rfl
    · rw [b4, e2, hb, singleAfter_snoc, hl, ← t4]; rfl
    · rw [b5, e3, hb, targetsGiven_snoc, hl, ← t5]; rfl
    · rw [b6, e6, hth, hl]; exact t6
    · rw [b7, e7, hth, hl]; exact t7
    · rw [b8, e8, hth, hl]; exact t8
    · rw [b9, e9, hth, hl]; exact t9
  · rw [if_neg (by rw [ha]; exact hauth)]
    rw [if_neg hauth, List.append_nil] at hb
    have hl := login_fields (note s r.seq r.command.name) r
    refine ⟨?_, ?_, ?_, ?_, ?_, ?_, ?_, ?_, ?_⟩
    · rw [hl]; exact t1
    · exact ha
    · rw [hb, hl]; exact t3
    · rw [hb, hl]; exact t4
    · rw [hb, hl]; exact t5
    · rw [hth, hl]; exact t6
    · rw [hth, hl]; exact t7
    · rw [hth, hl]; exact t8
    · rw [hth, hl]; exact t9

theorem track_same {auth single : Bool} {as : List Action} {s s' : State} {a : Action} (ht : Track auth single as s)
    (hs : sameFields s s') (h1 : ∀ b, authAfter b [a] = b) (h2 : ∀ b, accepted b [a] = []) (h3 : ∀ e, threadsAfter e [a] = e) :
    Track auth single (as ++ [a]) s' := by
  obtain ⟨t1, t2, t3, t4, t5, t6, t7, t8, t9⟩ := ht
  obtain ⟨b1, b2, b3, b4, b5, b6, b7, b8, b9⟩ := hs
  refine ⟨?_, ?_, ?_, ?_, ?_, ?_, ?_, ?_, ?_⟩ <;>
    try simp only [authAfter_append, accepted_append, threadsAfter_append, h1, h2, h3, List.append_nil]
  · rw [b1, t1]
  · rw [b2, t2]
  · rw [b3, t3]
  · rw [b4, t4]
  · rw [b5, t5]
  · rw [b6, t6]
  · rw [b7, t7]
  · rw [b8, t8]
  · rw [b9, t9]

theorem track_step {auth single : Bool} {as : List Action} {s s' : State} {a : Action} (ht : Track auth single as s)
    (h : step s a = some s') (hc : Correct (as ++ [a])) : Track auth single (as ++ [a]) s' := by
  cases a with
  | receive m =>
    simp only [step, Option.some.injEq] at h
    subst h
    rcases hc m (by simp) with rfl | ⟨n, c, rfl⟩ | ⟨r, rfl, hw, hh⟩
    · exact track_same ht (sameFields.refl s) (fun _ => rfl) (fun _ => rfl) (fun _ => rfl)
    · refine track_same ht ?_ (fun _ => rfl) (fun _ => rfl) (fun _ => rfl)
      simp only [receive]
      split <;> exact sameFields.refl s
    · exact track_request ht hw hh
  | serve t o => exact track_same ht (same_serve h) (fun _ => rfl) (fun _ => rfl) (fun _ => rfl)
  | drain vs =>
    simp only [step, Option.some.injEq] at h
    subst h
    exact track_same ht (same_drain s vs) (fun _ => rfl) (fun _ => rfl) (fun _ => rfl)
  | resumed =>
    simp only [step, Option.some.injEq] at h
    subst h
    exact track_same ht (sameFields.refl s) (fun _ => rfl) (fun _ => rfl) (fun _ => rfl)
  | leave t w => exact track_same ht (same_leave h) (fun _ => rfl) (fun _ => rfl) (fun _ => rfl)
  | environment alive threadOf stackReady stepTargets =>
    simp only [step, Option.some.injEq] at h
    subst h
    obtain ⟨t1, t2, t3, t4, t5, t6, t7, t8, t9⟩ := ht
    refine ⟨?_, ?_, ?_, ?_, ?_, ?_, ?_, ?_, ?_⟩ <;>
      simp [authAfter_append, accepted_append, threadsAfter_append, authAfter, accepted, threadsAfter, *]
  | clearStep t =>
    simp only [step, Option.some.injEq] at h
    subst h
    exact track_same ht (sameFields.refl s) (fun _ => rfl) (fun _ => rfl) (fun _ => rfl)

theorem track_run {auth single : Bool} : ∀ (bs as : List Action) {s s' : State}, Track auth single as s → run s bs = some s' →
    Correct (as ++ bs) → Track auth single (as ++ bs) s' := by
  intro bs
  induction bs with
  | nil => intro as s s' ht h _; simp only [run, Option.some.injEq] at h; subst h; simpa using ht
  | cons a bs ih =>
    intro as s s' ht h hc
    simp only [run, Option.bind_eq_some_iff] at h
    obtain ⟨s1, h1, h2⟩ := h
    have hc1 : Correct (as ++ [a]) := fun m hm => hc m (by simp at hm ⊢; rcases hm with hm | hm <;> simp [hm])
    have := ih (as ++ [a]) (track_step ht h1 hc1) h2 (by simpa using hc)
    simpa using this

theorem track_start (auth single : Bool) : Track auth single [] (start auth single) :=
  ⟨rfl, rfl, rfl, rfl, rfl, rfl, rfl, rfl, rfl⟩

theorem track {auth single : Bool} {as : List Action} {s : State} (h : run (start auth single) as = some s) (hc : Correct as) :
    Track auth single as s := by
  simpa using track_run as [] (track_start auth single) h (by simpa using hc)

/-! ### Responses at once -/

theorem handler_says {s : State} {r : Request} {rs : List Request} {e : Threads} (hw : WellFormed r)
    (h1 : s.launched = inUse rs) (h2 : s.gotoTargets = targetsGiven rs) (h3 : s.alive = e.alive) (h4 : s.threadOf = e.threadOf)
    (h5 : s.stepTargets = e.stepTargets) :
    (Refused rs e r → handler s r = .answer false) ∧
      (¬ Refused rs e r → ∀ b, handler s r = .answer b → b = true) := by
  have hr := hw.raises
  have hp := hw.path
  have hn : ∀ o : Obj, o.number.bind e.threadOf = threadOfFrame s o := by
    intro o; cases o <;> simp [Obj.number, threadOfFrame, h4]
  have hns : ∀ o : Obj, o.numberOrScope.bind e.threadOf = threadOfVariables s o := by
    intro o; cases o <;> simp [Obj.numberOrScope, threadOfVariables, h4]
  have hf : ∀ o : Obj, (¬ ∃ t ∈ e.alive, o = .thread t) ↔ findThread s o = none := by
    intro o; cases o <;> simp [findThread, h3]
  cases hc : r.command <;>
    simp only [Refused, handler, hc, hn, hns, hr, hp, h1, h2, postOr, false_implies, not_false_eq_true, forall_const, true_and,
      Bool.false_eq_true, if_false, Bool.not_true, Bool.or_false]
  all_goals try (repeat' split) <;> simp_all <;> done
  -- stepIn
  obtain ⟨t, ht⟩ := hw.thread (by simp [hc])
  cases htg : r.target with
  | none => simp [ht, stepRaises, Obj.isStr]
  | some n =>
    by_cases hal : t ∈ e.alive
    · by_cases hin : n ∈ e.stepTargets t
      · simp only [ht, findThread, h3, hal, if_true, h5, hin, decide_true]
        exact ⟨fun ⟨m, hm, hx⟩ => by cases hm; exact absurd ⟨t, hal, rfl, hin⟩ hx, fun _ b hb => by cases hb; rfl⟩
      · simp only [ht, findThread, h3, hal, if_true, h5, hin, decide_false]
        refine ⟨fun _ => trivial, fun hx => absurd ⟨n, rfl, ?_⟩ hx⟩
        rintro ⟨u, _, hu, hin'⟩
        cases hu
        exact hin hin'
    · simp only [ht, findThread, h3, hal, if_false]
      refine ⟨fun _ => trivial, fun hx => absurd ⟨n, rfl, ?_⟩ hx⟩
      rintro ⟨u, hu', hu, _⟩
      cases hu
      exact hal hu'

/-- A correct request is answered by a failure, at once, exactly when the client is not authenticated or what the request needs
is not there. Otherwise the response, if it is sent at once, says success. -/
theorem c91_response (auth single : Bool) (as : List Action) (s : State) (h : run (start auth single) as = some s)
    (hc : Correct as) (r : Request) (hw : WellFormed r) (hh : Handled r.command) :
    ((authAfter auth (as ++ [.receive (.request r)]) = false ∨ Refused (accepted auth as) (threadsAfter noThreads as) r) →
      (receive s (.request r)).out = s.out ++ [{ seq := r.seq, command := r.command.name, success := false }]) ∧
    (¬ (authAfter auth (as ++ [.receive (.request r)]) = false ∨ Refused (accepted auth as) (threadsAfter noThreads as) r) →
      (receive s (.request r)).out = s.out ∨
      (receive s (.request r)).out = s.out ++ [{ seq := r.seq, command := r.command.name, success := true }]) := by
  obtain ⟨t1, t2, t3, t4, t5, t6, t7, t8, t9⟩ := track h hc
  have ha : (login (note s r.seq r.command.name) r).authenticated = authAfter auth (as ++ [.receive (.request r)]) := by
    rw [login_fields, authAfter_append, ← t2]; rfl
  have ho : (login (note s r.seq r.command.name) r).out = s.out := by rw [login_fields]; rfl
  rw [receive_handled t1 hh, ha]
  by_cases hauth : authAfter auth (as ++ [.receive (.request r)]) = true
  · rw [if_pos hauth, hauth]
    have hl := login_fields (note s r.seq r.command.name) r
    obtain ⟨r1, r2⟩ := handler_says (s := login (note s r.seq r.command.name) r) (rs := accepted auth as)
      (e := threadsAfter noThreads as) hw (by rw [hl]; exact t3) (by rw [hl]; exact t5) (by rw [hl]; exact t6)
      (by rw [hl]; exact t7) (by rw [hl]; exact t9)
    simp only [reduceCtorEq, false_or]
    constructor
    · intro hR
      simp only [perform, r1 hR, answer, out_effects, ho]
    · intro hR
      have r3 := r2 hR
      unfold perform
      simp only
      split
      · rename_i b hb
        right
        rw [r3 b hb]
        simp only [answer, out_effects, ho]
      all_goals (left; simp only [lose, stopReading, out_effects, ho])
  · rw [if_neg hauth]
    simp only [Bool.eq_false_iff.2 hauth, true_or, not_true, false_implies, and_true, forall_const]
    simp only [answer, ho]

/-- While one notification is sent for all threads, a request to continue is answered when the threads have resumed and not
before, otherwise at once. -/
theorem c91_continue (auth single : Bool) (as : List Action) (s : State) (h : run (start auth single) as = some s)
    (hc : Correct as) (r : Request) (hw : WellFormed r) (hr : r.command = .continue_) (ha : authAfter auth as = true) :
    (receive s (.request r)).out = s.out ++
        (if singleAfter single (accepted auth as) then [] else [{ seq := r.seq, command := "continue", success := true }]) ∧
      (receive s (.request r)).resumed = s.resumed ++ (if singleAfter single (accepted auth as) then [r.seq] else []) := by
  obtain ⟨t1, t2, t3, t4, t5, t6, t7, t8, t9⟩ := track h hc
  obtain ⟨t, ht⟩ := hw.thread (by simp [hr])
  have hres : ∀ s o, (resumeThreads s o).resumed = s.resumed := by
    intro s o
    unfold resumeThreads
    repeat' split
    all_goals rfl
  have hh : Handled r.command := by rw [hr]; intro n hn; cases hn
  rw [receive_handled t1 hh]
  have h1 : login (note s r.seq r.command.name) r = note s r.seq r.command.name := by simp [login, hr]
  rw [h1, if_pos (by rw [show (note s r.seq r.command.name).authenticated = s.authenticated from rfl, t2, ha])]
  cases hs : singleAfter single (accepted auth as) <;>
    simp [perform, handler, hr, t4, hs, ht, Obj.isStr, answer, effects, out_resumeThreads, hres, note, Command.name]

/-- The frames of a thread that is suspended are sent at once, those of another thread later. -/
theorem c91_stack_trace (auth single : Bool) (as : List Action) (s : State) (h : run (start auth single) as = some s)
    (hc : Correct as) (r : Request) (hw : WellFormed r) (hr : r.command = .stackTrace) (ha : authAfter auth as = true)
    (t : Nat) (ht : r.thread = .thread t) :
    (receive s (.request r)).out = s.out ++
        (if (threadsAfter noThreads as).stackReady t then [{ seq := r.seq, command := "stackTrace", success := true }] else []) ∧
      (receive s (.request r)).posted = s.posted ++
        (if (threadsAfter noThreads as).stackReady t then [] else [{ to := none, seq := r.seq, command := .stackTrace }]) := by
  obtain ⟨t1, t2, t3, t4, t5, t6, t7, t8, t9⟩ := track h hc
  have hh : Handled r.command := by rw [hr]; intro n hn; cases hn
  rw [receive_handled t1 hh]
  have h1 : login (note s r.seq r.command.name) r = note s r.seq r.command.name := by simp [login, hr]
  rw [h1, if_pos (by rw [show (note s r.seq r.command.name).authenticated = s.authenticated from rfl, t2, ha])]
  cases hs : (threadsAfter noThreads as).stackReady t <;>
    simp [perform, handler, hr, t8, hs, ht, hw.raises, answer, effects, note, Command.name]

/-! ### Responses of threads -/

/-- Commands that can fail in the thread they are run by. -/
def canFail : List Command := [.completions, .stepInTargets, .exceptionInfo, .evaluate, .setExpression, .setVariable]

/-- A thread that runs a command that can fail says success exactly when it worked. -/
theorem c91_thread_says (s : State) (p : Post) (o : Outcome) (hp : p.command ∈ canFail) (a : Answer)
    (h : (execute s p o).out = s.out ++ [a]) :
    a.seq = p.seq ∧ a.command = p.command.name ∧ (a.success = true ↔ o = .works) := by
  simp only [canFail, List.mem_cons, List.not_mem_nil, or_false] at hp
  rcases hp with hp | hp | hp | hp | hp | hp <;> cases o <;> simp [execute, hp, answer, lose] at h <;> subst h <;>
    simp [hp]

/-- ... and it says something, unless what it ran raised an exception past its handler. -/
theorem c91_thread_says_once (s : State) (p : Post) (o : Outcome) (hp : p.command ∈ canFail) (ho : o ≠ .raises) :
    ∃ a, (execute s p o).out = s.out ++ [a] := by
  simp only [canFail, List.mem_cons, List.not_mem_nil, or_false] at hp
  rcases hp with hp | hp | hp | hp | hp | hp <;> cases o <;> simp [execute, hp, answer] at ho ⊢

/-- The answer to a goto says whether the next statement was set. -/
theorem c91_goto_says (s s' : State) (t : Nat) (worked : Bool) (h : leave s t worked = some s') (a : Answer)
    (ha : s'.out = s.out ++ [a]) : a.success = worked ∧ (t, a.seq) ∈ s.gotoMsg := by
  unfold leave at h
  split at h
  · split at h
    · cases h
    · rename_i m hm
      simp only [Option.some.injEq] at h
      subst h
      simp only [answer, List.append_cancel_left_eq, List.cons.injEq, and_true] at ha
      subst ha
      have h1 := List.mem_of_find?_eq_some hm
      have h2 := List.find?_some hm
      simp only [decide_eq_true_eq] at h2
      exact ⟨rfl, by rw [← h2]; exact h1⟩
  · simp only [Option.some.injEq] at h
    subst h
    simp at ha

/-- Variables and frames are answered by success whatever happened: an error gives an empty list. -/
theorem c91_variables_witness (s : State) (p : Post) (hp : p.command = .variables ∨ p.command = .stackTrace) :
    (execute s p .raises).out = s.out ++ [{ seq := p.seq, command := p.command.name, success := true }] := by
  rcases hp with hp | hp <;> simp [execute, hp, answer]

/-! ### An example -/

def exampleSession : List Action :=
  [.receive (.request { seq := 1, command := .authorize }),
   .receive (.request { seq := 2, command := .setBreakpoints }),
   .receive (.request { seq := 3, command := .attach, single := some false }),
   .receive (.request { seq := 4, command := .setBreakpoints }),
   .environment [7] (fun r => if r = 40 then some 7 else none) (fun t => t = 7) (fun _ => [2]),
   .receive (.request { seq := 5, command := .stepIn, thread := .thread 7, target := some 2 }),
   .receive (.request { seq := 6, command := .stepIn, thread := .thread 7, target := some 3 }),
   .receive (.request { seq := 7, command := .goto, thread := .thread 7, target := some 0 }),
   .receive (.request { seq := 8, command := .continue_, thread := .thread 7 })]

theorem c91_example : ((run (start false true) exampleSession).map fun s => s.out.map fun a => (a.seq, a.success)) =
    some [(1, true), (2, false), (3, true), (4, true), (5, true), (6, false), (7, false), (8, true)] := by decide

theorem c91_example_correct : Correct exampleSession := by
  intro m hm
  simp only [exampleSession, List.mem_cons, Action.receive.injEq, reduceCtorEq, List.not_mem_nil, or_false, false_or] at hm
  rcases hm with rfl | rfl | rfl | rfl | rfl | rfl | rfl | rfl <;>
    exact .inr (.inr ⟨_, rfl, ⟨rfl, rfl, by simp, by simp, by simp⟩, by intro n h; cases h⟩)

end Requests
