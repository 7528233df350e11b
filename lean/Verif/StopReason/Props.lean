import Verif.StopReason.Spec

namespace StopReason

open Spec (World Wish Why)

/-- How the fields tell what was asked for. -/
structure Sim (s : St) (w : World) : Prop where
  pc : s.pc = w.pc
  held : s.suspended = w.held
  told : s.told = w.told
  orig : match w.wish with
    | .free => s.orig = unset ∨ s.orig = setNext ∧ s.suspended = true ∧ s.pc ≠ .running
    | .entry => s.orig = stopOnStart
    | .toFrame => s.orig = setBreak
    | .step out => s.orig ∈ stepReasons ∧ s.orig ≠ stopOnStart
  free : w.held = false → (s.step = unset ↔ w.wish = .free)
  steps : w.held = false → s.step ≠ unset → s.step ∈ stepReasons ∧ s.step ≠ stopOnStart
  out : w.held = false → s.pc ≠ .running → (w.wish = .step true ↔ s.step ∈ [stepReturn, stepReturnMyCode])
  why : w.held = true ∨ w.pc = .stopping → match w.why with
    | .stepEnded => s.stopReason ∈ stepReasons
    | .because r => r ≠ .step ∧ r ≠ .entry ∧ ∀ o, reasonOf s.stopReason o = (r, o)
  let_go : w.pc = .stopping → w.held = false → w.wish = .free

theorem sim_init (mon : Bool) : Sim (init mon) Spec.init := by
  constructor <;> simp [init, Spec.init, unset]

theorem reasonOf_step (r o : Int) (h : r ∈ stepReasons) :
    reasonOf r o = if o = stopOnStart then (.entry, unset) else (.step, o) := by
  simp only [reasonOf, h, if_true]

theorem reasonOf_break (o : Int) : reasonOf setBreak o = (.breakpoint, o) := by simp [reasonOf, setBreak, stepReasons, exceptionReasons, stepInto, stepIntoMyCode, stepOver, stepOverMyCode, stepReturn, stepReturnMyCode, stopOnStart, stepIntoCoroutine, smartStepInto, stepCaughtException, addExceptionBreak]

theorem reasonOf_function (o : Int) : reasonOf setFunctionBreak o = (.functionBreakpoint, o) := by simp [reasonOf, setBreak, setFunctionBreak, stepReasons, exceptionReasons, stepInto, stepIntoMyCode, stepOver, stepOverMyCode, stepReturn, stepReturnMyCode, stopOnStart, stepIntoCoroutine, smartStepInto, stepCaughtException, addExceptionBreak]

theorem reasonOf_next (o : Int) : reasonOf setNext o = (.goto, o) := by simp [reasonOf, setBreak, setNext, setFunctionBreak, stepReasons, exceptionReasons, stepInto, stepIntoMyCode, stepOver, stepOverMyCode, stepReturn, stepReturnMyCode, stopOnStart, stepIntoCoroutine, smartStepInto, stepCaughtException, addExceptionBreak]

theorem reasonOf_suspend (o : Int) : reasonOf threadSuspend o = (.pause, o) := by simp [reasonOf, threadSuspend, setBreak, setNext, setFunctionBreak, stepReasons, exceptionReasons, stepInto, stepIntoMyCode, stepOver, stepOverMyCode, stepReturn, stepReturnMyCode, stopOnStart, stepIntoCoroutine, smartStepInto, stepCaughtException, addExceptionBreak]

theorem reasonOf_exception (u : Bool) (o : Int) :
    reasonOf (if u = true then addExceptionBreak else stepCaughtException) o = (.exception, o) := by
  cases u <;> simp [reasonOf, setBreak, setNext, setFunctionBreak, stepReasons, exceptionReasons, stepInto, stepIntoMyCode, stepOver, stepOverMyCode, stepReturn, stepReturnMyCode, stopOnStart, stepIntoCoroutine, smartStepInto, stepCaughtException, addExceptionBreak]

/-- Whoever marks the thread gives the reason. -/
theorem sim_mark (s : St) (w : World) (h : Sim s w) (reason : Int) (main : Bool) (r : Reason)
    (h1 : r ≠ .step) (h2 : r ≠ .entry) (h3 : ∀ o, reasonOf reason o = (r, o)) :
    Sim (mark s reason unset main) (Spec.stop w r) where
  pc := h.pc
  held := rfl
  told := h.told
  orig := by
    have := h.orig
    simp only [Spec.stop, mark]
    split at this <;> simp_all <;> grind
  free := by simp [Spec.stop]
  steps := by simp [Spec.stop]
  out := by simp [Spec.stop]
  why := fun _ => ⟨h1, h2, by simpa [mark] using h3⟩
  let_go := by simp [Spec.stop]

theorem sim_stopping (s : St) (w : World) (h : Sim s w) (hh : w.held = true) :
    Sim { s with pc := .stopping } { w with pc := .stopping } where
  pc := rfl
  held := h.held
  told := h.told
  orig := by
    have := h.orig
    simp only
    split at this <;> simp_all <;> grind
  free := h.free
  steps := h.steps
  out := by simp [hh]
  why := fun _ => h.why (.inl hh)
  let_go := by simp [hh]

theorem sim_endStep (s : St) (w : World) (h : Sim s w) (hr : s.pc = .running) (hh : w.held = false) :
    Sim (endStep s) (Spec.finish w) := by
  have hf := h.free hh
  have hst := h.steps hh
  unfold endStep Spec.finish
  rw [if_neg (by simp [hh] : ¬ w.held = true)]
  by_cases hu : s.step = unset
  · rw [if_pos hu, if_pos (hf.1 hu)]; exact h
  · rw [if_neg hu, if_neg (fun hw => hu (hf.2 hw))]
    have ho := h.orig
    have hne : s.orig ≠ unset := by
      intro he
      rw [he] at ho
      split at ho
      · next hw => exact hu (hf.2 hw)
      · simp [unset, stopOnStart] at ho
      · simp [unset, setBreak] at ho
      · revert ho; decide
    constructor
    · rfl
    · rfl
    · exact h.told
    · simp only [mark]
      split at ho <;> simp_all
    · simp
    · simp
    · simp
    · intro _
      simp only [mark, if_pos hne]
      split at ho
      · next hw => exact absurd (hf.2 hw) hu
      · next hw => simp only [hw, Spec.ended, ho]; decide
      · next hw => simp only [hw, Spec.ended, ho]; exact ⟨by simp, by simp, reasonOf_break⟩
      · next hw => simp only [hw, Spec.ended]; exact ho.1
    · simp

theorem kind_step (k : Kind) : cmdOf k ∈ stepReasons ∧ cmdOf k ≠ stopOnStart ∧ cmdOf k ≠ unset ∧
    ((k = .ret ∨ k = .retMyCode) ↔ cmdOf k ∈ [stepReturn, stepReturnMyCode]) := by
  cases k <;> decide

theorem stepInto_ok : stepInto ∈ stepReasons ∧ stepInto ≠ stopOnStart := by decide
theorem stepIntoMyCode_ok : stepIntoMyCode ∈ stepReasons ∧ stepIntoMyCode ≠ stopOnStart := by decide
theorem stepIntoCoroutine_ok : stepIntoCoroutine ∈ stepReasons ∧ stepIntoCoroutine ≠ stopOnStart := by decide
theorem stepOver_ok : stepOver ∈ stepReasons ∧ stepOver ≠ stopOnStart := by decide

theorem sim_into (s : St) (w : World) (h : Sim s w) (hr : s.pc = .running) (c : Int)
    (hc : c ∈ stepReasons ∧ c ≠ stopOnStart) (hu : c ≠ unset) (hs : s.step ≠ unset) :
    Sim { s with step := c } w :=
  ⟨h.pc, h.held, h.told, h.orig, fun hh => by
    have := h.free hh
    exact ⟨fun h' => absurd h' hu, fun h' => absurd (this.2 h') hs⟩, fun _ _ => hc, fun _ h' => absurd hr h', h.why, h.let_go⟩

theorem sim_act (s : St) (w : World) (a : Act) (h : Sim s w)
    (hc : s.mon = true → a = .ret → w.held = false) : Sim (act s a) (Spec.act w a) := by
  obtain ⟨mon, pc, su, orig, st, sr, told⟩ := s
  obtain ⟨wpc, held, wish, why, wtold⟩ := w
  have hx := h
  obtain ⟨hpc, hheld, htold, horig, hfree, hsteps, hout, hwhy, hgo⟩ := hx
  simp only at hpc hheld htold horig hfree hsteps hout hwhy hgo hc
  subst hpc hheld htold
  cases a with
  | stopOnEntry =>
    simp only [act, Spec.act]
    split
    · next hq =>
      obtain ⟨rfl, rfl⟩ := hq
      exact ⟨rfl, rfl, rfl, rfl, by simp [stepIntoMyCode, unset], fun _ _ => stepIntoMyCode_ok, by simp, by simp, by simp⟩
    · exact h
  | settrace atFrame =>
    simp only [act, Spec.act]
    by_cases hr : pc = .running
    · subst hr
      simp only [if_true]
      cases atFrame with
      | true =>
        exact ⟨rfl, rfl, rfl, rfl, by simp [stepOver, unset], fun _ _ => stepOver_ok, by simp, by simp, by simp⟩
      | false =>
        exact ⟨rfl, rfl, rfl, rfl, by simp [Spec.stop], by simp [Spec.stop], by simp [Spec.stop],
            fun _ => ⟨by simp, by simp, reasonOf_break⟩, by simp [Spec.stop]⟩
    · simp only [if_neg hr]; exact h
  | pause => exact sim_mark _ _ h threadSuspend true .pause (by simp) (by simp) reasonOf_suspend
  | suspendAll => exact sim_mark _ _ h threadSuspend false .pause (by simp) (by simp) reasonOf_suspend
  | resume =>
    refine ⟨rfl, rfl, rfl, .inl rfl, by simp [act, Spec.act], by simp [act], ?_, ?_, fun _ _ => rfl⟩
    · intro _ _; constructor
      · intro hw; cases hw
      · intro hw; exact absurd hw (show unset ∉ [stepReturn, stepReturnMyCode] by decide)
    · intro hw
      rcases hw with hw | hw
      · cases hw
      · exact hwhy (.inr hw)
  | breakpoint =>
    simp only [act, Spec.act]
    split
    · exact sim_stopping _ _ (sim_mark _ _ h setBreak true .breakpoint (by simp) (by simp) reasonOf_break) rfl
    · exact h
  | functionBreakpoint =>
    simp only [act, Spec.act]
    split
    · exact sim_stopping _ _ (sim_mark _ _ h _ true .functionBreakpoint (by simp) (by simp) reasonOf_function) rfl
    · exact h
  | exception u =>
    simp only [act, Spec.act]
    split
    · exact sim_stopping _ _ (sim_mark _ _ h _ true .exception (by simp) (by simp) (reasonOf_exception u)) rfl
    · exact h
  | line =>
    simp only [act, Spec.act]
    split
    · next hr =>
      split
      · next hh =>
        subst hh
        simp only [Spec.finish, if_true]
        exact sim_stopping _ _ h rfl
      · next hh => exact sim_endStep _ _ h hr (by simpa using hh)
    · exact h
  | ret =>
    simp only [act, Spec.act]
    split
    · next hr =>
      split
      · next hh =>
        obtain ⟨rfl, _⟩ := hh
        simp only [Spec.finish, if_true]
        exact sim_stopping _ _ h rfl
      · next hh =>
        have : su = false := by
          cases hm : mon with
          | true => exact hc hm rfl
          | false => simpa [hm] using hh
        exact sim_endStep _ _ h hr this
    · exact h
  | outOfFrame =>
    simp only [act, Spec.act]
    split
    · next hr =>
      split
      · next hm => exact sim_into _ _ h hr _ stepInto_ok (by decide) (fun h' => by simp only at h'; rw [h'] at hm; exact absurd hm (by decide))
      · split
        · next hm => exact sim_into _ _ h hr _ stepIntoMyCode_ok (by decide) (fun h' => by simp only at h'; rw [h'] at hm; exact absurd hm (by decide))
        · exact h
    · exact h
  | tell =>
    simp only [act, Spec.act]
    by_cases hr : pc = .stopping
    · subst hr
      simp only [if_true]
      have hy := hwhy (.inr rfl)
      have hout' : su = false → (wish = .step true ↔ st ∈ [stepReturn, stepReturnMyCode]) := fun a => hout a (by simp)
      cases why with
      | stepEnded =>
        simp only at hy
        simp only [reasonOf_step _ _ hy]
        by_cases hwi : wish = .entry
        · subst hwi
          simp only at horig
          subst horig
          simp only [if_true]
          have hs : su = true := by
            cases su with
            | true => rfl
            | false => exact absurd (hgo rfl rfl) (by simp)
          subst hs
          exact ⟨rfl, rfl, rfl, .inl rfl, by simp, by simp, by simp, fun _ => hy, by simp⟩
        · have : orig ≠ stopOnStart := by
            rintro rfl
            cases wish with
            | free => simp [stopOnStart, unset, setNext] at horig
            | entry => exact hwi rfl
            | toFrame => simp [stopOnStart, setBreak] at horig
            | step o => exact horig.2 rfl
          simp only [if_neg hwi, if_neg this]
          refine ⟨rfl, rfl, rfl, ?_, hfree, hsteps, fun a _ => hout' a, fun _ => hy, by simp⟩
          cases wish <;> simp_all
      | because r =>
        simp only at hy
        simp only [hy.2.2]
        refine ⟨rfl, rfl, rfl, ?_, hfree, hsteps, fun a _ => hout' a, fun _ => hy, by simp⟩
        cases wish <;> simp_all
    · simp only [if_neg hr]; exact h
  | step k =>
    simp only [act, Spec.act]
    split
    · next hr =>
      obtain ⟨k1, k2, k3, k4⟩ := kind_step k
      refine ⟨rfl, rfl, rfl, ⟨k1, k2⟩, ?_, fun _ _ => ⟨k1, k2⟩, ?_, by simp [hr], by simp [hr]⟩
      · intro _; simp [k3]
      · intro _ _; simp only [← k4]; simp
    · exact h
  | goto ok =>
    simp only [act, Spec.act]
    split
    · next hr =>
      cases ok with
      | true =>
        exact ⟨rfl, rfl, rfl, .inr ⟨rfl, rfl, by simp⟩, by simp [Spec.stop], by simp [Spec.stop], by simp [Spec.stop],
          fun _ => ⟨by simp, by simp, reasonOf_next⟩, by simp [Spec.stop]⟩
      | false =>
        exact ⟨rfl, rfl, rfl, .inl rfl, by simp [Spec.stop], by simp [Spec.stop], by simp [Spec.stop],
          fun _ => ⟨by simp, by simp, reasonOf_suspend⟩, by simp [hr, Spec.stop]⟩
    · exact h
  | leave co nb =>
    simp only [act, Spec.act]
    by_cases hr : pc = .waiting ∧ su = false
    · simp only [if_pos hr]
      obtain ⟨rfl, rfl⟩ := hr
      have ho := hout rfl (by simp)
      have hf := hfree rfl
      have horig' : match wish with
        | .free => orig = unset
        | .entry => orig = stopOnStart
        | .toFrame => orig = setBreak
        | .step _ => orig ∈ stepReasons ∧ orig ≠ stopOnStart := by
        cases wish <;> first | exact horig | (simp only at horig; simpa using horig)
      by_cases h1 : st ∈ [stepInto, stepIntoMyCode] ∧ co = true
      · have hn : ¬ st ∈ [stepReturn, stepReturnMyCode] := by
          intro h2
          have := h1.1
          simp only [List.mem_cons, List.not_mem_nil, or_false] at this h2
          rcases this with rfl | rfl <;> rcases h2 with h2 | h2 <;> exact absurd h2 (by decide)
        have hw : ¬ (wish = .step true ∧ nb = true) := fun h' => hn (ho.1 h'.1)
        have hu : st ≠ unset := by rintro rfl; exact absurd h1.1 (by decide)
        simp only [if_pos h1, if_neg hw]
        refine ⟨rfl, rfl, rfl, ?_, fun _ => ?_, fun _ _ => stepIntoCoroutine_ok, by simp, by simp, by simp⟩
        · cases wish <;> simp_all
        · exact ⟨fun h' => absurd h' (show stepIntoCoroutine ≠ unset by decide), fun h' => absurd (hf.2 h') hu⟩
      · simp only [if_neg h1]
        by_cases h2 : st ∈ [stepReturn, stepReturnMyCode] ∧ nb = true
        · have hw : wish = .step true ∧ nb = true := ⟨ho.2 h2.1, h2.2⟩
          simp only [if_pos h2, if_pos hw]
          exact ⟨rfl, rfl, rfl, .inl rfl, by simp, by simp, by simp, by simp, by simp⟩
        · have hw : ¬ (wish = .step true ∧ nb = true) := fun h' => h2 ⟨ho.1 h'.1, h'.2⟩
          simp only [if_neg h2, if_neg hw]
          refine ⟨rfl, rfl, rfl, ?_, fun _ => hf, hsteps, by simp, by simp, by simp⟩
          cases wish <;> simp_all
    · simp only [if_neg hr]; exact h

theorem mon_act (s : St) (a : Act) : (act s a).mon = s.mon := by
  cases a <;> simp only [act, mark, endStep] <;> (repeat' split) <;> rfl

theorem sim_run (s : St) (w : World) (acts : List Act) (h : Sim s w) (hc : Spec.Clean s.mon w acts) :
    Sim (run s acts) (Spec.run w acts) := by
  induction acts generalizing s w with
  | nil => exact h
  | cons a as ih => exact ih _ _ (sim_act s w a h hc.1) (by rw [mon_act]; exact hc.2)

/-- **C109.** Whatever is asked of a thread and whatever happens to it, in any order, the reasons the
client is told for its stops are just those it should be told; with monitoring, if no return ends a
step while the thread is to stop for another reason. -/
theorem c109_reasons (mon : Bool) (acts : List Act) (hc : Spec.Clean mon Spec.init acts) :
    (run (init mon) acts).told = (Spec.run Spec.init acts).told :=
  (sim_run _ _ acts (sim_init mon) hc).told

/-- With `sys.settrace`, always. -/
theorem c109_reasons_settrace (acts : List Act) :
    (run (init false) acts).told = (Spec.run Spec.init acts).told := by
  refine c109_reasons false acts ?_
  generalize Spec.init = w
  induction acts generalizing w with
  | nil => trivial
  | cons a as ih => exact ⟨by simp, ih _⟩

/-! ## What the specification says -/

theorem run_append (s : St) (a b : List Act) : run s (a ++ b) = run (run s a) b := by simp [run]

/-- Nobody else stops the thread. -/
def NoPause (acts : List Act) : Prop := Act.pause ∉ acts ∧ Act.suspendAll ∉ acts

theorem keep_reason (s : St) (acts : List Act) (hp : s.pc = .stopping) (hn : NoPause acts)
    (ht : Act.tell ∉ acts) (ho : Act.stopOnEntry ∉ acts) :
    (run s acts).pc = .stopping ∧ (run s acts).stopReason = s.stopReason ∧ (run s acts).told = s.told := by
  induction acts generalizing s with
  | nil => exact ⟨hp, rfl, rfl⟩
  | cons a as ih =>
    have h1 : (act s a).pc = .stopping ∧ (act s a).stopReason = s.stopReason ∧ (act s a).told = s.told := by
      cases a with
      | pause => exact absurd List.mem_cons_self hn.1
      | suspendAll => exact absurd List.mem_cons_self hn.2
      | tell => exact absurd List.mem_cons_self ht
      | stopOnEntry => exact absurd List.mem_cons_self ho
      | _ => simp [act, hp]
    have h2 := ih (act s a) h1.1 ⟨fun h => hn.1 (List.mem_cons_of_mem _ h), fun h => hn.2 (List.mem_cons_of_mem _ h)⟩
      (fun h => ht (List.mem_cons_of_mem _ h)) (fun h => ho (List.mem_cons_of_mem _ h))
    exact ⟨h2.1, h2.2.1.trans h1.2.1, h2.2.2.trans h1.2.2⟩

/-- **C109, a breakpoint, an exception, a pause.** A running thread which hits a line or function
breakpoint or an exception to stop at, whatever it was doing, is told to have stopped for that, if
nobody pauses or suspends it before the stop is told. -/
theorem c109_hit (s : St) (hr : s.pc = .running) (mid : List Act) (hn : NoPause mid) (ht : Act.tell ∉ mid)
    (ho : Act.stopOnEntry ∉ mid) :
    (run s (.breakpoint :: mid ++ [.tell])).told = s.told ++ [.breakpoint] ∧
    (run s (.functionBreakpoint :: mid ++ [.tell])).told = s.told ++ [.functionBreakpoint] ∧
    (∀ u, (run s (.exception u :: mid ++ [.tell])).told = s.told ++ [.exception]) := by
  have key : ∀ a c r, (act s a).pc = .stopping → (act s a).stopReason = c → (act s a).told = s.told →
      (∀ o, reasonOf c o = (r, o)) → (run s (a :: mid ++ [.tell])).told = s.told ++ [r] := by
    intro a c r h1 h2 h3 h4
    obtain ⟨k1, k2, k3⟩ := keep_reason (act s a) mid h1 hn ht ho
    show (run (act s a) (mid ++ [.tell])).told = _
    rw [run_append]
    show (act (run (act s a) mid) .tell).told = _
    generalize run (act s a) mid = t at k1 k2 k3
    simp only [act, k1, if_true]
    rw [k2, h2, h4, k3, h3]
  refine ⟨key .breakpoint setBreak _ ?_ ?_ ?_ reasonOf_break,
    key .functionBreakpoint setFunctionBreak _ ?_ ?_ ?_ reasonOf_function,
    fun u => key (.exception u) (if u = true then addExceptionBreak else stepCaughtException) _ ?_ ?_ ?_ (reasonOf_exception u)⟩
  all_goals simp [act, hr, mark]

theorem spec_append (w : World) (a b : List Act) : Spec.run w (a ++ b) = Spec.run (Spec.run w a) b := by
  simp [Spec.run]

/-- Who wished the thread to stop somewhere did so after the last continue. -/
theorem wished (acts : List Act) (h : (Spec.run Spec.init acts).wish ≠ .free) :
    ∃ pre a mid, acts = pre ++ a :: mid ∧ Act.resume ∉ mid ∧
      ((∃ k, a = .step k) ∨ a = .stopOnEntry ∨ ∃ b, a = .settrace b) := by
  obtain ⟨l, rfl⟩ : ∃ l, acts = List.reverse l := ⟨acts.reverse, by simp⟩
  induction l with
  | nil => exact absurd rfl h
  | cons a l ih =>
    rw [List.reverse_cons] at h ⊢
    generalize l.reverse = as at h ih ⊢
    rw [spec_append] at h
    by_cases hq : (∃ k, a = .step k) ∨ a = .stopOnEntry ∨ ∃ b, a = .settrace b
    · exact ⟨as, a, [], rfl, by simp, hq⟩
    · have hr : a ≠ .resume := by rintro rfl; exact h rfl
      have h' : (Spec.run Spec.init as).wish ≠ .free := by
        intro hf
        apply h
        show (Spec.act (Spec.run Spec.init as) a).wish = .free
        cases a with
        | step k => exact absurd (.inl ⟨k, rfl⟩) hq
        | stopOnEntry => exact absurd (.inr (.inl rfl)) hq
        | settrace b => exact absurd (.inr (.inr ⟨b, rfl⟩)) hq
        | _ => simp only [Spec.act, Spec.stop, Spec.finish] <;> (repeat' split) <;> simp_all
      obtain ⟨pre, x, mid, e, hm, hx⟩ := ih h'
      refine ⟨pre, x, mid ++ [a], by simp [e], ?_, hx⟩
      simp only [List.mem_append, List.mem_singleton, not_or]
      exact ⟨hm, fun h => hr h.symm⟩

/-- **C109, a step ends only if one is under way.** If a thread which nobody holds stops at a line or a
return, then, after it was last continued, a step was asked for, or stopping at the entry, or
`settrace` was called. -/
theorem c109_step_asked (mon : Bool) (acts : List Act) (hc : Spec.Clean mon Spec.init acts) (a : Act)
    (ha : a = .line ∨ a = .ret) (hs : (run (init mon) acts).suspended = false)
    (hr : (run (init mon) acts).pc = .running) (hp : (run (init mon) (acts ++ [a])).pc ≠ .running) :
    ∃ pre x mid, acts = pre ++ x :: mid ∧ Act.resume ∉ mid ∧
      ((∃ k, x = .step k) ∨ x = .stopOnEntry ∨ ∃ b, x = .settrace b) := by
  have h := sim_run _ _ acts (sim_init mon) hc
  apply wished
  intro hf
  have hu := (h.free (h.held ▸ hs)).2 hf
  apply hp
  rw [run_append]
  show (act (run (init mon) acts) a).pc = _
  rcases ha with rfl | rfl <;> simp [act, hr, hs, endStep, hu]

/-! ## A case, and what does not hold -/

/-- Stopping at the entry, a step over, a continue, a breakpoint while stepping, a pause. -/
example : Spec.Clean true Spec.init [.stopOnEntry, .line, .tell, .step .over, .leave false false, .ret, .tell,
      .resume, .leave false false, .breakpoint, .tell, .resume, .leave false false, .pause, .line, .tell] ∧
    (run (init true) [.stopOnEntry, .line, .tell, .step .over, .leave false false, .ret, .tell,
      .resume, .leave false false, .breakpoint, .tell, .resume, .leave false false, .pause, .line, .tell]).told =
      [.entry, .step, .breakpoint, .pause] := by
  refine ⟨?_, by decide⟩
  simp [Spec.Clean, Spec.act, Spec.init, Spec.finish, Spec.ended]

/-- **Not so**: with monitoring, a pause which the thread notices at a return is told as a step. -/
theorem c109_pause_witness :
    (run (init true) [.pause, .ret, .tell]).told = [.step] ∧
    (run (init false) [.pause, .ret, .tell]).told = [.pause] := by decide

/-- **Not so**: a breakpoint is told as a pause when another thread's stop suspends all threads before it is
told; so two threads which hit breakpoints at the same time may both be told to be paused. -/
theorem c109_race_witness (mon : Bool) :
    (run (init mon) [.breakpoint, .suspendAll, .tell]).told = [.pause] := by cases mon <;> decide

/-- **Not so**: the stop at the entry is told as a step if the thread is resumed before it is told. -/
theorem c109_entry_witness (mon : Bool) :
    (run (init mon) [.stopOnEntry, .line, .resume, .tell]).told = [.step] := by cases mon <;> decide

end StopReason
