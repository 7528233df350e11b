import Verif.Dispatch.Model
/-! Properties C23 (stepping) and C50 (conditions and logpoints). -/

namespace Dispatch

/-! ### Where a suspension can come from -/

theorem act_suspend {cfg : Cfg} {i : Info} {cmd : Cmd} {kind : Kind} {cur : Entry} {back : Stack} {dec : StepDec}
    {w : List Write} {effs : List Eff} {f : Frame} {b o : Bool}
    (h : Eff.suspend f b o ∈ (act cfg i cmd kind cur back dec w effs).effects) :
    Eff.suspend f b o ∈ effs ∨
      (b = false ∧ dec = .stop true ∧
        ((kind = .line ∧ f = cur.frame) ∨ (kind = .ret ∧ ∃ p rest, back = p :: rest ∧ f = p.frame))) := by
  unfold act at h
  cases dec with
  | off => exact .inl h
  | stop d =>
    simp only at h
    have hd : pydevGate cfg cmd kind back d = true → d = true := by
      unfold pydevGate; cases d <;> simp
    split at h
    · exact .inl h
    · rename_i hb
      simp only [Bool.not_eq_true, Bool.not_eq_false'] at hb
      have hd' := hd hb
      subst hd'
      split at h
      · rename_i hk
        simp only [List.mem_append, List.mem_singleton, Eff.suspend.injEq] at h
        rcases h with h | ⟨rfl, rfl, rfl⟩
        · exact .inl h
        · exact .inr ⟨rfl, rfl, .inl ⟨hk, rfl⟩⟩
      · split at h
        · rename_i hk
          split at h
          · simp at h; exact .inl h
          · rename_i p rest
            split at h
            · simp at h; exact .inl h
            · split at h
              · exact .inl h
              · split at h
                · simp at h; exact .inl h
                · simp only [List.mem_append, List.mem_singleton, Eff.suspend.injEq] at h
                  rcases h with h | ⟨rfl, rfl, rfl⟩
                  · exact .inl h
                  · exact .inr ⟨rfl, rfl, .inr ⟨hk, p, rest, rfl, rfl⟩⟩
        · exact .inl h

theorem not_suspend_bpEffects (b : Bp) (f : Frame) (x o : Bool) : Eff.suspend f x o ∉ bpEffects b := by
  unfold bpEffects; cases b.hasExpression <;> cases b.hasCondition <;> simp

theorem not_suspend_logEffects (b : Bp) (ans : Answers) (f : Frame) (x o : Bool) : Eff.suspend f x o ∉ logEffects b ans := by
  unfold logEffects; split <;> simp

theorem not_suspend_sr (c : Bool) (f : Frame) (x o : Bool) :
    Eff.suspend f x o ∉ (if c = true then [Eff.showReturn] else []) := by
  split <;> simp

/-- A suspension of `decide'` comes from a breakpoint, from the suspended state, or from the step decision. -/
theorem decide_suspend {cfg : Cfg} {cls : Cls} {cmd : Cmd} {stop : Option Frame} {sl : Option Nat} {cur : Entry}
    {back : Stack} {ans : Answers} {w : List Write} {f : Frame} {b o : Bool}
    (h : Eff.suspend f b o ∈ (decide' cfg cls cmd stop sl cur back ans w).effects) :
    (b = true ∧ f = cur.frame ∧ ∃ bp, theBp cfg cls cur = some bp ∧ bpStops bp ans = true ∧ o = bp.all ∧
      moduleCall cls cur = false) ∨
    (b = false ∧ cls.info.suspended = true ∧ f = cur.frame) ∨
    (b = false ∧ cls.info.suspended = false ∧ stepDecision cfg cls.info cmd stop sl cls.kind cur back = .stop true ∧
      ((cls.kind = .line ∧ f = cur.frame) ∨ (cls.kind = .ret ∧ ∃ p rest, back = p :: rest ∧ f = p.frame))) := by
  unfold decide' at h
  simp only at h
  split at h
  · rename_i bp hbp
    split at h
    · exact absurd h (not_suspend_bpEffects _ _ _ _)
    · rename_i hm
      have hno : Eff.suspend f b o ∉ bpEffects bp ++ logEffects bp ans ++
          (if showsReturn cfg cls stop cur back = true then [Eff.showReturn] else []) := by
        simp only [List.mem_append, not_or]
        exact ⟨⟨not_suspend_bpEffects _ _ _ _, not_suspend_logEffects _ _ _ _ _⟩, not_suspend_sr _ _ _ _⟩
      split at h
      · rename_i hs
        rw [List.mem_append] at h
        rcases h with h | h
        · exact absurd h hno
        · simp only [List.mem_singleton, Eff.suspend.injEq] at h
          obtain ⟨rfl, rfl, rfl⟩ := h
          exact .inl ⟨rfl, rfl, bp, hbp, hs, rfl, by simpa using hm⟩
      · split at h
        · rename_i hs
          rw [List.mem_append] at h
          rcases h with h | h
          · exact absurd h hno
          · simp only [List.mem_singleton, Eff.suspend.injEq] at h
            obtain ⟨rfl, rfl, rfl⟩ := h
            exact .inr (.inl ⟨rfl, hs, rfl⟩)
        · rename_i hs
          rcases act_suspend h with h | ⟨h1, h2, h3⟩
          · exact absurd h hno
          · exact .inr (.inr ⟨h1, by simpa using hs, h2, h3⟩)
  · split at h
    · rename_i hs
      rw [List.mem_append] at h
      rcases h with h | h
      · exact absurd h (not_suspend_sr _ _ _ _)
      · simp only [List.mem_singleton, Eff.suspend.injEq] at h
        obtain ⟨rfl, rfl, rfl⟩ := h
        exact .inr (.inl ⟨rfl, hs, rfl⟩)
    · rename_i hs
      rcases act_suspend h with h | ⟨h1, h2, h3⟩
      · exact absurd h (not_suspend_sr _ _ _ _)
      · exact .inr (.inr ⟨h1, by simpa using hs, h2, h3⟩)

/-- The kind the event is given. -/
def kindOf : Ev → Option Kind
  | .line => some .line
  | .call => some .call
  | .ret => some .ret
  | .exc _ => some .exc
  | .other => none

theorem genReturnInfo_suspended (cfg : Cfg) (i : Info) (c : Frame) (back : Stack) :
    (genReturnInfo cfg i c back).suspended = i.suspended := by
  unfold genReturnInfo
  repeat' split
  all_goals rfl

theorem returnInfo_suspended (i : Info) (c : Frame) : (returnInfo i c).suspended = i.suspended := by
  unfold returnInfo; repeat' split
  all_goals rfl

theorem genReturnInfo_ipy (cfg : Cfg) (i : Info) (c : Frame) (back : Stack) :
    (genReturnInfo cfg i c back).ipy = i.ipy := by
  unfold genReturnInfo
  repeat' split
  all_goals rfl

theorem returnInfo_ipy (i : Info) (c : Frame) : (returnInfo i c).ipy = i.ipy := by
  unfold returnInfo; repeat' split
  all_goals rfl

theorem genReturnInfo_initialLoc (cfg : Cfg) (i : Info) (c : Frame) (back : Stack) :
    (genReturnInfo cfg i c back).initialLoc = i.initialLoc := by
  unfold genReturnInfo
  repeat' split
  all_goals rfl

theorem returnInfo_initialLoc (i : Info) (c : Frame) : (returnInfo i c).initialLoc = i.initialLoc := by
  unfold returnInfo; repeat' split
  all_goals rfl

theorem classify_spec {cfg : Cfg} {i : Info} {cur : Entry} {back : Stack} {ev : Ev} {ans : Answers} {cls : Cls}
    (h : classify cfg i cur back ev ans = .inr cls) :
    kindOf ev = some cls.kind ∧ cls.info.suspended = i.suspended ∧ cls.info.ipy = i.ipy ∧
    (cls.funcBp.isSome = true → cls.kind = .call) ∧ (ev ≠ .ret → cls.info = i) := by
  unfold classify at h
  split at h
  · cases ev with
    | line => simp only [Sum.inr.injEq] at h; subst h; simp [kindOf]
    | ret =>
      simp only at h
      split at h
      · split at h
        · cases h
        · simp only [Sum.inr.injEq] at h; subst h
          simp [kindOf, genReturnInfo_suspended, genReturnInfo_ipy]
      · cases h
    | exc b => cases h
    | call => cases h
    | other => cases h
  · cases ev with
    | line => simp only [Sum.inr.injEq] at h; subst h; simp [kindOf]
    | ret =>
      simp only at h
      split at h
      · cases h
      · simp only [Sum.inr.injEq] at h; subst h
        simp [kindOf, returnInfo_suspended, returnInfo_ipy]
    | call => simp only [Sum.inr.injEq] at h; subst h; simp [kindOf]
    | exc b =>
      cases b with
      | true => cases h
      | false => simp only [Sum.inr.injEq] at h; subst h; simp [kindOf]
    | other => cases h

theorem classify_inl_effects {cfg : Cfg} {i : Info} {cur : Entry} {back : Stack} {ev : Ev} {ans : Answers} {o : Outcome}
    (h : classify cfg i cur back ev ans = .inl o) :
    o.ret = .trace ∧ (∀ f b p, Eff.suspend f b p ∉ o.effects) ∧ (∀ b, Eff.hit b ∉ o.effects) ∧ o.writes = [] := by
  unfold classify at h
  repeat' split at h
  all_goals first
    | (simp only [Sum.inl.injEq] at h; subst h; first | simp | (split <;> simp))
    | cases h

/-- A suspension of `trace_dispatch`. -/
theorem dispatch_suspend {cfg : Cfg} {cache : Cache} {i : Info} {sl : Option Nat} {cur : Entry} {back : Stack}
    {ev : Ev} {ans : Answers} {f : Frame} {b o : Bool}
    (h : Eff.suspend f b o ∈ (dispatch cfg cache i sl cur back ev ans).effects) :
    ∃ cls, classify cfg i cur back ev ans = .inr cls ∧
    ((b = true ∧ f = cur.frame ∧ ∃ bp, theBp cfg cls cur = some bp ∧ bpStops bp ans = true ∧ o = bp.all ∧
        moduleCall cls cur = false) ∨
     (b = false ∧ i.suspended = true ∧ f = cur.frame) ∨
     (b = false ∧ i.suspended = false ∧ stepDecision cfg cls.info i.cmd i.stop sl cls.kind cur back = .stop true ∧
      ((ev = .line ∧ f = cur.frame) ∨ (ev = .ret ∧ ∃ p rest, back = p :: rest ∧ f = p.frame)))) := by
  unfold dispatch at h
  split at h
  · cases h
  · split at h
    · rename_i o' ho
      exact absurd h ((classify_inl_effects ho).2.1 _ _ _)
    · rename_i cls hc
      refine ⟨cls, hc, ?_⟩
      obtain ⟨hk, hs, _, _, _⟩ := classify_spec hc
      have key : ∀ w, Eff.suspend f b o ∈ (decide' cfg cls i.cmd i.stop sl cur back ans w).effects → _ :=
        fun w hw => decide_suspend hw
      have fin : ∀ w, Eff.suspend f b o ∈ (decide' cfg cls i.cmd i.stop sl cur back ans w).effects →
          ((b = true ∧ f = cur.frame ∧ ∃ bp, theBp cfg cls cur = some bp ∧ bpStops bp ans = true ∧ o = bp.all ∧
            moduleCall cls cur = false) ∨
          (b = false ∧ i.suspended = true ∧ f = cur.frame) ∨
          (b = false ∧ i.suspended = false ∧ stepDecision cfg cls.info i.cmd i.stop sl cls.kind cur back = .stop true ∧
          ((ev = .line ∧ f = cur.frame) ∨ (ev = .ret ∧ ∃ p rest, back = p :: rest ∧ f = p.frame)))) := by
        intro w hw
        rcases key w hw with h1 | h1 | ⟨h1, h2, h3, h4⟩
        · exact .inl h1
        · rw [hs] at h1; exact .inr (.inl h1)
        · rw [hs] at h2
          refine .inr (.inr ⟨h1, h2, h3, ?_⟩)
          rcases h4 with ⟨h5, h6⟩ | ⟨h5, h6⟩
          · rw [h5] at hk
            exact .inl ⟨by cases ev <;> simp_all [kindOf], h6⟩
          · rw [h5] at hk
            exact .inr ⟨by cases ev <;> simp_all [kindOf], h6⟩
      split at h
      · exact fin _ h
      · split at h
        · cases h
        · exact fin _ h

/-! ### C50: conditions and logpoints -/

/-- A breakpoint makes the thread stop only if it is not a logpoint and its condition, if any, held; then the
frame shown is the one that hit it and the other threads are stopped exactly when its policy says so. -/
theorem c50_stop_only_if {cfg : Cfg} {cache : Cache} {i : Info} {sl : Option Nat} {cur : Entry} {back : Stack}
    {ev : Ev} {ans : Answers} {f : Frame} {o : Bool}
    (h : Eff.suspend f true o ∈ (dispatch cfg cache i sl cur back ev ans).effects) :
    f = cur.frame ∧ ∃ b : Bp, b.logpoint = false ∧ (b.hasCondition = true → ans.cond = true) ∧ o = b.all ∧
      ((ev = .line ∧ lookupBp (cfg.bps cur.frame.code.file) cur.line = some b) ∨
       (ev = .call ∧ cfg.funcBps cur.frame.code.name = some b ∧ cur.line = cur.frame.code.firstLine)) := by
  obtain ⟨cls, hc, h | h | h⟩ := dispatch_suspend h
  · obtain ⟨_, hf, b, hb, hs, ho, hm⟩ := h
    refine ⟨hf, b, ?_⟩
    simp only [bpStops, Bool.and_eq_true, Bool.not_eq_true', Bool.or_eq_true] at hs
    refine ⟨hs.2, fun hcd => ?_, ho, ?_⟩
    · rcases hs.1 with h1 | h1
      · rw [hcd] at h1; cases h1
      · exact h1
    · unfold theBp at hb
      cases hfb : cls.funcBp with
      | some b' =>
        rw [hfb] at hb
        simp only [Option.some.injEq] at hb
        subst hb
        right
        unfold classify at hc
        repeat' split at hc
        all_goals first
          | (simp only [Sum.inr.injEq] at hc; subst hc; simp_all; done)
          | (simp only [Sum.inr.injEq] at hc; subst hc; simp only at hfb; split at hfb <;> simp_all)
          | cases hc
      | none =>
        rw [hfb] at hb
        simp only at hb
        split at hb
        · rename_i hk
          simp only [Bool.and_eq_true, decide_eq_true_eq] at hk
          obtain ⟨hev, _⟩ := classify_spec hc
          rw [hk.1] at hev
          exact .inl ⟨by cases ev <;> simp_all [kindOf], hb⟩
        · cases hb
  · cases h.1
  · cases h.1

theorem act_effects (cfg : Cfg) (i : Info) (cmd : Cmd) (kind : Kind) (cur : Entry) (back : Stack) (dec : StepDec)
    (w : List Write) (effs : List Eff) :
    ∃ ex, (act cfg i cmd kind cur back dec w effs).effects = effs ++ ex ∧ ∀ b, Eff.hit b ∉ ex := by
  unfold act
  simp only
  repeat' split
  all_goals first
    | (refine ⟨[], ?_, ?_⟩ <;> simp <;> done)
    | (refine ⟨_, rfl, ?_⟩; simp; done)

theorem decide_hit (cfg : Cfg) (cls : Cls) (cmd : Cmd) (stop : Option Frame) (sl : Option Nat) (cur : Entry)
    (back : Stack) (ans : Answers) (w : List Write) (b : Bp) :
    Eff.hit b ∈ (decide' cfg cls cmd stop sl cur back ans w).effects ↔ theBp cfg cls cur = some b := by
  have hsr : ∀ c : Bool, Eff.hit b ∉ (if c = true then [Eff.showReturn] else []) := by intro c; split <;> simp
  have hlog : ∀ b', Eff.hit b ∉ logEffects b' ans := by intro b'; unfold logEffects; split <;> simp
  have hbe : ∀ b', Eff.hit b ∈ bpEffects b' ↔ b' = b := by
    intro b'; unfold bpEffects; cases b'.hasExpression <;> cases b'.hasCondition <;> simp [eq_comm]
  unfold decide'
  simp only
  cases hb : theBp cfg cls cur with
  | some b' =>
    simp only
    split
    · simp [hbe]
    · split
      · simp [hbe, hlog, hsr]
      · split
        · simp [hbe, hlog, hsr]
        · obtain ⟨ex, h1, h2⟩ := act_effects cfg cls.info cmd cls.kind cur back
            (stepDecision cfg cls.info cmd stop sl cls.kind cur back) w
            (bpEffects b' ++ logEffects b' ans ++ if showsReturn cfg cls stop cur back = true then [Eff.showReturn] else [])
          rw [h1]
          simp [hbe, hlog, hsr, h2]
  | none =>
    simp only
    split
    · simp [hsr]
    · obtain ⟨ex, h1, h2⟩ := act_effects cfg cls.info cmd cls.kind cur back
        (stepDecision cfg cls.info cmd stop sl cls.kind cur back)
        (if cls.kind = .line then w ++ [.line cur.frame.code.key cur.line] else w)
        (if showsReturn cfg cls stop cur back = true then [Eff.showReturn] else [])
      rw [h1]
      simp [hsr, h2]

theorem dispatch_line (cfg : Cfg) (cache : Cache) (i : Info) (sl : Option Nat) (cur : Entry) (back : Stack)
    (ans : Answers) (hd : cfg.disposed = false) :
    dispatch cfg cache i sl cur back .line ans =
      match skipPhase cfg cache cur.frame.code cur.line (canSkip cfg i i.cmd i.stop cur back) none with
      | (.stop r, w) => { ret := r, info := i, writes := w }
      | (.go, w) => decide' cfg { kind := .line, info := i } i.cmd i.stop sl cur back ans w := by
  have hcl : classify cfg i cur back .line ans = .inr { kind := .line, info := i } := by
    unfold classify; split <;> rfl
  unfold dispatch
  rw [hcl, hd]
  rfl

/-- A line event that hits a breakpoint suspends because of it exactly when it is not a logpoint and its
condition, if it has one, holds; its condition is evaluated exactly when it has one. -/
theorem c50_hit_line {cfg : Cfg} {cache : Cache} {i : Info} {sl : Option Nat} {cur : Entry} {back : Stack}
    {ans : Answers} {b : Bp} (h : Eff.hit b ∈ (dispatch cfg cache i sl cur back .line ans).effects) :
    (Eff.suspend cur.frame true b.all ∈ (dispatch cfg cache i sl cur back .line ans).effects ↔
      b.logpoint = false ∧ (b.hasCondition = true → ans.cond = true)) ∧
    (b.hasCondition = true → Eff.condition ∈ (dispatch cfg cache i sl cur back .line ans).effects) ∧
    (b.hasExpression = true → Eff.expression ∈ (dispatch cfg cache i sl cur back .line ans).effects) ∧
    (dispatch cfg cache i sl cur back .line ans).ret ≠ .exceptions := by
  by_cases hd : cfg.disposed = true
  · unfold dispatch at h; rw [if_pos hd] at h; cases h
  simp only [Bool.not_eq_true] at hd
  rw [dispatch_line _ _ _ _ _ _ _ hd] at h ⊢
  split at h
  · cases h
  · rename_i w hsk
    rw [decide_hit] at h
    have hm : moduleCall { kind := .line, info := i } cur = false := by simp [moduleCall]
    unfold decide'
    simp only [h, hm, Bool.false_eq_true, if_false]
    have hst : bpStops b ans = true ↔ b.logpoint = false ∧ (b.hasCondition = true → ans.cond = true) := by
      unfold bpStops; cases b.logpoint <;> cases b.hasCondition <;> simp
    have hc : b.hasCondition = true → Eff.condition ∈ bpEffects b := by intro hh; simp [bpEffects, hh]
    have he : b.hasExpression = true → Eff.expression ∈ bpEffects b := by intro hh; simp [bpEffects, hh]
    by_cases hs : bpStops b ans = true
    · rw [if_pos hs]
      refine ⟨⟨fun _ => hst.1 hs, fun _ => by simp⟩, fun hh => ?_, fun hh => ?_, by simp⟩
      · have := hc hh; simp [this]
      · have := he hh; simp [this]
    · rw [if_neg hs]
      have hno : ∀ x y, Eff.suspend cur.frame x y ∉ bpEffects b ++ logEffects b ans ++
          (if showsReturn cfg { kind := .line, info := i } i.stop cur back = true then [Eff.showReturn] else []) := by
        intro x y
        simp only [List.mem_append, not_or]
        exact ⟨⟨not_suspend_bpEffects _ _ _ _, not_suspend_logEffects _ _ _ _ _⟩, not_suspend_sr _ _ _ _⟩
      by_cases hi : i.suspended = true
      · rw [if_pos hi]
        refine ⟨⟨fun hx => ?_, fun hx => absurd (hst.2 hx) hs⟩, fun hh => ?_, fun hh => ?_, by simp⟩
        · rw [List.mem_append] at hx
          rcases hx with hx | hx
          · exact absurd hx (hno _ _)
          · simp at hx
        · have := hc hh; simp [this]
        · have := he hh; simp [this]
      · rw [if_neg hi]
        refine ⟨⟨fun hx => ?_, fun hx => absurd (hst.2 hx) hs⟩, fun hh => ?_, fun hh => ?_, ?_⟩
        · rcases act_suspend hx with hx | ⟨hx, _⟩
          · exact absurd hx (hno _ _)
          · cases hx
        · obtain ⟨ex, h1, _⟩ := act_effects cfg i i.cmd .line cur back
            (stepDecision cfg i i.cmd i.stop sl .line cur back) w _
          rw [h1]
          have := hc hh; simp [this]
        · obtain ⟨ex, h1, _⟩ := act_effects cfg i i.cmd .line cur back
            (stepDecision cfg i i.cmd i.stop sl .line cur back) w _
          rw [h1]
          have := he hh; simp [this]
        · unfold act
          simp only
          repeat' split
          all_goals simp_all

/-- Hitting a logpoint while running freely changes nothing but the output: no suspension at all, and the step
state is untouched. -/
theorem c50_logpoint_never_stops {cfg : Cfg} {cache : Cache} {i : Info} {sl : Option Nat} {cur : Entry} {back : Stack}
    {ev : Ev} {ans : Answers} {b : Bp} (hb : b.logpoint = true) (hs : i.suspended = false) (hc : i.cmd = .none)
    (h : Eff.hit b ∈ (dispatch cfg cache i sl cur back ev ans).effects) :
    (∀ f x o, Eff.suspend f x o ∉ (dispatch cfg cache i sl cur back ev ans).effects) := by
  intro f x o hx
  obtain ⟨cls, hcl, h1 | h1 | h1⟩ := dispatch_suspend hx
  · obtain ⟨_, _, b', hb', hst, _⟩ := h1
    unfold dispatch at h
    split at h
    · cases h
    · rw [hcl] at h
      simp only at h
      have : ∀ w, Eff.hit b ∈ (decide' cfg cls i.cmd i.stop sl cur back ans w).effects → False := by
        intro w hw
        rw [decide_hit, hb'] at hw
        simp only [Option.some.injEq] at hw
        subst hw
        simp [bpStops, hb] at hst
      split at h
      · exact this _ h
      · split at h
        · cases h
        · exact this _ h
  · rw [hs] at h1; cases h1.2.1
  · have := h1.2.2.1
    rw [hc] at this
    unfold stepDecision at this
    split at this <;> simp at this

/-- The answer of the condition: true exactly when the hit condition holds, or the condition holds, or its
evaluation failed and failing evaluations suspend. -/
theorem c50_condition (hitCond : Bool) (cond : Option Eval) :
    handleCondition hitCond cond = true ↔
      hitCond = true ∨ cond = some (.value true) ∨ cond = some (.raised false) := by
  unfold handleCondition
  cases hitCond <;> simp
  rcases cond with _ | ⟨v⟩ | ⟨v⟩ <;> simp

/-! ### C23: stepping -/

/-- While running without a step and without a pause, nothing stops except a breakpoint. -/
theorem c23_run {cfg : Cfg} {cache : Cache} {i : Info} {sl : Option Nat} {cur : Entry} {back : Stack}
    {ev : Ev} {ans : Answers} {f : Frame} {b o : Bool} (hs : i.suspended = false) (hc : i.cmd = .none)
    (h : Eff.suspend f b o ∈ (dispatch cfg cache i sl cur back ev ans).effects) : b = true := by
  obtain ⟨cls, hcl, h1 | h1 | h1⟩ := dispatch_suspend h
  · exact h1.1
  · rw [hs] at h1; cases h1.2.1
  · have := h1.2.2.1
    rw [hc] at this
    unfold stepDecision at this
    split at this <;> simp at this

theorem isSame_iff {target : Option Frame} {stk : Stack} : isSame false target stk = true ↔ target = topFrame stk := by
  unfold isSame; split <;> simp_all

/-- Step over stops (breakpoints apart) only at a line event of the frame the step began in, and shows it. -/
theorem c23_over_only {cfg : Cfg} {cache : Cache} {i : Info} {sl : Option Nat} {cur : Entry} {back : Stack}
    {ev : Ev} {ans : Answers} {f F : Frame} {o : Bool} (hs : i.suspended = false) (hc : i.cmd = .over ∨ i.cmd = .overMy)
    (hF : i.stop = some F) (hi : i.ipy = false)
    (h : Eff.suspend f false o ∈ (dispatch cfg cache i sl cur back ev ans).effects) :
    ev = .line ∧ cur.frame = F ∧ f = F := by
  obtain ⟨cls, hcl, h1 | h1 | h1⟩ := dispatch_suspend h
  · cases h1.1
  · rw [hs] at h1; cases h1.2.1
  · obtain ⟨_, _, hd, hw⟩ := h1
    obtain ⟨hk, _, hy, _, _⟩ := classify_spec hcl
    unfold stepDecision at hd
    split at hd
    · simp at hd
    · have hd' : isSame cls.info.ipy i.stop (cur :: back) = true ∧ cls.kind = .line := by
        rcases hc with hc | hc <;> rw [hc] at hd <;> simpa using hd
      rw [hy, hi, isSame_iff, hF] at hd'
      simp only [topFrame, List.head?_cons, Option.map_some, Option.some.injEq] at hd'
      rcases hw with ⟨he, hf⟩ | ⟨he, _⟩
      · exact ⟨he, hd'.1.symm, by rw [hf, hd'.1]⟩
      · rw [he, hd'.2] at hk; cases hk

/-- ... and it does stop at the first line event of that frame (unless that line has a breakpoint, which is then
what stops), provided the file is not excluded by `@DontTrace`. -/
theorem c23_over_stops {cfg : Cfg} {cache : Cache} {i : Info} {sl : Option Nat} {cur : Entry} {back : Stack}
    {ans : Answers} (hd : cfg.disposed = false) (hs : i.suspended = false) (hc : i.cmd = .over ∨ i.cmd = .overMy)
    (hF : i.stop = some cur.frame) (hh : hookRejects cfg cur.frame.code = false) :
    ∃ x o, Eff.suspend cur.frame x o ∈ (dispatch cfg cache i sl cur back .line ans).effects := by
  have hsame : isSame i.ipy i.stop (cur :: back) = true := by simp [isSame, hF, topFrame]
  have hskip : canSkip cfg i i.cmd i.stop cur back = false := by
    unfold canSkip
    rcases hc with hc | hc <;> simp [hs, hc, hsame]
  have hgo : ∃ w, skipPhase cfg cache cur.frame.code cur.line false none = (.go, w) := by
    unfold skipPhase
    simp only [Option.isSome_none, Bool.false_eq_true, if_false, Bool.false_and]
    split
    · exact ⟨_, rfl⟩
    · exact ⟨_, rfl⟩
    · split <;> exact ⟨_, rfl⟩
  obtain ⟨w, hgo⟩ := hgo
  rw [dispatch_line _ _ _ _ _ _ _ hd, hskip, hgo]
  have hdec : stepDecision cfg i i.cmd i.stop sl .line cur back = .stop true := by
    unfold stepDecision
    rcases hc with hc | hc <;> simp [hh, hc, hsame]
  unfold decide'
  simp only [hdec]
  have hact : ∀ w effs, Eff.suspend cur.frame false false ∈ (act cfg i i.cmd .line cur back (.stop true) w effs).effects := by
    intro w effs
    simp [act, pydevGate]
  split
  · rename_i b hb
    have hm : moduleCall { kind := .line, info := i } cur = false := by simp [moduleCall]
    rw [hm]
    simp only [Bool.false_eq_true, if_false, hs]
    split
    · exact ⟨true, b.all, by simp⟩
    · exact ⟨false, false, hact _ _⟩
  · simp only [hs, Bool.false_eq_true, if_false]
    exact ⟨false, false, hact _ _⟩

/-- When the frame of a step over returns, the step becomes a step into (of the same flavour) and the return
itself does not stop. -/
theorem c23_over_return {cfg : Cfg} {cache : Cache} {i : Info} {sl : Option Nat} {cur : Entry} {back : Stack}
    {ans : Answers} (hd : cfg.disposed = false) (hs : i.suspended = false) (hc : i.cmd = .over ∨ i.cmd = .overMy)
    (hF : i.stop = some cur.frame) (hi : i.ipy = false) (hg : cur.frame.code.gen = false) :
    let o := dispatch cfg cache i sl cur back .ret ans
    o.info = { i with cmd := if i.cmd = .over then .into else .intoMy, stop := none } ∧
    ∀ f x p, Eff.suspend f x p ∉ o.effects := by
  simp only
  constructor
  · have hri : returnInfo i cur.frame = { i with cmd := if i.cmd = .over then .into else .intoMy, stop := none } := by
      unfold returnInfo
      rcases hc with hc | hc <;> simp [hF, hi, hc]
    unfold dispatch
    rw [hd]
    simp only [Bool.false_eq_true, if_false, classify, hg, hri]
    split
    · rename_i o ho
      split at ho
      · cases ho; rfl
      · cases ho
    · rename_i cls hcl
      split at hcl
      · cases hcl
      · cases hcl
        simp only [reduceCtorEq, if_false]
        split
        · rfl
        · unfold decide' theBp
          simp only [reduceCtorEq, decide_false, Bool.false_and, Bool.false_eq_true, if_false, hs]
          have hdec : ∀ j : Info, stepDecision cfg j i.cmd i.stop sl .ret cur back = .stop false := by
            intro j
            unfold stepDecision
            rcases hc with hc | hc <;> simp [hc]
          rw [hdec]
          simp [act, pydevGate]
  · intro f x p h
    obtain ⟨cls, hcl, h1 | h1 | h1⟩ := dispatch_suspend h
    · obtain ⟨_, _, b, hb, _⟩ := h1
      obtain ⟨hk, _, _, hfb, _⟩ := classify_spec hcl
      simp only [kindOf, Option.some.injEq] at hk
      unfold theBp at hb
      cases hf : cls.funcBp with
      | some b' => have := hfb (by rw [hf]; rfl); rw [← hk] at this; cases this
      | none => rw [hf, ← hk] at hb; simp at hb
    · rw [hs] at h1; cases h1.2.1
    · have hx := h1.2.2.1
      obtain ⟨hk, _⟩ := classify_spec hcl
      simp only [kindOf, Option.some.injEq] at hk
      rw [← hk] at hx
      unfold stepDecision at hx
      rcases hc with hc | hc <;> rw [hc] at hx <;> simp at hx

/-- Step return stops (breakpoints apart) only when the frame it began in returns, and shows the caller. -/
theorem c23_return_only {cfg : Cfg} {cache : Cache} {i : Info} {sl : Option Nat} {cur : Entry} {back : Stack}
    {ev : Ev} {ans : Answers} {f F : Frame} {o : Bool} (hs : i.suspended = false) (hc : i.cmd = .ret ∨ i.cmd = .retMy)
    (hF : i.stop = some F) (hi : i.ipy = false)
    (h : Eff.suspend f false o ∈ (dispatch cfg cache i sl cur back ev ans).effects) :
    ev = .ret ∧ cur.frame = F ∧ ∃ p rest, back = p :: rest ∧ f = p.frame := by
  obtain ⟨cls, hcl, h1 | h1 | h1⟩ := dispatch_suspend h
  · cases h1.1
  · rw [hs] at h1; cases h1.2.1
  · obtain ⟨_, _, hd, hw⟩ := h1
    obtain ⟨hk, _, hy, _, _⟩ := classify_spec hcl
    unfold stepDecision at hd
    split at hd
    · simp at hd
    · have hd' : cls.kind = .ret ∧ isSame cls.info.ipy i.stop (cur :: back) = true := by
        rcases hc with hc | hc <;> rw [hc] at hd <;> simpa using hd
      rw [hy, hi, isSame_iff, hF] at hd'
      simp only [topFrame, List.head?_cons, Option.map_some, Option.some.injEq] at hd'
      rcases hw with ⟨he, _⟩ | ⟨he, hf⟩
      · rw [he, hd'.1] at hk; cases hk
      · exact ⟨he, hd'.2.symm, hf⟩

/-- ... and it does stop there: when the function returns to a caller that is user-visible. -/
theorem c23_return_stops {cfg : Cfg} {cache : Cache} {i : Info} {sl : Option Nat} {cur p : Entry} {rest : Stack}
    {ans : Answers} (hd : cfg.disposed = false) (hs : i.suspended = false) (hc : i.cmd = .ret ∨ i.cmd = .retMy)
    (hF : i.stop = some cur.frame) (hg : cur.frame.code.gen = false) (hu : ans.userExc ≠ some true)
    (hh : hookRejects cfg cur.frame.code = false) (hh' : hookRejects cfg p.frame.code = false)
    (hp : cfg.fileType p.frame.code ≠ some .pydev) (hds : cfg.debugStart p.frame.code = false)
    (htp : cfg.traceProperty p.frame.code = false) :
    Eff.suspend p.frame false false ∈ (dispatch cfg cache i sl cur (p :: rest) .ret ans).effects := by
  have hsame : ∀ y, isSame y i.stop (cur :: p :: rest) = true := by intro y; simp [isSame, hF, topFrame]
  unfold dispatch
  rw [hd]
  simp only [Bool.false_eq_true, if_false, classify, hg, if_neg hu, reduceCtorEq]
  have hsk : canSkip cfg (returnInfo i cur.frame) i.cmd i.stop cur (p :: rest) = false := by
    unfold canSkip
    rw [returnInfo_suspended, hs]
    rcases hc with hc | hc <;> simp [hc, hsame]
  rw [hsk]
  have hgo : ∃ w, skipPhase cfg cache cur.frame.code cur.line false none = (.go, w) := by
    unfold skipPhase
    simp only [Option.isSome_none, Bool.false_eq_true, if_false, Bool.false_and]
    split
    · exact ⟨_, rfl⟩
    · exact ⟨_, rfl⟩
    · split <;> exact ⟨_, rfl⟩
  obtain ⟨w, hgo⟩ := hgo
  rw [hgo]
  have hdec : ∀ j : Info, stepDecision cfg j i.cmd i.stop sl .ret cur (p :: rest) = .stop true := by
    intro j
    unfold stepDecision
    rcases hc with hc | hc <;> simp [hh, hc, hsame]
  unfold decide' theBp
  simp only [reduceCtorEq, decide_false, Bool.false_and, Bool.false_eq_true, if_false, returnInfo_suspended, hs, hdec]
  have hg : pydevGate cfg i.cmd .ret (p :: rest) true = true := by
    unfold pydevGate; rcases hc with hc | hc <;> simp [hc, hp]
  simp [act, hg, hds, htp, hh']

/-- Step into stops at a line event exactly when the filters let it (breakpoints apart): always when no filter is
on, else when the file is not filtered out ("my code" also applies the project scope). -/
theorem c23_into_line {cfg : Cfg} {cache : Cache} {i : Info} {sl : Option Nat} {cur : Entry} {back : Stack}
    {ans : Answers} (hd : cfg.disposed = false) (hs : i.suspended = false) (hc : i.cmd = .into ∨ i.cmd = .intoMy)
    (hi : i.ipy = false) (hh : hookRejects cfg cur.frame.code = false)
    (hb : lookupBp (cfg.bps cur.frame.code.file) cur.line = none) :
    (Eff.suspend cur.frame false false ∈ (dispatch cfg cache i sl cur back .line ans).effects ↔
      (i.cmd = .into ∧ (cfg.filtersOn = true → cfg.filter cur.frame.code false = false)) ∨
      (i.cmd = .intoMy ∧ cfg.filter cur.frame.code true = false)) := by
  have hbp : theBp cfg { kind := .line, info := i } cur = none := by simp [theBp, hb]
  constructor
  · intro h
    obtain ⟨cls, hcl, h1 | h1 | h1⟩ := dispatch_suspend h
    · cases h1.1
    · rw [hs] at h1; cases h1.2.1
    · have hx := h1.2.2.1
      obtain ⟨hk, _, hy, _, hii⟩ := classify_spec hcl
      simp only [kindOf, Option.some.injEq] at hk
      rw [← hk] at hx
      unfold stepDecision at hx
      rw [hh] at hx
      simp only [Bool.false_eq_true, if_false] at hx
      rcases hc with hc | hc
      · left
        refine ⟨hc, fun hf => ?_⟩
        rw [hc] at hx
        simpa [stepInto, hy, hi, hf, restrictCoroutine] using hx
      · right
        refine ⟨hc, ?_⟩
        rw [hc] at hx
        simpa [stepInto, hy, hi, restrictCoroutine] using hx
  · intro h
    have hsk : canSkip cfg i i.cmd i.stop cur back = false := by
      unfold canSkip
      rcases h with ⟨hc, _⟩ | ⟨hc, hf⟩
      · simp [hc]
      · simp [hc, hf]
    have hgo : ∃ w, skipPhase cfg cache cur.frame.code cur.line false none = (.go, w) := by
      unfold skipPhase
      simp only [Option.isSome_none, Bool.false_eq_true, if_false, Bool.false_and]
      split
      · exact ⟨_, rfl⟩
      · exact ⟨_, rfl⟩
      · split <;> exact ⟨_, rfl⟩
    obtain ⟨w, hgo⟩ := hgo
    rw [dispatch_line _ _ _ _ _ _ _ hd, hsk, hgo]
    have hdec : stepDecision cfg i i.cmd i.stop sl .line cur back = .stop true := by
      unfold stepDecision
      rw [hh]
      rcases h with ⟨hc, hf⟩ | ⟨hc, hf⟩
      · cases hfo : cfg.filtersOn with
        | true => simp [hc, stepInto, hi, restrictCoroutine, hf hfo, hfo]
        | false => simp [hc, stepInto, hi, restrictCoroutine, hfo]
      · simp [hc, stepInto, hi, restrictCoroutine, hf]
    unfold decide'
    simp [hbp, hs, hdec, act, pydevGate]

/-- Step into on a return event shows the caller, and only if the caller is not filtered out nor the place the
step began at. -/
theorem c23_into_return {cfg : Cfg} {cache : Cache} {i : Info} {sl : Option Nat} {cur : Entry} {back : Stack}
    {ans : Answers} {f : Frame} {o : Bool} (hs : i.suspended = false) (hc : i.cmd = .into ∨ i.cmd = .intoMy)
    (h : Eff.suspend f false o ∈ (dispatch cfg cache i sl cur back .ret ans).effects) :
    ∃ p rest, back = p :: rest ∧ f = p.frame ∧ cfg.fileType p.frame.code ≠ some .pydev ∧
      (cfg.filtersOn = true ∨ i.cmd = .intoMy →
        cfg.filter p.frame.code (i.cmd = .intoMy) = false ∧ i.initialLoc ≠ some (p.frame, p.line)) := by
  obtain ⟨cls, hcl, h1 | h1 | h1⟩ := dispatch_suspend h
  · cases h1.1
  · rw [hs] at h1; cases h1.2.1
  · obtain ⟨_, _, hx, hw⟩ := h1
    rcases hw with ⟨he, _⟩ | ⟨_, p, rest, hb, hf⟩
    · cases he
    · refine ⟨p, rest, hb, hf, ?_⟩
      obtain ⟨hk, _, hy, _, _⟩ := classify_spec hcl
      simp only [kindOf, Option.some.injEq] at hk
      have hil : cls.info.initialLoc = i.initialLoc := by
        unfold classify at hcl
        repeat' split at hcl
        all_goals first
          | (cases hcl; done)
          | (simp only [Sum.inr.injEq] at hcl; rw [← hcl]; done)
          | (simp only [Sum.inr.injEq] at hcl; rw [← hcl]; exact genReturnInfo_initialLoc _ _ _ _)
          | (simp only [Sum.inr.injEq] at hcl; rw [← hcl]; exact returnInfo_initialLoc _ _)
      rw [← hk, hb] at hx
      unfold stepDecision at hx
      split at hx
      · simp at hx
      · rcases hc with hc | hc
        · rw [hc] at hx
          simp only [stepInto] at hx
          split at hx
          · simp at hx
          · split at hx
            · simp at hx
            · rename_i hnp
              refine ⟨hnp, ?_⟩
              rintro (hfo | hfo)
              · simp only [hfo, restrictCoroutine, hil, hc] at hx ⊢
                simpa using hx
              · rw [hc] at hfo; cases hfo
        · rw [hc] at hx
          simp only [stepInto] at hx
          split at hx
          · simp at hx
          · split at hx
            · simp at hx
            · rename_i hnp
              refine ⟨hnp, fun _ => ?_⟩
              simp only [restrictCoroutine, hil, hc] at hx ⊢
              simpa using hx

/-- Step into on a return event does show the caller if nothing forbids it. -/
theorem c23_into_return_stops {cfg : Cfg} {cache : Cache} {i : Info} {sl : Option Nat} {cur p : Entry} {rest : Stack}
    {ans : Answers} (hd : cfg.disposed = false) (hs : i.suspended = false) (hc : i.cmd = .into ∨ i.cmd = .intoMy)
    (hi : i.ipy = false) (hg : cur.frame.code.gen = false) (hu : ans.userExc ≠ some true)
    (hh : hookRejects cfg cur.frame.code = false) (hh' : hookRejects cfg p.frame.code = false)
    (hp : cfg.fileType p.frame.code ≠ some .pydev) (hds : cfg.debugStart p.frame.code = false)
    (htp : cfg.traceProperty p.frame.code = false)
    (hf : cfg.filtersOn = true ∨ i.cmd = .intoMy →
      cfg.filter p.frame.code (i.cmd = .intoMy) = false ∧ i.initialLoc ≠ some (p.frame, p.line)) :
    Eff.suspend p.frame false false ∈ (dispatch cfg cache i sl cur (p :: rest) .ret ans).effects := by
  unfold dispatch
  rw [hd]
  simp only [Bool.false_eq_true, if_false, classify, hg, if_neg hu, reduceCtorEq]
  have hri : returnInfo i cur.frame = i := by
    unfold returnInfo
    rw [if_neg]
    rcases hc with hc | hc <;> simp [hc]
  rw [hri]
  have hsk : canSkip cfg i i.cmd i.stop cur (p :: rest) = false := by
    unfold canSkip
    rcases hc with hc | hc
    · simp [hc, hs]
    · have := (hf (.inr hc)).1
      simp only [hc, decide_true] at this
      simp [hc, hs, this]
  rw [hsk]
  have hgo : ∃ w, skipPhase cfg cache cur.frame.code cur.line false none = (.go, w) := by
    unfold skipPhase
    simp only [Option.isSome_none, Bool.false_eq_true, if_false, Bool.false_and]
    split
    · exact ⟨_, rfl⟩
    · exact ⟨_, rfl⟩
    · split <;> exact ⟨_, rfl⟩
  obtain ⟨w, hgo⟩ := hgo
  rw [hgo]
  have hdec : stepDecision cfg i i.cmd i.stop sl .ret cur (p :: rest) = .stop true := by
    unfold stepDecision
    rcases hc with hc | hc
    · rw [hc] at hf ⊢
      cases hfo : cfg.filtersOn with
      | false => simp [hh, stepInto, hi, hp, hfo, restrictCoroutine]
      | true =>
        obtain ⟨h1, h2⟩ := hf (.inl hfo)
        simp only [reduceCtorEq, decide_false] at h1
        simp [hh, stepInto, hi, hp, hfo, restrictCoroutine, h1, h2]
    · rw [hc] at hf ⊢
      obtain ⟨h1, h2⟩ := hf (.inr rfl)
      simp only [decide_true] at h1
      simp [hh, stepInto, hi, hp, restrictCoroutine, h1, h2]
  unfold decide' theBp
  simp only [reduceCtorEq, decide_false, Bool.false_and, Bool.false_eq_true, if_false, hs, hdec]
  have hg : pydevGate cfg i.cmd .ret (p :: rest) true = true := by
    unfold pydevGate; rcases hc with hc | hc <;> simp [hc, hp]
  simp [act, hg, hds, htp, hh']

/-- A line without a breakpoint stops exactly if the step says so, provided such a line is not skipped. -/
theorem line_stops_iff {cfg : Cfg} {cache : Cache} {i : Info} {sl : Option Nat} {cur : Entry} {back : Stack}
    {ans : Answers} (hd : cfg.disposed = false) (hs : i.suspended = false)
    (hb : lookupBp (cfg.bps cur.frame.code.file) cur.line = none)
    (hk : stepDecision cfg i i.cmd i.stop sl .line cur back = .stop true → canSkip cfg i i.cmd i.stop cur back = false) :
    (∃ f x o, Eff.suspend f x o ∈ (dispatch cfg cache i sl cur back .line ans).effects) ↔
      stepDecision cfg i i.cmd i.stop sl .line cur back = .stop true := by
  have hbp : theBp cfg { kind := .line, info := i } cur = none := by simp [theBp, hb]
  constructor
  · rintro ⟨f, x, o, h⟩
    obtain ⟨cls, hcl, h1 | h1 | h1⟩ := dispatch_suspend h
    · have hcl' : classify cfg i cur back .line ans = .inr { kind := .line, info := i } := by
        unfold classify; split <;> rfl
      rw [hcl'] at hcl
      cases hcl
      obtain ⟨_, _, bp, h2, _⟩ := h1
      rw [hbp] at h2; cases h2
    · rw [hs] at h1; cases h1.2.1
    · have hx := h1.2.2.1
      obtain ⟨hk, _, hy, _, hii⟩ := classify_spec hcl
      simp only [kindOf, Option.some.injEq] at hk
      rw [← hk, hii (by simp)] at hx
      exact hx
  · intro hdec
    have hgo : ∃ w, skipPhase cfg cache cur.frame.code cur.line false none = (.go, w) := by
      unfold skipPhase
      simp only [Option.isSome_none, Bool.false_eq_true, if_false, Bool.false_and]
      split
      · exact ⟨_, rfl⟩
      · exact ⟨_, rfl⟩
      · split <;> exact ⟨_, rfl⟩
    obtain ⟨w, hgo⟩ := hgo
    refine ⟨cur.frame, false, false, ?_⟩
    rw [dispatch_line _ _ _ _ _ _ _ hd, hk hdec, hgo]
    unfold decide'
    simp [hbp, hs, hdec, act, pydevGate]

/-- Smart step into, like step return, shows the caller when the frame it began in returns. -/
theorem smart_return_stops {cfg : Cfg} {cache : Cache} {i : Info} {sl : Option Nat} {cur p : Entry} {rest : Stack}
    {ans : Answers} (hd : cfg.disposed = false) (hs : i.suspended = false) (hc : i.cmd = .smart)
    (hF : i.stop = some cur.frame) (hg : cur.frame.code.gen = false) (hu : ans.userExc ≠ some true)
    (hh : hookRejects cfg cur.frame.code = false) (hh' : hookRejects cfg p.frame.code = false)
    (hp : cfg.fileType p.frame.code ≠ some .pydev) (hds : cfg.debugStart p.frame.code = false)
    (htp : cfg.traceProperty p.frame.code = false) :
    Eff.suspend p.frame false false ∈ (dispatch cfg cache i sl cur (p :: rest) .ret ans).effects := by
  have hsame : ∀ y, isSame y i.stop (cur :: p :: rest) = true := by intro y; simp [isSame, hF, topFrame]
  unfold dispatch
  rw [hd]
  simp only [Bool.false_eq_true, if_false, classify, hg, if_neg hu, reduceCtorEq]
  have hsk : canSkip cfg (returnInfo i cur.frame) i.cmd i.stop cur (p :: rest) = false := by
    unfold canSkip
    rw [returnInfo_suspended, hs]
    simp [hc, hF]
  rw [hsk]
  have hgo : ∃ w, skipPhase cfg cache cur.frame.code cur.line false none = (.go, w) := by
    unfold skipPhase
    simp only [Option.isSome_none, Bool.false_eq_true, if_false, Bool.false_and]
    split
    · exact ⟨_, rfl⟩
    · exact ⟨_, rfl⟩
    · split <;> exact ⟨_, rfl⟩
  obtain ⟨w, hgo⟩ := hgo
  rw [hgo]
  have hdec : ∀ j : Info, stepDecision cfg j i.cmd i.stop sl .ret cur (p :: rest) = .stop true := by
    intro j
    unfold stepDecision stepSmart
    simp [hh, hc, hsame]
  unfold decide' theBp
  simp only [reduceCtorEq, decide_false, Bool.false_and, Bool.false_eq_true, if_false, returnInfo_suspended, hs, hdec]
  have hg : pydevGate cfg i.cmd .ret (p :: rest) true = true := by
    unfold pydevGate; simp [hc, hp]
  simp [act, hg, hds, htp, hh']

/-- A function whose code the `@DontTrace` rule rejects is not stopped in by any step. -/
theorem c23_dont_trace {cfg : Cfg} {cache : Cache} {i : Info} {sl : Option Nat} {cur : Entry} {back : Stack} {ev : Ev}
    {ans : Answers} {rule : Code → Bool} (hs : i.suspended = false) (hr : cfg.hook = some rule) (hn : rule cur.frame.code = false)
    {f : Frame} {o : Bool} : Eff.suspend f false o ∉ (dispatch cfg cache i sl cur back ev ans).effects := by
  intro h
  obtain ⟨cls, hcl, h1 | h1 | h1⟩ := dispatch_suspend h
  · cases h1.1
  · rw [hs] at h1; cases h1.2.1
  · have := h1.2.2.1
    simp [stepDecision, hookRejects, hr, hn] at this

/-- Without such a rule, or with one that accepts the function, nothing is rejected. -/
theorem c23_traced {cfg : Cfg} {c : Code} : hookRejects cfg c = false ↔ ∀ rule, cfg.hook = some rule → rule c = true := by
  unfold hookRejects
  cases cfg.hook <;> simp

theorem onStack_iff {F : Frame} {stk : Stack} : onStack false (some F) stk = true ↔ ∃ e ∈ stk, e.frame = F := by
  induction stk with
  | nil => simp [onStack]
  | cons e stk ih =>
    simp only [onStack, Bool.or_eq_true, ih, List.mem_cons, exists_eq_or_imp]
    simp only [isSame, topFrame, List.head?_cons, Option.map_some, Option.some.injEq, Bool.false_and, eq_comm (a := F)]
    by_cases h : e.frame = F <;> simp [h]

/-- A step into in a coroutine stops at a line exactly if the line is in code that is not filtered out and runs in the coroutine or in
something it has called: other coroutines that run in between are left alone. -/
theorem c23_coroutine_line {cfg : Cfg} {cache : Cache} {i : Info} {sl : Option Nat} {cur : Entry} {back : Stack}
    {ans : Answers} {F : Frame} (hd : cfg.disposed = false) (hs : i.suspended = false) (hc : i.cmd = .coroutine) (hF : i.stop = some F)
    (hi : i.ipy = false) (hh : hookRejects cfg cur.frame.code = false)
    (hb : lookupBp (cfg.bps cur.frame.code.file) cur.line = none) :
    (∃ f x o, Eff.suspend f x o ∈ (dispatch cfg cache i sl cur back .line ans).effects) ↔
      (cfg.filtersOn = true → cfg.filter cur.frame.code false = false) ∧ ∃ e ∈ cur :: back, e.frame = F := by
  have hdec : stepDecision cfg i i.cmd i.stop sl .line cur back = .stop true ↔
      (cfg.filtersOn = true → cfg.filter cur.frame.code false = false) ∧ ∃ e ∈ cur :: back, e.frame = F := by
    rw [← onStack_iff]
    unfold stepDecision
    rw [hh, hc, hF]
    simp only [Bool.false_eq_true, if_false, stepInto, hi, Bool.not_false, if_true, reduceCtorEq, decide_false, Bool.false_or, restrictCoroutine,
      decide_true, Bool.and_true, StepDec.stop.injEq]
    cases cfg.filtersOn <;> cases cfg.filter cur.frame.code false <;> simp
  rw [← hdec]
  refine line_stops_iff hd hs hb ?_
  intro h
  have := onStack_iff.2 (hdec.1 h).2
  unfold canSkip
  simp [hs, hc, hi, hF, this]

/-- the nearest caller that is not filtered out -/
inductive Nearest (cfg : Cfg) : Stack → Frame → Prop
  | here {e : Entry} {stk : Stack} : (cfg.filtersOn = true → cfg.filter e.frame.code false = false) → Nearest cfg (e :: stk) e.frame
  | there {e : Entry} {stk : Stack} {f : Frame} : cfg.filtersOn = true → cfg.filter e.frame.code false = true → Nearest cfg stk f →
      Nearest cfg (e :: stk) f

theorem unfilteredBack_nearest {cfg : Cfg} {stk : Stack} {f : Frame} : unfilteredBack cfg stk = some f ↔ Nearest cfg stk f := by
  induction stk with
  | nil =>
    constructor
    · intro h; cases h
    · intro h; cases h
  | cons e stk ih =>
    unfold unfilteredBack
    cases ho : cfg.filtersOn with
    | false =>
      simp only [Bool.not_false, if_true, Option.some.injEq]
      constructor
      · rintro rfl; exact .here (by simp [ho])
      · intro h; cases h with
        | here => rfl
        | there h1 => rw [ho] at h1; cases h1
    | true =>
      cases hf : cfg.filter e.frame.code false with
      | true =>
        simp only [Bool.not_true, Bool.false_eq_true, if_false, if_true, ih]
        constructor
        · intro h; exact .there ho hf h
        · intro h; cases h with
          | here h1 => rw [h1 ho] at hf; cases hf
          | there _ _ h => exact h
      | false =>
        simp only [Bool.not_true, Bool.false_eq_true, if_false, Option.some.injEq]
        constructor
        · rintro rfl; exact .here (fun _ => hf)
        · intro h; cases h with
          | here => rfl
          | there _ h1 => rw [hf] at h1; cases h1

/-- A step over at the end of a generator or coroutine, at a line with a `return`, goes on in the nearest caller that is not
filtered out, as a step that stops in that caller or something it calls; with no such caller a step over becomes a step into. It does not stop
at the return itself. -/
theorem c23_generator_return {cfg : Cfg} {cache : Cache} {i : Info} {sl : Option Nat} {cur : Entry} {back : Stack}
    {ans : Answers} (hd : cfg.disposed = false) (hs : i.suspended = false) (hc : i.cmd = .over ∨ i.cmd = .overMy) (hi : i.ipy = false)
    (hF : i.stop = some cur.frame) (hg : cur.frame.code.gen = true) (hl : cur.line ∈ cur.frame.code.returnLines) (hu : ans.userExc = none) :
    (∀ f x o, Eff.suspend f x o ∉ (dispatch cfg cache i sl cur back .ret ans).effects) ∧
    (∀ b, Nearest cfg back b → (dispatch cfg cache i sl cur back .ret ans).info = { i with cmd := .coroutine, stop := some b }) ∧
    ((¬ ∃ b, Nearest cfg back b) → (dispatch cfg cache i sl cur back .ret ans).info = { i with cmd := if i.cmd = .over then .into else .intoMy, stop := none }) := by
  have hcl : classify cfg i cur back .ret ans = .inr { kind := .ret, info := genReturnInfo cfg i cur.frame back } := by
    simp [classify, hg, hl, hu]
  have hinfo : (dispatch cfg cache i sl cur back .ret ans).info = genReturnInfo cfg i cur.frame back := by
    unfold dispatch
    rw [hd, hcl]
    simp only [Bool.false_eq_true, if_false, reduceCtorEq]
    split
    · rfl
    · have hdec : stepDecision cfg (genReturnInfo cfg i cur.frame back) i.cmd i.stop sl .ret cur back = .stop false := by
        unfold stepDecision
        rcases hc with hc | hc <;> simp [hc]
      unfold decide'
      simp only [theBp, reduceCtorEq, decide_false, Bool.false_and, Bool.false_eq_true, if_false, genReturnInfo_suspended, hs, hdec]
      have hp : pydevGate cfg i.cmd .ret back false = false := by simp [pydevGate]
      simp [act, hp]
  refine ⟨?_, ?_, ?_⟩
  · intro f x o h
    obtain ⟨cls, hcl', h1 | h1 | h1⟩ := dispatch_suspend h
    · rw [hcl] at hcl'
      cases hcl'
      obtain ⟨_, _, bp, hb, _⟩ := h1
      simp [theBp] at hb
    · rw [hs] at h1; cases h1.2.1
    · rw [hcl] at hcl'
      cases hcl'
      have := h1.2.2.1
      unfold stepDecision at this
      rcases hc with hc | hc <;> simp [hc] at this
  · intro b hb
    rw [hinfo]
    unfold genReturnInfo
    rw [if_pos ⟨hF, hi⟩, if_pos (by rcases hc with hc | hc <;> simp [hc]), unfilteredBack_nearest.2 hb]
  · intro hb
    rw [hinfo]
    have : unfilteredBack cfg back = none := by
      cases h : unfilteredBack cfg back with
      | none => rfl
      | some f => exact absurd ⟨f, unfilteredBack_nearest.1 h⟩ hb
    unfold genReturnInfo
    rw [if_pos ⟨hF, hi⟩, if_pos (by rcases hc with hc | hc <;> simp [hc]), this]
    rcases hc with hc | hc <;> simp [hc]

/-- A generator that yields (no `return` at the line) does not change the step. -/
theorem c23_yield {cfg : Cfg} {cache : Cache} {i : Info} {sl : Option Nat} {cur : Entry} {back : Stack} {ans : Answers}
    (hg : cur.frame.code.gen = true) (hl : cur.line ∉ cur.frame.code.returnLines) :
    (dispatch cfg cache i sl cur back .ret ans).info = i ∧ (dispatch cfg cache i sl cur back .ret ans).effects = [] := by
  unfold dispatch
  split
  · exact ⟨rfl, rfl⟩
  · simp [classify, hg, hl]

/-- Concrete: a step over at the `return` of a generator called through a filtered function. -/
theorem c23_generator_example :
    let g : Frame := ⟨3, { file := 1, name := c!"gen", firstLine := 1, lines := [1, 2], gen := true, returnLines := [2] }⟩
    let lib : Frame := ⟨2, { file := 2, name := c!"lib", firstLine := 1, lines := [1] }⟩
    let main : Frame := ⟨1, { file := 1, name := c!"main", firstLine := 10, lines := [11] }⟩
    let o := dispatch { filtersOn := true, filter := fun c _ => c.file == 2 } {} { cmd := .over, stop := some g } none ⟨g, 2, 0⟩ [⟨lib, 1, 0⟩, ⟨main, 11, 0⟩] .ret {}
    o.info.cmd = .coroutine ∧ o.info.stop = some main := by
  decide

/-! ### C23 over event sequences -/

structure Event where
  cur : Entry
  back : Stack
  ev : Ev
  ans : Answers := {}
  stopLine : Option Nat := none

/-- The events of a thread, one after the other, until it suspends; the caches and the step information are
carried along. -/
def runEvents (cfg : Cfg) : Cache → Info → List Event → List Eff × Info
  | _, i, [] => ([], i)
  | cache, i, e :: es =>
    let o := dispatch cfg cache i e.stopLine e.cur e.back e.ev e.ans
    let (effs, i') := runEvents cfg (o.writes.foldl Cache.write cache) o.info es
    (o.effects ++ effs, i')

/-- The events of other frames while a step over is in progress neither stop nor disturb it. -/
theorem over_other_frames {cfg : Cfg} {cache : Cache} {i : Info} {e : Event} {F : Frame}
    (hs : i.suspended = false) (hc : i.cmd = .over ∨ i.cmd = .overMy) (hF : i.stop = some F) (hi : i.ipy = false)
    (hne : e.cur.frame ≠ F) (hnb : ∀ f o, Eff.suspend f true o ∉ (dispatch cfg cache i e.stopLine e.cur e.back e.ev e.ans).effects) :
    (dispatch cfg cache i e.stopLine e.cur e.back e.ev e.ans).info = i := by
  have hne' : ¬ i.stop = some e.cur.frame := by rw [hF]; simp; exact fun h => hne h.symm
  have hgr : genReturnInfo cfg i e.cur.frame e.back = i := by unfold genReturnInfo; rw [if_neg]; simp [hne']
  have hr : returnInfo i e.cur.frame = i := by unfold returnInfo; rw [if_neg]; simp [hne']
  have hdec : ∀ k, stepDecision cfg i i.cmd i.stop e.stopLine k e.cur e.back = .stop false := by
    intro k
    have hns : isSame i.ipy i.stop (e.cur :: e.back) = false := by
      cases hx : isSame i.ipy i.stop (e.cur :: e.back) with
      | false => rfl
      | true => rw [hi, isSame_iff, hF] at hx; simp [topFrame] at hx; exact absurd hx.symm hne
    unfold stepDecision
    rcases hc with hc | hc <;> simp [hc, hns]
  have hcls : ∀ cls, classify cfg i e.cur e.back e.ev e.ans = .inr cls → cls.info = i := by
    intro cls h
    unfold classify at h
    rw [hgr, hr] at h
    repeat' split at h
    all_goals first
      | (cases h; done)
      | (simp only [Sum.inr.injEq] at h; subst h; rfl)
  have hinl : ∀ o, classify cfg i e.cur e.back e.ev e.ans = .inl o → o.info = i := by
    intro o h
    unfold classify at h
    rw [hr] at h
    repeat' split at h
    all_goals first
      | (simp only [Sum.inl.injEq] at h; subst h; first | rfl | (split <;> rfl))
      | (cases h; done)
  have hde : ∀ cls w, classify cfg i e.cur e.back e.ev e.ans = .inr cls →
      (∀ f o, Eff.suspend f true o ∉ (decide' cfg cls i.cmd i.stop e.stopLine e.cur e.back e.ans w).effects) →
      (decide' cfg cls i.cmd i.stop e.stopLine e.cur e.back e.ans w).info = i := by
    intro cls w hcl hno
    have hci := hcls cls hcl
    have hact : ∀ k w effs, (act cfg i i.cmd k e.cur e.back (.stop false) w effs).info = i := by
      intro k w effs; simp [act, pydevGate]
    unfold decide' at hno ⊢
    simp only [hci, hs, hdec, Bool.false_eq_true, if_false] at hno ⊢
    split
    · rename_i b hb
      rw [hb] at hno
      simp only at hno
      split
      · rfl
      · rename_i hm
        rw [if_neg hm] at hno
        split
        · rename_i hst
          rw [if_pos hst] at hno
          exact absurd (by simp) (hno e.cur.frame b.all)
        · exact hact _ _ _
    · exact hact _ _ _
  unfold dispatch at hnb ⊢
  split
  · rfl
  · rename_i hd
    rw [if_neg hd] at hnb
    cases hcl : classify cfg i e.cur e.back e.ev e.ans with
    | inl o => exact hinl o hcl
    | inr cls =>
      rw [hcl] at hnb
      simp only at hnb ⊢
      split
      · rename_i hk
        rw [if_pos hk] at hnb
        exact hde cls _ hcl hnb
      · rename_i hk
        rw [if_neg hk] at hnb
        split
        · exact hcls cls hcl
        · rename_i w hsk
          rw [hsk] at hnb
          exact hde cls w hcl hnb

/-- Step over, for every sequence of events of other frames (calls, lines, returns, exceptions, at any depth):
unless a breakpoint stops, nothing suspends and the step stays in progress ... -/
theorem c23_over_sequence {cfg : Cfg} {cache : Cache} {i : Info} {F : Frame} (es : List Event)
    (hs : i.suspended = false) (hc : i.cmd = .over ∨ i.cmd = .overMy) (hF : i.stop = some F) (hi : i.ipy = false)
    (hne : ∀ e ∈ es, e.cur.frame ≠ F) (hnb : ∀ f o, Eff.suspend f true o ∉ (runEvents cfg cache i es).1) :
    (∀ f x o, Eff.suspend f x o ∉ (runEvents cfg cache i es).1) ∧ (runEvents cfg cache i es).2 = i := by
  induction es generalizing cache with
  | nil => simp [runEvents]
  | cons e es ih =>
    simp only [runEvents, List.mem_append, not_or] at hnb ⊢
    have h1 := over_other_frames (cache := cache) hs hc hF hi (hne e (by simp)) (fun f o => (hnb f o).1)
    rw [h1] at hnb ⊢
    obtain ⟨h2, h3⟩ := ih (fun e' he' => hne e' (by simp [he'])) (fun f o => (hnb f o).2)
    refine ⟨fun f x o => ⟨fun h => ?_, h2 f x o⟩, h3⟩
    cases x with
    | true => exact (hnb f o).1 h
    | false => exact hne e (by simp) (c23_over_only hs hc hF hi h).2.1

/-- ... and the next line event of the step's own frame suspends the thread there. -/
theorem c23_over_sequence_stops {cfg : Cfg} {cache : Cache} {i : Info} {F : Frame} (es : List Event) (e : Event)
    (hs : i.suspended = false) (hc : i.cmd = .over ∨ i.cmd = .overMy) (hF : i.stop = some F) (hi : i.ipy = false)
    (hne : ∀ e ∈ es, e.cur.frame ≠ F) (hnb : ∀ f o, Eff.suspend f true o ∉ (runEvents cfg cache i es).1)
    (hd : cfg.disposed = false) (he : e.cur.frame = F) (hev : e.ev = .line) (hh : hookRejects cfg F.code = false) :
    ∃ x o, Eff.suspend F x o ∈ (runEvents cfg cache i (es ++ [e])).1 := by
  induction es generalizing cache with
  | nil =>
    obtain ⟨x, o, h⟩ := c23_over_stops (cfg := cfg) (cache := cache) (i := i) (sl := e.stopLine) (cur := e.cur)
      (back := e.back) (ans := e.ans) hd hs hc (by rw [hF, he]) (by rw [he]; exact hh)
    rw [he] at h
    refine ⟨x, o, ?_⟩
    simp only [List.nil_append, runEvents, hev, List.append_nil]
    exact h
  | cons e' es ih =>
    simp only [runEvents, List.mem_append, not_or] at hnb
    have h1 := over_other_frames (cache := cache) hs hc hF hi (hne e' (by simp)) (fun f o => (hnb f o).1)
    rw [h1] at hnb
    obtain ⟨x, o, h⟩ := ih (cache := _) (fun e'' he'' => hne e'' (by simp [he''])) (fun f o => (hnb f o).2)
    refine ⟨x, o, ?_⟩
    simp only [List.cons_append, runEvents, List.mem_append]
    rw [h1]
    exact .inr h

/-- What each step starts from (`_do_wait_suspend`): step over and smart step into remember the frame, step into
forgets it, step return remembers the frame whose caller is the first one not filtered out. -/
theorem c23_start (cfg : Cfg) (i : Info) (cur : Entry) (back : Stack) :
    ((i.cmd = .over ∨ i.cmd = .overMy ∨ i.cmd = .smart) → (afterWait cfg false i cur back).stop = some cur.frame) ∧
    ((i.cmd = .into ∨ i.cmd = .intoMy) → cur.frame.code.coroutine = false →
      (afterWait cfg false i cur back).stop = none ∧ (afterWait cfg false i cur back).cmd = i.cmd ∧
      (afterWait cfg false i cur back).initialLoc = some (cur.frame, cur.line)) ∧
    (i.cmd = .ret → cfg.filtersOn = false → back ≠ [] → (afterWait cfg false i cur back).stop = some cur.frame) ∧
    ((i.cmd = .ret ∨ i.cmd = .retMy) → back = [] →
      (afterWait cfg false i cur back).cmd = .none ∧ (afterWait cfg false i cur back).stop = none) := by
  refine ⟨?_, ?_, ?_, ?_⟩
  · rintro (h | h | h) <;> simp [afterWait, h]
  · rintro (h | h) hc <;> simp [afterWait, h, hc]
  · intro h hf hb
    simp [afterWait, h, hf, hb]
  · rintro (h | h) rfl <;> simp [afterWait, h, skipFiltered]

/-- Step return with filters: the stop frame's caller is not filtered out and every frame in between is. -/
theorem c23_start_return_filtered (cfg : Cfg) (force : Bool) (cur : Entry) (back : Stack) (f : Frame)
    (h : skipFiltered cfg force cur back = some f) :
    ∃ pre e p rest, cur :: back = pre ++ e :: p :: rest ∧ e.frame = f ∧ cfg.filter p.frame.code force = false ∧
      ∀ x ∈ (pre ++ [e]).tail, cfg.filter x.frame.code force = true := by
  induction back generalizing cur with
  | nil => simp [skipFiltered] at h
  | cons b back ih =>
    rw [skipFiltered] at h
    split at h
    · rename_i hf
      obtain ⟨pre, e, p, rest, h1, h2, h3, h4⟩ := ih b h
      refine ⟨cur :: pre, e, p, rest, by rw [h1]; simp, h2, h3, ?_⟩
      intro x hx
      simp only [List.cons_append, List.tail_cons] at hx
      cases pre with
      | nil =>
        simp only [List.nil_append, List.mem_singleton] at hx
        simp only [List.nil_append, List.cons.injEq] at h1
        rw [hx, ← h1.1]; exact hf
      | cons y ys =>
        simp only [List.cons_append, List.cons.injEq] at h1
        simp only [List.cons_append, List.mem_cons] at hx
        rcases hx with hx | hx
        · rw [hx, ← h1.1]; exact hf
        · exact h4 x (by simpa using hx)
    · rename_i hf
      simp only [Option.some.injEq] at h
      exact ⟨[], cur, b, back, rfl, h, by simpa using hf, by simp⟩

/-! ### The hypotheses are met -/

def sampleCode : Code := { file := 1, name := c!"f", firstLine := 10, lines := [10, 11, 12] }
def sampleFrame : Frame := ⟨1, sampleCode⟩
def sampleInner : Frame := ⟨2, { sampleCode with name := c!"g", firstLine := 20, lines := [20, 21] }⟩
def sampleStep : Info := { cmd := .over, stop := some sampleFrame }

example : (runEvents {} {} sampleStep
    [ { cur := ⟨sampleInner, 20, 0⟩, back := [⟨sampleFrame, 11, 0⟩], ev := .call },
      { cur := ⟨sampleInner, 21, 0⟩, back := [⟨sampleFrame, 11, 0⟩], ev := .line },
      { cur := ⟨sampleInner, 21, 0⟩, back := [⟨sampleFrame, 11, 0⟩], ev := .ret },
      { cur := ⟨sampleFrame, 12, 0⟩, back := [], ev := .line } ]).1 = [.suspend sampleFrame false false] := by decide

/-- a configuration with one conditional logpoint -/
def sampleCfg : Cfg := { bps := fun f => if f = 1 then some [(11, { hasCondition := true, logpoint := true })] else none }

example : (dispatch sampleCfg {} {} none ⟨sampleFrame, 11, 0⟩ [] .line { cond := true }).effects =
    [.hit { hasCondition := true, logpoint := true }, .condition, .log] := by decide

end Dispatch
