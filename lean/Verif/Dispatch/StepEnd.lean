import Verif.Dispatch.Step
/-! Property C23: the state a thread is left in by a stop, the end of a step in the outermost frame, and the notice that a step into was
skipped because of the filters. -/

namespace Dispatch

theorem act_state {cfg : Cfg} {i : Info} {cmd : Cmd} {kind : Kind} {cur : Entry} {back : Stack} {dec : StepDec}
    {w : List Write} {effs : List Eff} (hs : i.suspended = false) (he : ∀ f b o, Eff.suspend f b o ∉ effs) :
    (act cfg i cmd kind cur back dec w effs).info.suspended = true ↔
      ∃ f b o, Eff.suspend f b o ∈ (act cfg i cmd kind cur back dec w effs).effects := by
  have hm : ∀ i : Info, (markSuspended i).suspended = true := by intro i; rfl
  unfold act
  simp only
  repeat' split
  all_goals simp [he, hs, hm]

theorem decide_state {cfg : Cfg} {cls : Cls} {cmd : Cmd} {stop : Option Frame} {sl : Option Nat} {cur : Entry}
    {back : Stack} {ans : Answers} {w : List Write} (hs : cls.info.suspended = false) :
    (decide' cfg cls cmd stop sl cur back ans w).info.suspended = true ↔
      ∃ f b o, Eff.suspend f b o ∈ (decide' cfg cls cmd stop sl cur back ans w).effects := by
  have hm : ∀ i : Info, (markSuspended i).suspended = true := by intro i; rfl
  unfold decide'
  simp only [hs, Bool.false_eq_true, if_false]
  split
  · rename_i bp hbp
    have hno : ∀ f b o, Eff.suspend f b o ∉ bpEffects bp ++ logEffects bp ans ++
        (if showsReturn cfg cls stop cur back = true then [Eff.showReturn] else []) := by
      intro f b o
      simp only [List.mem_append, not_or]
      exact ⟨⟨not_suspend_bpEffects _ _ _ _, not_suspend_logEffects _ _ _ _ _⟩, not_suspend_sr _ _ _ _⟩
    split
    · simp [hs, not_suspend_bpEffects]
    · split
      · exact ⟨fun _ => ⟨cur.frame, true, bp.all, by simp⟩, fun _ => hm _⟩
      · exact act_state hs hno
  · exact act_state hs (fun f b o => not_suspend_sr _ _ _ _)

/-- A running thread is marked suspended by an event exactly if the event stops it. -/
theorem c23_suspends_iff {cfg : Cfg} {cache : Cache} {i : Info} {sl : Option Nat} {cur : Entry} {back : Stack}
    {ev : Ev} {ans : Answers} (hs : i.suspended = false) :
    (dispatch cfg cache i sl cur back ev ans).info.suspended = true ↔
      ∃ f b o, Eff.suspend f b o ∈ (dispatch cfg cache i sl cur back ev ans).effects := by
  unfold dispatch
  split
  · simp [hs]
  · split
    · rename_i o ho
      have h1 := (classify_inl_effects ho).2.1
      have h2 : o.info.suspended = i.suspended := by
        unfold classify at ho
        repeat' split at ho
        all_goals first
          | (simp only [Sum.inl.injEq] at ho; subst ho; first | rfl | exact returnInfo_suspended _ _)
          | cases ho
      simp [h1, h2, hs]
    · rename_i cls hc
      have hcs : cls.info.suspended = false := by rw [(classify_spec hc).2.1, hs]
      split
      · exact decide_state hcs
      · split
        · simp [hcs]
        · exact decide_state hcs

/-- A step return whose frame is the outermost one ends when that frame returns: nothing stops and no step is left. -/
theorem c23_return_outermost {cfg : Cfg} {cache : Cache} {i : Info} {sl : Option Nat} {cur : Entry} {ans : Answers}
    (hd : cfg.disposed = false) (hs : i.suspended = false) (hi : i.ipy = false) (hc : i.cmd = .ret ∨ i.cmd = .retMy)
    (hF : i.stop = some cur.frame) (hg : cur.frame.code.gen = false) (hu : ans.userExc ≠ some true)
    (hh : hookRejects cfg cur.frame.code = false) :
    let o := dispatch cfg cache i sl cur [] .ret ans
    (∀ f b p, Eff.suspend f b p ∉ o.effects) ∧ o.info.cmd = .none ∧ o.info.stop = none ∧ o.info.orig = .none ∧ o.info.suspended = false := by
  intro o
  have hcl : classify cfg i cur [] .ret ans = .inr { kind := .ret, info := returnInfo i cur.frame } := by
    simp [classify, hg, hu]
  have hcan : canSkip cfg (returnInfo i cur.frame) i.cmd i.stop cur [] = false := by
    unfold canSkip
    rw [returnInfo_suspended, hs, hF, returnInfo_ipy, hi]
    rcases hc with hc | hc <;> simp [hc, isSame, topFrame]
  have hdec : stepDecision cfg (returnInfo i cur.frame) i.cmd i.stop sl .ret cur [] = .stop true := by
    unfold stepDecision
    rw [hh, hF, returnInfo_ipy, hi]
    rcases hc with hc | hc <;> simp [hc, isSame, topFrame]
  have hgo : ∃ w, skipPhase cfg cache cur.frame.code cur.line false none = (.go, w) := by
    unfold skipPhase
    simp only [Option.isSome_none, Bool.false_eq_true, if_false, Bool.false_and]
    repeat' split
    all_goals exact ⟨_, rfl⟩
  obtain ⟨w, hw⟩ := hgo
  have ho : o = decide' cfg { kind := .ret, info := returnInfo i cur.frame } i.cmd i.stop sl cur [] ans w := by
    simp only [o]
    unfold dispatch
    rw [hd, hcl]
    simp only [Bool.false_eq_true, if_false, reduceCtorEq, hcan, hw]
  rw [ho]
  unfold decide'
  have hn : theBp cfg { kind := .ret, info := returnInfo i cur.frame } cur = none := by simp [theBp]
  have hne : i.cmd ≠ .none := by rcases hc with hc | hc <;> simp [hc]
  simp only [hn, returnInfo_suspended, hs, hdec, Bool.false_eq_true, if_false, reduceCtorEq, act, pydevGate, hne, ne_eq, not_false_eq_true,
    decide_true, Bool.and_self, if_true, Bool.not_true, and_self, and_true]
  intro f b p
  rw [List.mem_append, not_or]
  exact ⟨not_suspend_sr _ _ _ _, by simp⟩

theorem act_notice (cfg : Cfg) (i : Info) (cmd : Cmd) (kind : Kind) (cur : Entry) (back : Stack) (dec : StepDec)
    (w : List Write) (effs : List Eff) (h : Eff.notifySkipped ∉ effs) :
    Eff.notifySkipped ∉ (act cfg i cmd kind cur back dec w effs).effects := by
  unfold act
  simp only
  repeat' split
  all_goals simp [h]

theorem dispatch_notice (cfg : Cfg) (cache : Cache) (i : Info) (sl : Option Nat) (cur : Entry) (back : Stack)
    (ev : Ev) (ans : Answers) : Eff.notifySkipped ∉ (dispatch cfg cache i sl cur back ev ans).effects := by
  have hsr : ∀ c : Bool, Eff.notifySkipped ∉ (if c = true then [Eff.showReturn] else []) := by intro c; split <;> simp
  have hb : ∀ b, Eff.notifySkipped ∉ bpEffects b := by
    intro b; unfold bpEffects; cases b.hasExpression <;> cases b.hasCondition <;> simp
  have hl : ∀ b, Eff.notifySkipped ∉ logEffects b ans := by intro b; unfold logEffects; split <;> simp
  have hdec : ∀ cls w, Eff.notifySkipped ∉ (decide' cfg cls i.cmd i.stop sl cur back ans w).effects := by
    intro cls w
    unfold decide'
    simp only
    repeat' split
    all_goals first
      | (apply act_notice; simp [hsr, hb, hl]; done)
      | simp [hb, hl]
  unfold dispatch
  split
  · simp
  · split
    · rename_i o ho
      unfold classify at ho
      repeat' split at ho
      all_goals first
        | (simp only [Sum.inl.injEq] at ho; subst ho; first | simp | (split <;> simp))
        | cases ho
    · split
      · exact hdec _ _
      · split
        · simp
        · exact hdec _ _

theorem threadCall_notice {cfg : Cfg} {cache : Cache} {i : Info} {sl : Option Nat} {cur : Entry} {back : Stack}
    {ev : Ev} {ans : Answers} (hd : cfg.disposed = false) :
    Eff.notifySkipped ∈ (threadCall cfg cache i sl cur back ev ans).effects ↔ Eff.notifySkipped ∈ notices cfg cache i cur := by
  unfold threadCall
  rw [hd]
  simp only [Bool.false_eq_true, if_false]
  repeat' split
  all_goals first
    | rfl
    | (rw [List.mem_append]; exact or_iff_left (dispatch_notice _ _ _ _ _ _ _ _))

/-- The client is told that a step into was skipped because of the filters exactly if a step runs that was asked for as a step into, it was not
told so before, and the function is one that the filters exclude: remembered as excluded, or excluded now (and not a file of the debugger or of
a library out of scope, which are passed over silently the first time). -/
theorem c23_skip_notice {cfg : Cfg} {cache : Cache} {i : Info} {sl : Option Nat} {cur : Entry} {back : Stack}
    {ev : Ev} {ans : Answers} (hd : cfg.disposed = false) :
    Eff.notifySkipped ∈ (threadCall cfg cache i sl cur back ev ans).effects ↔
      i.cmd ≠ .none ∧ (i.orig = .into ∨ i.orig = .intoMy) ∧ cfg.noticed = false ∧
        (cache.skips cur.frame.code.key = some 1 ∨
          (cfg.filtersOn = true ∧ cfg.filter cur.frame.code false = true ∧ cfg.fileType cur.frame.code ≠ some .pydev ∧
            (cfg.fileType cur.frame.code = some .lib → cfg.inScope cur.frame.code = true))) := by
  have hn : Eff.notifySkipped ∈ notify i ↔ (i.orig = .into ∨ i.orig = .intoMy) := by
    unfold notify; split <;> simp_all
  rw [threadCall_notice hd]
  unfold notices
  by_cases h0 : i.cmd = .none
  · simp [h0]
  · cases h1 : cfg.noticed with
    | true => simp
    | false =>
      by_cases h2 : cache.skips cur.frame.code.key = some 1
      · simp [h0, h2, hn]
      · cases h3 : cfg.fileType cur.frame.code with
        | none => cases cfg.filtersOn <;> cases cfg.filter cur.frame.code false <;> simp [h0, h2, hn]
        | some ft => cases ft <;> cases cfg.filtersOn <;> cases cfg.filter cur.frame.code false <;> cases cfg.inScope cur.frame.code <;> simp [h0, h2, hn]

/-- Concrete: a step into reaches a library function; the notice is given, although the caller is not filtered and the function goes on being
traced so that the step can stop at its return. -/
theorem c23_skip_notice_example :
    let lib : Frame := ⟨2, { file := 2, name := c!"lib", firstLine := 1, lines := [1] }⟩
    let main : Frame := ⟨1, { file := 1, name := c!"main", firstLine := 10, lines := [11] }⟩
    let o := threadCall { filtersOn := true, filter := fun c _ => c.file == 2 } {} { cmd := .into, orig := .into } none ⟨lib, 1, 0⟩ [⟨main, 1, 0⟩] .call {}
    o.effects = [.notifySkipped] ∧ o.ret = .trace := by
  decide

/-- A file of the debugger is passed over silently the first time, but the second time the client is told that a step into was skipped. -/
theorem c23_skip_notice_pydev_witness :
    let pd : Frame := ⟨2, { file := 2, name := c!"pd", firstLine := 1, lines := [1] }⟩
    let cfg : Cfg := { fileType := fun c => if c.file = 2 then some .pydev else none }
    let i : Info := { cmd := .into, orig := .into }
    let o := threadCall cfg {} i none ⟨pd, 1, 0⟩ [] .call {}
    o.effects = [] ∧ o.writes = [.skip pd.code.key 1] ∧
      (threadCall cfg { skips := fun k => if k = pd.code.key then some 1 else none } i none ⟨pd, 1, 0⟩ [] .call {}).effects = [.notifySkipped] := by
  decide

end Dispatch
