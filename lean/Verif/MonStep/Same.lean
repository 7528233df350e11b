import Verif.MonStep.Lemmas
/-!
The debugger, which has most events switched off, does the same as one that gets every event.
-/

namespace MonStep

theorem inv_disable {cfg : Cfg} {st : St} {m : Mon} (inv : Inv cfg st m) (c : Code) (l : Loc)
    (h : match l with
      | .line _ => filtered cfg c = true ∨ (bpFound cfg c = false ∧ st.cmd = .none)
      | .start => c.skip = true ∨ (bpFound cfg c = false ∧ funcBpFound cfg c = false ∧ st.cmd = .none)
      | .ret => c.skip = true) : Inv cfg st (disable m c l) := by
  refine ⟨inv.breaks, inv.stepping, inv.susp, ?_, ?_, ?_, fun f hf => ⟨(inv.needs f hf).bp, (inv.needs f hf).into, (inv.needs f hf).over, (inv.needs f hf).ret⟩, inv.ids, inv.uniq, inv.stopLt, inv.known⟩
  · intro c' l' h'
    simp only [disable] at h'
    split at h'
    · rename_i e; obtain ⟨rfl, rfl⟩ := e; exact h
    · exact inv.dline c' l' h'
  · intro c' h'
    simp only [disable] at h'
    split at h'
    · rename_i e; obtain ⟨rfl, rfl⟩ := e; exact h
    · exact inv.dstart c' h'
  · intro c' h'
    simp only [disable] at h'
    split at h'
    · rename_i e; obtain ⟨rfl, rfl⟩ := e; exact h
    · exact inv.dret c' h'

/-- a handler that does nothing -/
def Idle (v : Verdict) : Prop := ∃ d, v = .go d

theorem idle_after {cfg : Cfg} {st : St} {v : Verdict} {r : Cmd} (h : Idle v) : after cfg st v r = st ∧ outs v = [] := by
  obtain ⟨d, rfl⟩ := h
  exact ⟨rfl, rfl⟩

/-! Events that are not reported would do nothing -/

theorem line_missed {cfg : Cfg} {st : St} {m : Mon} (inv : Inv cfg st m) {f : Frame} {rest : Stack} (hs : st.stack = f :: rest) (hit : Bool)
    (hm : (m.on && m.lineOn f.code && !m.disabled f.code (.line f.line)) = false) :
    Idle (lineVerdict cfg st f hit st.stack) ∧ lineOuts cfg f = [] := by
  have hn := inv.needs f (by simp [hs])
  have hk := inv.known f (by simp [hs])
  unfold lineVerdict lineOuts
  by_cases hf : (f.code.skip || filtered cfg f.code) = true
  · simp only [hf, if_true]
    exact ⟨⟨_, rfl⟩, by simp⟩
  · have hf' : (f.code.skip || filtered cfg f.code) = false := Bool.eq_false_iff.2 hf
    simp only [Bool.or_eq_false_iff] at hf'
    have key : m.on = true → m.lineOn f.code = true → bpFound cfg f.code = true ∨ st.cmd ≠ .none → False := by
      intro h1 h2 h3
      simp only [h1, h2, Bool.true_and, Bool.not_eq_false'] at hm
      rcases inv.dline _ _ hm with h | ⟨h, h'⟩
      · rw [hf'.2] at h; cases h
      · rcases h3 with h3 | h3
        · rw [h] at h3; cases h3
        · exact h3 h'
    have hnb : f.code.bps.contains f.line = false := by
      rw [Bool.eq_false_iff]
      intro hb
      have hne : f.code.bps ≠ [] := by intro h; rw [h] at hb; cases hb
      have hbf : bpFound cfg f.code = true := by
        simp [bpFound, hf'.2, hne]
      exact key (inv.breaks (hk (Or.inl hne))) (hn.bp hbf) (Or.inl hbf)
    have hninto : st.cmd.isInto = false := by
      rw [Bool.eq_false_iff]
      intro h
      have hc : st.cmd ≠ .none := by intro hc; rw [hc] at h; cases h
      exact key (inv.stepping hc) (hn.into h hf'.1).1 (Or.inr hc)
    have hns : st.suspended = false := by
      rw [Bool.eq_false_iff]
      intro h
      rw [inv.susp h] at hninto; cases hninto
    have hnover : st.cmd.isOver = true → same st f = false := by
      intro h
      rw [Bool.eq_false_iff]
      intro hsame
      have hc : st.cmd ≠ .none := by intro hc; rw [hc] at h; cases h
      exact key (inv.stepping hc) (hn.over h hf'.1 (by simpa [same] using hsame)).1 (Or.inr hc)
    simp only [hf'.1, hf'.2, hnb, hns, Bool.or_false, Bool.false_and, Bool.false_eq_true, if_false]
    refine ⟨?_, by simp⟩
    cases hc : st.cmd
    · exact ⟨_, rfl⟩
    · rw [hc] at hninto; cases hninto
    · rw [hc] at hninto; cases hninto
    · rw [hc] at hnover; simp [hnover rfl]; exact ⟨_, rfl⟩
    · rw [hc] at hnover; simp [hnover rfl]; exact ⟨_, rfl⟩
    · exact ⟨_, rfl⟩
    · exact ⟨_, rfl⟩

theorem ret_missed {cfg : Cfg} {st : St} {m : Mon} (inv : Inv cfg st m) {f : Frame} {back : Stack} (hs : st.stack = f :: back)
    (hm : (m.on && m.retOn f.code && !m.disabled f.code .ret) = false) : Idle (retVerdict cfg st f back) := by
  have hn := inv.needs f (by simp [hs])
  unfold retVerdict
  by_cases hf : f.code.skip = true
  · simp only [hf, if_true]
    exact ⟨_, rfl⟩
  · have hf' : f.code.skip = false := Bool.eq_false_iff.2 hf
    have key : st.cmd ≠ .none → m.retOn f.code = true → False := by
      intro h1 h2
      simp only [inv.stepping h1, h2, Bool.true_and, Bool.not_eq_false'] at hm
      have := inv.dret _ hm
      rw [hf'] at this; cases this
    simp only [hf', Bool.false_eq_true, if_false]
    cases hc : st.cmd
    · exact ⟨_, rfl⟩
    · exact (key (by simp [hc]) (hn.into (by simp [hc, Cmd.isInto]) hf').2).elim
    · exact (key (by simp [hc]) (hn.into (by simp [hc, Cmd.isInto]) hf').2).elim
    · by_cases hsame : same st f = true
      · exact (key (by simp [hc]) (hn.over (by simp [hc, Cmd.isOver]) hf' (by simpa [same] using hsame)).2).elim
      · simp only [hsame]; exact ⟨_, rfl⟩
    · by_cases hsame : same st f = true
      · exact (key (by simp [hc]) (hn.over (by simp [hc, Cmd.isOver]) hf' (by simpa [same] using hsame)).2).elim
      · simp only [hsame]; exact ⟨_, rfl⟩
    · by_cases hsame : same st f = true
      · exact (key (by simp [hc]) (hn.ret (by simp [hc, Cmd.isRet]) hf' (by simpa [same] using hsame))).elim
      · simp only [hsame]; exact ⟨_, rfl⟩
    · by_cases hsame : same st f = true
      · exact (key (by simp [hc]) (hn.ret (by simp [hc, Cmd.isRet]) hf' (by simpa [same] using hsame))).elim
      · simp only [hsame]; exact ⟨_, rfl⟩

theorem start_missed {cfg : Cfg} {st : St} {m : Mon} (inv : Inv cfg st m) (c : Code) (hit : Bool) (hk : c.bps ≠ [] ∨ c.funcBp = true → cfg.hasBreaks = true)
    (hm : (m.on && !m.disabled c .start) = false) (s : Stack) :
    Idle (startVerdict cfg (push st c) ⟨st.next, c, c.first⟩ hit s) ∧ startOuts cfg ⟨st.next, c, c.first⟩ = [] ∧ Needs cfg (push st c) m ⟨st.next, c, c.first⟩ := by
  by_cases hf : c.skip = true
  · refine ⟨?_, ?_, needs_skip hf⟩
    · simp only [startVerdict, hf, if_true]; exact ⟨_, rfl⟩
    · simp [startOuts, hf]
  · have hf' : c.skip = false := Bool.eq_false_iff.2 hf
    have key : m.on = true → bpFound cfg c = true ∨ funcBpFound cfg c = true ∨ st.cmd ≠ .none → False := by
      intro h1 h2
      simp only [h1, Bool.true_and, Bool.not_eq_false'] at hm
      rcases inv.dstart _ hm with h | ⟨h, h', h''⟩
      · rw [hf'] at h; cases h
      · rcases h2 with h2 | h2 | h2
        · rw [h] at h2; cases h2
        · rw [h'] at h2; cases h2
        · exact h2 h''
    have hb : bpFound cfg c = false := by
      rw [Bool.eq_false_iff]
      intro hb
      have : c.bps ≠ [] := by
        simp only [bpFound, Bool.and_eq_true, Bool.not_eq_true', List.isEmpty_eq_false_iff] at hb
        exact hb.2
      exact key (inv.breaks (hk (Or.inl this))) (Or.inl hb)
    have hfb : funcBpFound cfg c = false := by
      rw [Bool.eq_false_iff]
      intro hb
      have : c.funcBp = true := by
        simp only [funcBpFound, Bool.and_eq_true] at hb
        exact hb.2
      exact key (inv.breaks (hk (Or.inr this))) (Or.inr (Or.inl hb))
    have hc : st.cmd = .none := by
      by_cases hc : st.cmd = .none
      · exact hc
      · exact (key (inv.stepping hc) (Or.inr (Or.inr hc))).elim
    refine ⟨?_, ?_, ?_⟩
    · simp only [startVerdict, hf', hfb, Bool.false_eq_true, if_false]; exact ⟨_, rfl⟩
    · simp [startOuts, hfb]
    · refine ⟨fun h => ?_, fun h => ?_, fun h => ?_, fun h => ?_⟩
      · simp only at h; rw [hb] at h; cases h
      all_goals simp only [push] at h; rw [hc] at h; cases h

/-! Events that are reported -/

theorem stopOnReturn_cases (back : Stack) : (stopOnReturn back = .finish) ∨ stopOnReturn back = .go false ∨ stopOnReturn back = .retrace ∨
    ∃ b rest, back = b :: rest ∧ stopOnReturn back = .stop .step back := by
  unfold stopOnReturn
  split
  · exact Or.inl rfl
  · split
    · exact Or.inl rfl
    · split
      · exact Or.inr (Or.inl rfl)
      · split
        · exact Or.inr (Or.inr (Or.inl rfl))
        · exact Or.inr (Or.inr (Or.inr ⟨_, _, rfl, rfl⟩))

theorem inv_finish {cfg : Cfg} {st : St} {m : Mon} (inv : Inv cfg st m) (hon : m.on = true)
    (hd : st.cmd ≠ .none) : Inv cfg { st with cmd := .none, stop := none, suspended := false } m := by
  refine ⟨inv.breaks, fun _ => hon, by simp, ?_, ?_, inv.dret, ?_, inv.ids, inv.uniq, by simp, inv.known⟩
  · intro c l h
    rcases inv.dline c l h with h | h
    · exact Or.inl h
    · exact absurd h.2 hd
  · intro c h
    rcases inv.dstart c h with h | h
    · exact Or.inl h
    · exact absurd h.2.2 hd
  · intro f hf
    exact ⟨(inv.needs f hf).bp, by simp [Cmd.isInto], by simp [Cmd.isOver], by simp [Cmd.isRet]⟩

theorem ret_cases (cfg : Cfg) (st : St) (f : Frame) (back : Stack) :
    let v := retVerdict cfg st f back
    (∃ d, v = .go d ∧ (d = true → f.code.skip = true)) ∨ (v = .finish ∧ st.cmd ≠ .none) ∨ (v = .convert ∧ st.cmd.isOver = true) ∨ (v = .retrace) ∨
    (∃ b rest, back = b :: rest ∧ v = .stop .step back) := by
  have main : st.cmd ≠ .none → (∃ d, stopOnReturn back = .go d ∧ (d = true → f.code.skip = true)) ∨ (stopOnReturn back = .finish ∧ st.cmd ≠ .none) ∨
      (stopOnReturn back = .convert ∧ st.cmd.isOver = true) ∨ (stopOnReturn back = .retrace) ∨ (∃ b rest, back = b :: rest ∧ stopOnReturn back = .stop .step back) := by
    intro hc
    rcases stopOnReturn_cases back with h | h | h | h
    · exact Or.inr (Or.inl ⟨h, hc⟩)
    · exact Or.inl ⟨_, h, by simp⟩
    · exact Or.inr (Or.inr (Or.inr (Or.inl h)))
    · exact Or.inr (Or.inr (Or.inr (Or.inr h)))
  have go : ∀ d, (d = true → f.code.skip = true) → (∃ d', Verdict.go d = .go d' ∧ (d' = true → f.code.skip = true)) := fun d h => ⟨d, rfl, h⟩
  simp only
  unfold retVerdict
  split
  · rename_i h; exact Or.inl (go _ (fun _ => h))
  · cases hc : st.cmd
    · exact Or.inl (go _ (by simp))
    all_goals simp only [hc] at main
    case into | intoMy =>
      cases back with
      | nil => exact Or.inl (go _ (by simp))
      | cons b rest =>
        simp only
        split
        · exact main (by simp)
        · exact Or.inl (go _ (by simp))
    case ret | retMy =>
      simp only
      split
      · exact main (by simp)
      · exact Or.inl (go _ (by simp))
    all_goals
      simp only
      split
      · cases back with
        | nil => exact Or.inr (Or.inr (Or.inl ⟨rfl, rfl⟩))
        | cons b rest =>
          simp only
          split
          · exact main (by simp)
          · exact Or.inr (Or.inr (Or.inl ⟨rfl, rfl⟩))
      · exact Or.inl (go _ (by simp))

/-- a return that is reported keeps the invariant -/
theorem inv_ret {cfg : Cfg} {st : St} {m : Mon} (inv : Inv cfg st m) {f : Frame} {back : Stack} (hs : st.stack = f :: back) (hon : m.on = true) (reply : Cmd) :
    Inv cfg (pop (after cfg st (retVerdict cfg st f back) reply)) (monAfter cfg st f.code .ret (retVerdict cfg st f back) reply m) := by
  rcases ret_cases cfg st f back with ⟨d, h, hd⟩ | ⟨h, hc⟩ | ⟨h, ho⟩ | h | ⟨b, rest, hb, h⟩ <;> rw [h]
  · simp only [after, monAfter]
    apply inv_pop
    split
    · rename_i hdt; exact inv_disable inv _ _ (hd hdt)
    · exact inv
  · exact inv_pop (inv_finish inv hon hc)
  · -- the step over goes on as a step into
    simp only [after, monAfter]
    have htl : st.stack.tail = back := by simp [hs]
    rw [htl]
    have hle := le_all cfg { st with cmd := if st.cmd.isMy then .intoMy else .into, stop := none } back m
    have hc : st.cmd ≠ .none := by intro hc; rw [hc] at ho; cases ho
    have hall := needs_all cfg { st with cmd := if st.cmd.isMy then .intoMy else .into, stop := none } back m
    have hp := inv_pop inv
    refine ⟨?_, ?_, ?_, ?_, ?_, ?_, ?_, hp.ids, hp.uniq, by simp [pop], hp.known⟩
    · intro _; rw [hle.on]; exact hon
    · intro _; rw [hle.on]; exact hon
    · intro _; simp only [pop]; split <;> rfl
    · intro c l h; rw [hle.disabled] at h
      rcases inv.dline c l h with h | h
      · exact Or.inl h
      · exact absurd h.2 hc
    · intro c h; rw [hle.disabled] at h
      rcases inv.dstart c h with h | h
      · exact Or.inl h
      · exact absurd h.2.2 hc
    · intro c h; rw [hle.disabled] at h; exact inv.dret c h
    · intro g hg
      have hg' : g ∈ back := by simpa [pop, hs] using hg
      have := hall g hg'
      exact ⟨this.bp, this.into, this.over, this.ret⟩
  · simp only [after, monAfter]
    exact inv_pop (inv_le inv (le_all _ _ _ _))
  · simp only [after, monAfter]
    have := inv_stop inv (shown := back) (by simp [hb]) (by rw [hs]; exact List.suffix_cons _ _) (by simp [hon]) reply .step (by simp)
    have hst := (resume_stack cfg st back reply).1
    have e : pop (resume cfg st back reply).1 = { (resume cfg st back reply).1 with stack := back } := by
      simp only [pop, hst, hs, List.tail_cons]
    rw [e]
    exact this

theorem eta {s : St} {k : Stack} (h : s.stack = k) : s = { s with stack := k } := by
  subst h; rfl

theorem inv_stop_here {cfg : Cfg} {st : St} {m : Mon} (inv : Inv cfg st m) {f : Frame} {rest : Stack} (hs : st.stack = f :: rest)
    (hon : (m.on || cfg.single) = true) (reply : Cmd) (w : Why) (hw : w = .pause → st.suspended = true) (c : Code) (l : Loc) :
    Inv cfg (after cfg st (.stop w st.stack) reply) (monAfter cfg st c l (.stop w st.stack) reply m) := by
  simp only [after, monAfter]
  have := inv_stop inv (shown := st.stack) (by simp [hs]) (List.suffix_refl _) hon reply w hw
  have hst := (resume_stack cfg st st.stack reply).1
  have e : (resume cfg st st.stack reply).1 = { (resume cfg st st.stack reply).1 with stack := st.stack } :=
    eta hst
  rw [← e] at this
  exact this

theorem line_cases (cfg : Cfg) (st : St) (f : Frame) (hit : Bool) (s : Stack) :
    (∃ d, lineVerdict cfg st f hit s = .go d ∧ (d = true → filtered cfg f.code = true ∨ (bpFound cfg f.code = false ∧ st.cmd = .none))) ∨
    ∃ w, lineVerdict cfg st f hit s = .stop w s ∧ (w = .pause → st.suspended = true) := by
  unfold lineVerdict
  split
  · rename_i h
    refine Or.inl ⟨_, rfl, fun _ => Or.inl ?_⟩
    rcases Bool.or_eq_true_iff.1 h with h | h
    · simp [filtered, h]
    · exact h
  · split
    · exact Or.inr ⟨_, rfl, by simp_all⟩
    · split
      · exact Or.inr ⟨_, rfl, by simp_all⟩
      · cases hc : st.cmd
        · exact Or.inl ⟨_, rfl, fun h => Or.inr ⟨by simpa using h, rfl⟩⟩
        · exact Or.inr ⟨_, rfl, by simp_all⟩
        · simp only
          split
          · exact Or.inl ⟨_, rfl, by simp⟩
          · exact Or.inr ⟨_, rfl, by simp_all⟩
        · simp only
          split
          · exact Or.inr ⟨_, rfl, by simp_all⟩
          · exact Or.inl ⟨_, rfl, by simp⟩
        · simp only
          split
          · exact Or.inr ⟨_, rfl, by simp_all⟩
          · exact Or.inl ⟨_, rfl, by simp⟩
        · exact Or.inl ⟨_, rfl, by simp⟩
        · exact Or.inl ⟨_, rfl, by simp⟩

theorem start_cases (cfg : Cfg) (st : St) (f : Frame) (hit : Bool) (s : Stack) :
    (∃ d, startVerdict cfg st f hit s = .go d ∧ (d = true → f.code.skip = true ∨ (bpFound cfg f.code = false ∧ funcBpFound cfg f.code = false ∧ st.cmd = .none))) ∨
    ∃ w, startVerdict cfg st f hit s = .stop w s ∧ (w = .pause → st.suspended = true) := by
  unfold startVerdict
  split
  · rename_i h; exact Or.inl ⟨_, rfl, fun _ => Or.inl h⟩
  · split
    · split
      · exact Or.inr ⟨_, rfl, by simp_all⟩
      · exact Or.inl ⟨_, rfl, by simp⟩
    · rename_i h1 h2
      refine Or.inl ⟨_, rfl, fun h => Or.inr ?_⟩
      simp only [Bool.not_eq_true', Bool.or_eq_false_iff, bne_eq_false_iff_eq] at h
      exact ⟨h.1, by simpa using h2, h.2⟩

/-- one event: the two machines do the same, and the invariant is kept -/
theorem step_same {cfg : Cfg} {st : St} {m : Mon} (inv : Inv cfg st m) (e : Event) (hf : Fine cfg st e) :
    (optStep cfg st m e).1 = (allStep cfg st e).1 ∧ (optStep cfg st m e).2.2 = (allStep cfg st e).2 ∧
    Inv cfg (optStep cfg st m e).1 (optStep cfg st m e).2.1 := by
  obtain ⟨ev, reply⟩ := e
  cases ev with
  | call c hit =>
    simp only [Fine] at hf
    simp only [optStep, allStep, push]
    by_cases hm : (m.on && !m.disabled c .start) = true
    · simp only [hm, if_true]
      refine ⟨by trivial, by trivial, ?_⟩
      have hon : m.on = true := by simp only [Bool.and_eq_true] at hm; exact hm.1
      have inv' : Inv cfg (push st c) (if c.skip then m else codeTracing cfg (push st c) ⟨st.next, c, c.first⟩ st.stack m) := by
        split
        · rename_i hk; exact inv_push inv c hf (needs_skip hk)
        · exact inv_push (inv_le inv (le_code _ _ _ _ _)) c hf (needs_code _ _ _ _ _)
      have hon' : (if c.skip then m else codeTracing cfg (push st c) ⟨st.next, c, c.first⟩ st.stack m).on = true := by
        split
        · exact hon
        · rw [(le_code _ _ _ _ _).on]; exact hon
      rcases start_cases cfg (push st c) ⟨st.next, c, c.first⟩ hit (push st c).stack with ⟨d, h, hd⟩ | ⟨w, h, hw⟩
      · simp only [push] at h inv' ⊢
        rw [h]
        simp only [after, monAfter]
        split
        · rename_i hdt; exact inv_disable inv' _ _ (hd hdt)
        · exact inv'
      · have := inv_stop_here inv' (f := ⟨st.next, c, c.first⟩) (rest := st.stack) rfl (by simp [hon']) reply w hw c .start
        simp only [push] at h this ⊢
        rw [h]
        exact this
    · have hm' := Bool.eq_false_iff.2 hm
      obtain ⟨h1, h2, h3⟩ := start_missed inv c hit hf hm' (push st c).stack
      simp only [hm', Bool.false_eq_true, if_false]
      have ha := idle_after (cfg := cfg) (st := push st c) (r := reply) h1
      simp only [push] at ha h2 h1
      refine ⟨ha.1.symm, ?_, inv_push inv c hf h3⟩
      rw [h2, ha.2]; rfl
  | line l hit =>
    have inv' := inv_setLine inv l
    simp only [optStep, allStep]
    cases hs : (setLine st l).stack with
    | nil => exact ⟨rfl, rfl, inv'⟩
    | cons f rest =>
      have hl : f.line = l := by
        unfold setLine at hs
        split at hs
        · rename_i h; rw [h] at hs; cases hs
        · simp only [List.cons.injEq] at hs; rw [← hs.1]
      simp only
      by_cases hm : (m.on && m.lineOn f.code && !m.disabled f.code (.line l)) = true
      · simp only [hm, if_true]
        refine ⟨by trivial, by trivial, ?_⟩
        have hon : m.on = true := by simp only [Bool.and_eq_true] at hm; exact hm.1.1
        rcases line_cases cfg (setLine st l) f hit (f :: rest) with ⟨d, h, hd⟩ | ⟨w, h, hw⟩
        · rw [h]
          simp only [after, monAfter]
          split
          · rename_i hdt; exact inv_disable inv' _ _ (hd hdt)
          · exact inv'
        · rw [h]
          have := inv_stop_here inv' hs (by simp [hon]) reply w hw f.code (.line l)
          rw [hs] at this
          exact this
      · have hm' := Bool.eq_false_iff.2 hm
        rw [← hl] at hm'
        obtain ⟨h1, h2⟩ := line_missed inv' hs hit hm'
        rw [hl] at hm'
        simp only [hm', Bool.false_eq_true, if_false]
        rw [hs] at h1
        have ha := idle_after (cfg := cfg) (st := setLine st l) (r := reply) h1
        refine ⟨ha.1.symm, ?_, inv'⟩
        rw [h2, ha.2]; rfl
  | ret =>
    simp only [optStep, allStep]
    cases hs : st.stack with
    | nil => exact ⟨rfl, rfl, inv⟩
    | cons f back =>
      simp only
      by_cases hm : (m.on && m.retOn f.code && !m.disabled f.code .ret) = true
      · simp only [hm, if_true]
        refine ⟨trivial, trivial, inv_ret inv hs ?_ reply⟩
        simp only [Bool.and_eq_true] at hm; exact hm.1.1
      · have hm' := Bool.eq_false_iff.2 hm
        have h1 := ret_missed inv hs hm'
        simp only [hm', Bool.false_eq_true, if_false]
        have ha := idle_after (cfg := cfg) (st := st) (r := reply) h1
        exact ⟨by rw [ha.1], ha.2.symm, inv_pop inv⟩
  | unwind => exact ⟨rfl, rfl, inv_pop inv⟩
  | raise stops =>
    simp only [optStep, allStep]
    cases hs : st.stack with
    | nil => exact ⟨rfl, rfl, inv⟩
    | cons f rest =>
      simp only
      split
      · rename_i h
        refine ⟨by trivial, by trivial, ?_⟩
        simp only [Bool.and_eq_true] at h
        have hon : (m.on || cfg.single) = true := by
          rcases hf h.1 with h' | h'
          · simp [inv.breaks h']
          · simp [h']
        have := inv_stop_here inv hs hon reply .exception (by simp) f.code .start
        rw [hs] at this
        exact inv_le this (le_all _ _ _ _)
      · exact ⟨rfl, rfl, inv⟩
  | pause =>
    simp only [optStep, allStep, Fine] at hf ⊢
    refine ⟨trivial, trivial, ?_⟩
    have hle := le_all cfg (paused st) (paused st).stack { m with on := true }
    have hall := needs_all cfg (paused st) (paused st).stack { m with on := true }
    have hinto : (paused st).cmd.isInto = true := by
      simp only [paused]
      split
      · rfl
      · rename_i hc
        cases h : st.cmd <;> simp_all [Cmd.isInto, Cmd.isOver, Cmd.isRet]
    refine ⟨?_, ?_, fun _ => hinto, by simp [restart], by simp [restart], by simp [restart], ?_, inv.ids, inv.uniq, ?_, inv.known⟩
    · intro _; simp only [restart]; rw [hle.on]
    · intro _; simp only [restart]; rw [hle.on]
    · intro f h
      have := hall f h
      exact ⟨this.bp, this.into, this.over, this.ret⟩
    · intro i hi
      simp only [paused] at hi
      split at hi
      · cases hi
      · exact inv.stopLt i hi

theorem run_same {cfg : Cfg} (es : List Event) {st : St} {m : Mon} (inv : Inv cfg st m) (h : AllFine cfg st es) :
    (optRun cfg st m es).1 = (allRun cfg st es).1 ∧ (optRun cfg st m es).2.2 = (allRun cfg st es).2 ∧
    Inv cfg (optRun cfg st m es).1 (optRun cfg st m es).2.1 := by
  induction es generalizing st m with
  | nil => exact ⟨rfl, rfl, inv⟩
  | cons e es ih =>
    obtain ⟨h1, h2, h3⟩ := step_same inv e h.1
    have := ih h3 (by rw [h1]; exact h.2)
    simp only [optRun, allRun]
    rw [h1] at this ⊢
    exact ⟨this.1, by rw [h2, this.2.1], this.2.2⟩

end MonStep
