import Verif.ReturnValues.Model
import Verif.MonStep.Same
import Verif.MonStep.Steps
import Verif.MonStep.Props
/-!
C93: which return values a step shows.
-/

namespace ReturnValues

/-! ### What is recorded -/

/-- C93: for each frame and each function name, what the client is shown is the value of the last call recorded for them. -/
theorem c93_recorded {V : Type} (rs : List (Recorded V)) (f : Nat) (n : List Char) :
    Py.Dict.get (recordAll rs f) n = ((rs.filter fun r => decide (r.caller = f ∧ r.name = n)).getLast?).map (·.value) := by
  suffices h : ∀ (rs : List (Recorded V)) (s : Store V), Py.Dict.get (rs.foldl record s f) n =
      (((rs.filter fun r => decide (r.caller = f ∧ r.name = n)).getLast?).map (·.value)).or (Py.Dict.get (s f) n) by
    have := h rs (fun _ => [])
    rw [recordAll, this]
    simp [Py.Dict.get]
  intro rs
  induction rs with
  | nil => intro s; simp
  | cons r rs ih =>
    intro s
    rw [List.foldl_cons, ih]
    by_cases hc : r.caller = f ∧ r.name = n
    · rw [List.filter_cons_of_pos (by simpa using hc), List.getLast?_cons]
      obtain ⟨h1, h2⟩ := hc
      simp only [record, h1, if_true, Py.Dict.get_set, h2]
      cases (rs.filter fun r => decide (r.caller = f ∧ r.name = n)).getLast? <;> simp
    · rw [List.filter_cons_of_neg (by simpa using hc)]
      congr 1
      simp only [record]
      split
      · rename_i h
        rw [Py.Dict.get_set, if_neg (fun e => hc ⟨h.symm, e.symm⟩)]
      · rfl

/-! ### Tracing -/

section
open Dispatch

/-- Of which returns the value is shown: those of calls made by the frame `F` that is stepped over or into a chosen call of, and of that
frame itself (for the commands that keep to the user's code, if its caller is the user's code); for a step return, of that frame only;
for a step into, of everything (of what returns to the user's code). -/
def Shows (cfg : Dispatch.Cfg) (cmd : Dispatch.Cmd) (stop : Option Dispatch.Frame) (cur : Dispatch.Entry) (p : Dispatch.Entry) : Prop :=
  match cmd with
  | .over | .smart => stop = some p.frame ∨ stop = some cur.frame
  | .overMy => stop = some p.frame ∨ (stop = some cur.frame ∧ cfg.filter p.frame.code true = false)
  | .ret => stop = some cur.frame
  | .retMy => stop = some cur.frame ∧ cfg.filter p.frame.code true = false
  | .into => True
  | .intoMy => cfg.filter p.frame.code true = false
  | _ => False

theorem act_shows (cfg : Dispatch.Cfg) (i : Info) (cmd : Dispatch.Cmd) (kind : Kind) (cur : Entry) (back : Dispatch.Stack) (dec : StepDec)
    (w : List Write) (effs : List Eff) : Eff.showReturn ∈ (act cfg i cmd kind cur back dec w effs).effects ↔ Eff.showReturn ∈ effs := by
  unfold act
  cases dec with
  | off => rfl
  | stop b =>
    simp only
    split
    · rfl
    · split
      · simp
      · split
        · split
          · simp
          · split
            · simp
            · split
              · rfl
              · split <;> simp
        · rfl

theorem decide_shows {cfg : Dispatch.Cfg} {i : Info} {cmd : Dispatch.Cmd} {stop : Option Dispatch.Frame} {sl : Option Nat} {cur : Entry}
    {back : Dispatch.Stack} {ans : Answers} {w : List Write} :
    Eff.showReturn ∈ (decide' cfg { kind := .ret, info := i } cmd stop sl cur back ans w).effects ↔
      showsReturn cfg { kind := .ret, info := i } stop cur back = true := by
  unfold decide'
  simp only [theBp, reduceCtorEq, decide_false, Bool.false_and, Bool.false_eq_true, if_false]
  split
  · split <;> rename_i h <;> simp [h]
  · rw [act_shows]
    split <;> rename_i h <;> simp [h]

/-- C93: the value of a function that returns during a step is recorded exactly if the command says so, whatever else the debugger knows
of the function (breakpoints in its file, what it has cached). -/
theorem c93_trace {cfg : Dispatch.Cfg} {cache : Cache} {i : Info} {sl : Option Nat} {cur p : Entry} {rest : Dispatch.Stack}
    {ans : Answers} (hd : cfg.disposed = false) (hs : i.suspended = false) (hi : i.ipy = false) (hg : cur.frame.code.gen = false)
    (hu : ans.userExc ≠ some true) (hc : i.cmd ≠ .coroutine) (hself : cur.frame ≠ p.frame) :
    Eff.showReturn ∈ (dispatch cfg cache i sl cur (p :: rest) .ret ans).effects ↔
      cfg.showReturn = true ∧ Shows cfg i.cmd i.stop cur p := by
  unfold dispatch
  rw [hd]
  simp only [Bool.false_eq_true, if_false, classify, hg, if_neg hu, reduceCtorEq]
  -- the return is skipped only if its value is not shown
  have key : ∀ can r w, skipPhase cfg cache cur.frame.code cur.line can none = (.stop r, w) → can = true := by
    intro can r w h
    cases can with
    | true => rfl
    | false =>
      unfold skipPhase at h
      simp only [Option.isSome_none, Bool.false_eq_true, if_false, Bool.false_and] at h
      split at h
      · cases h
      · cases h
      · split at h <;> cases h
  have hsr : ∀ (b : Bool), (b = canSkip cfg (returnInfo i cur.frame) i.cmd i.stop cur (p :: rest)) →
      (b = true → ¬ (cfg.showReturn = true ∧ Shows cfg i.cmd i.stop cur p)) ∧
      (showsReturn cfg { kind := .ret, info := returnInfo i cur.frame } i.stop cur (p :: rest) = true ↔
        cfg.showReturn = true ∧ Shows cfg i.cmd i.stop cur p) := by
    intro b hb
    have hri : returnInfo i cur.frame = (if i.stop = some cur.frame ∧
        (i.cmd = .over ∨ i.cmd = .ret ∨ i.cmd = .overMy ∨ i.cmd = .retMy ∨ i.cmd = .smart) then
          { i with cmd := if i.cmd = .over ∨ i.cmd = .ret ∨ i.cmd = .smart then .into else .intoMy, stop := none } else i) := by
      unfold returnInfo
      simp only [hi, true_and]
      split
      · split <;> rfl
      · rfl
    subst hb
    have hsame : ∀ stk, isSame false i.stop stk = decide (i.stop = topFrame stk) := by
      intro stk; unfold isSame; split <;> simp_all
    by_cases h1 : i.stop = some cur.frame <;> by_cases h2 : i.stop = some p.frame <;> cases hcmd : i.cmd <;>
      simp_all [canSkip, showsReturn, Shows, topFrame]
  split
  · rename_i r w h
    have := key _ _ _ h
    obtain ⟨h1, _⟩ := hsr _ rfl
    simp only [List.not_mem_nil, false_iff]
    exact h1 this
  · rename_i w h
    rw [decide_shows]
    exact (hsr _ rfl).2

/-- C93: during a step over with the option on, the debugger goes on tracing each function the stepped frame calls, so that its return is
seen: the call of such a function never switches its tracing off. -/
theorem c93_callee_traced {cfg : Dispatch.Cfg} {cache : Cache} {i : Info} {sl : Option Nat} {cur p : Entry} {rest : Dispatch.Stack}
    {ans : Answers} (hd : cfg.disposed = false) (hq : cfg.quitting = false) (hs : i.suspended = false) (hg : cur.frame.code.gen = false)
    (hc : i.cmd = .over ∨ i.cmd = .overMy) (hstop : i.stop = some p.frame) (hshow : cfg.showReturn = true) :
    (dispatch cfg cache i sl cur (p :: rest) .call ans).ret = .trace := by
  unfold dispatch
  rw [hd]
  simp only [Bool.false_eq_true, if_false, classify, hg, reduceCtorEq]
  have hsame : isSame i.ipy i.stop (p :: rest) = true := by simp [isSame, hstop, topFrame]
  have hcan : canSkip cfg i i.cmd i.stop cur (p :: rest) = false := by
    unfold canSkip
    rcases hc with hc | hc <;> simp [hs, hc, hshow, hsame]
  rw [hcan]
  have hgo : ∀ (fb : Option Bp), ∃ w, skipPhase cfg cache cur.frame.code cur.line false fb = (.go, w) := by
    intro fb
    unfold skipPhase
    cases fb with
    | some b => exact ⟨[], by simp⟩
    | none =>
      simp only [Option.isSome_none, Bool.false_eq_true, if_false, Bool.false_and]
      split
      · exact ⟨_, rfl⟩
      · exact ⟨_, rfl⟩
      · split <;> exact ⟨_, rfl⟩
  generalize (if cur.frame.code.firstLine = cur.line then cfg.funcBps cur.frame.code.name else none) = fb
  obtain ⟨w, hw⟩ := hgo fb
  rw [hw]
  simp only
  have hact : ∀ (b : Bool) w' effs, (act cfg i i.cmd .call cur (p :: rest) (.stop b) w' effs).ret = .trace := by
    intro b w' effs
    unfold act
    simp only [hq, Bool.false_eq_true, if_false, reduceCtorEq]
    split <;> rfl
  have hdec : ∃ b, stepDecision cfg i i.cmd i.stop sl .call cur (p :: rest) = .stop b := by
    unfold stepDecision
    split
    · exact ⟨_, rfl⟩
    · rcases hc with hc | hc <;> rw [hc] <;> exact ⟨_, rfl⟩
  obtain ⟨b, hb⟩ := hdec
  unfold decide'
  simp only [hs, hb]
  split
  · split
    · rfl
    · split
      · rfl
      · simp only [Bool.false_eq_true, if_false]; exact hact _ _ _
  · simp only [Bool.false_eq_true, if_false]; exact hact _ _ _

def fn (i : Nat) (n : List Char) : Dispatch.Frame := ⟨i, ⟨1, n, 10 * i, [10 * i + 1], false, false, [], i⟩⟩

/-- `helper` returns to `main`, which is stepped over: its value is shown, those of the functions it has called were not -/
theorem c93_trace_example :
    Eff.showReturn ∈ (dispatch { showReturn := true } { } { cmd := .over, stop := some (fn 1 c!"main") } none ⟨fn 2 c!"helper", 21, 0⟩ [⟨fn 1 c!"main", 11, 0⟩] .ret {}).effects ∧
    Eff.showReturn ∉ (dispatch { showReturn := true } { } { cmd := .over, stop := some (fn 1 c!"main") } none ⟨fn 3 c!"other", 31, 0⟩
      [⟨fn 2 c!"helper", 21, 0⟩, ⟨fn 1 c!"main", 11, 0⟩] .ret {}).effects := by
  decide

end

/-! ### `sys.monitoring` -/

section
open MonStep

/-- while stepping over with the option on, returns of the functions the frame has called are reported -/
def Direct (cfg : Cfg) (st : St) (m : Mon) : Prop :=
  cfg.showRet = true → st.cmd.isOver = true → ∀ pre f b rest, st.stack = pre ++ f :: b :: rest → st.stop = some b.id →
    f.code.skip = false → m.retOn f.code = true

/-- nothing has been called since the step began -/
theorem direct_top {cfg : Cfg} {st : St} {m : Mon} {f : Frame} {rest : Stack} (hs : st.stack = f :: rest) (hu : (st.stack.map (·.id)).Nodup)
    (h : st.cmd.isOver = true → st.stop = some f.id) : Direct cfg st m := by
  intro _ ho pre g b rest' he hb
  have hf := h ho
  rw [hf] at hb
  exfalso
  rw [hs] at he hu
  simp only [List.map_cons, List.nodup_cons] at hu
  apply hu.1
  have hm : b ∈ rest := by
    cases pre with
    | nil => simp only [List.nil_append, List.cons.injEq] at he; rw [he.2]; simp
    | cons x pre => simp only [List.cons_append, List.cons.injEq] at he; rw [he.2]; simp
  exact List.mem_map.2 ⟨b, hm, (Option.some.inj hb).symm⟩

theorem direct_mono {cfg : Cfg} {st : St} {m m' : Mon} (h : Direct cfg st m) (hm : ∀ c, m.retOn c = true → m'.retOn c = true) : Direct cfg st m' :=
  fun a b pre f g rest e s k => hm _ (h a b pre f g rest e s k)

/-- the stack is a part of what it was -/
theorem direct_suffix {cfg : Cfg} {st st' : St} {m : Mon} (h : Direct cfg st m) (hc : st'.cmd = st.cmd) (hst : st'.stop = st.stop)
    (hsuf : st'.stack <:+ st.stack) : Direct cfg st' m := by
  intro a b pre f g rest e s k
  obtain ⟨x, hx⟩ := hsuf
  exact h a (hc ▸ b) (x ++ pre) f g rest (by rw [← hx, e]; simp) (hst ▸ s) k

theorem direct_not {cfg : Cfg} {st : St} {m : Mon} (h : st.cmd.isOver = false) : Direct cfg st m := by
  intro _ b; rw [h] at b; cases b

theorem shown_stop {cfg : Cfg} {st : St} {f : Frame} {rest : Stack} {reply : Cmd} (h : (resume cfg st (f :: rest) reply).1.cmd.isOver = true) :
    (resume cfg st (f :: rest) reply).1.stop = some f.id := by
  unfold resume at h ⊢
  cases reply with
  | none => cases h
  | into => cases h
  | intoMy => cases h
  | over => rfl
  | overMy => rfl
  | ret =>
    generalize returnFrom cfg Cmd.ret.isMy (f :: rest) = r at h
    rcases r with _ | ⟨a, _ | ⟨b, c⟩⟩ <;> cases h
  | retMy =>
    generalize returnFrom cfg Cmd.retMy.isMy (f :: rest) = r at h
    rcases r with _ | ⟨a, _ | ⟨b, c⟩⟩ <;> cases h

theorem retOn_monAfter (cfg : Cfg) (st : St) (c : Code) (l : Loc) (v : Verdict) (reply : Cmd) (m : Mon) :
    ∀ c', m.retOn c' = true → (monAfter cfg st c l v reply m).retOn c' = true := by
  intro c' h
  unfold monAfter
  cases v with
  | go d => simp only; split <;> exact h
  | stop w shown =>
    refine (le_all _ _ _ _).ret _ ?_
    unfold suspendMon
    split <;> exact h
  | finish => exact h
  | convert => exact (le_all _ _ _ _).ret _ h
  | retrace => exact (le_all _ _ _ _).ret _ h

theorem code_direct {cfg : Cfg} {st : St} {f b : Frame} {rest : Stack} {m : Mon} (h : cfg.showRet = true) (ho : st.cmd.isOver = true)
    (hs : st.stop = some b.id) : (codeTracing cfg st f (b :: rest) m).retOn f.code = true := by
  have key : ∀ m, (stepTracing cfg st f (b :: rest) m).retOn f.code = true := by
    intro m
    unfold stepTracing
    cases hc : st.cmd <;> simp [hc, Cmd.isOver] at ho <;> simp only <;>
      (split
       · simp [enableRet]
       · simp [h, same, hs, enableRet])
  unfold codeTracing
  split <;> exact key _

theorem direct_step {cfg : Cfg} {st : St} {m : Mon} (inv : Inv cfg st m) (hd : Direct cfg st m) (e : Event) (hf : Fine cfg st e) :
    Direct cfg (optStep cfg st m e).1 (optStep cfg st m e).2.1 := by
  have inv' := (step_same inv e hf).2.2
  obtain ⟨ev, reply⟩ := e
  cases ev with
  | call c hit =>
    simp only [optStep, push] at inv' ⊢
    have hpush : ∀ m', (∀ c', m.retOn c' = true → m'.retOn c' = true) →
        (cfg.showRet = true → st.cmd.isOver = true → ∀ b rest, st.stack = b :: rest → st.stop = some b.id → c.skip = false → m'.retOn c = true) →
        Direct cfg (push st c) m' := by
      intro m' hmono hnew hs ho pre f b rest he hb hk
      cases pre with
      | nil =>
        simp only [push, List.nil_append, List.cons.injEq] at he
        obtain ⟨rfl, he⟩ := he
        exact hnew hs ho b rest he hb hk
      | cons x pre =>
        simp only [push, List.cons_append, List.cons.injEq] at he
        exact hmono _ (hd hs ho pre f b rest he.2 hb hk)
    split
    · rename_i hm
      rw [if_pos hm] at inv'
      simp only at inv' ⊢
      have hcode : ∀ c', m.retOn c' = true → (if c.skip = true then m else codeTracing cfg (push st c) ⟨st.next, c, c.first⟩ st.stack m).retOn c' = true := by
        intro c' h
        split
        · exact h
        · exact (le_code _ _ _ _ _).ret _ h
      generalize hv : startVerdict cfg (push st c) ⟨st.next, c, c.first⟩ hit (push st c).stack = v
      have hv' : (∃ d, v = .go d) ∨ v = .stop .breakpoint (push st c).stack := by
        rw [← hv]; unfold startVerdict
        split
        · exact .inl ⟨_, rfl⟩
        · split
          · split
            · exact .inr rfl
            · exact .inl ⟨_, rfl⟩
          · exact .inl ⟨_, rfl⟩
      simp only [push] at hv hv' inv'
      rw [hv] at inv' ⊢
      rcases hv' with ⟨d, rfl⟩ | rfl
      · refine hpush _ ?_ ?_
        · intro c' h
          exact retOn_monAfter _ _ _ _ _ _ _ _ (hcode c' h)
        · intro hs ho b rest he hb hk
          refine retOn_monAfter _ _ _ _ _ _ _ _ ?_
          rw [if_neg (by simp [hk]), he]
          exact code_direct (st := push st c) (rest := rest) hs ho hb
      · refine direct_top (f := ⟨st.next, c, c.first⟩) (rest := st.stack) ?_ inv'.uniq ?_
        · exact (resume_stack _ _ _ _).1
        · intro h; exact shown_stop h
    · rename_i hm
      refine hpush _ (fun _ h => h) ?_
      intro hs ho b rest he hb hk
      exfalso
      have hc : st.cmd ≠ .none := by intro h; rw [h] at ho; cases ho
      have hon := inv.stepping hc
      rw [hon] at hm
      simp only [Bool.true_and, Bool.not_eq_true', Bool.not_eq_false] at hm
      rcases inv.dstart c hm with h | h
      · rw [h] at hk; cases hk
      · exact hc h.2.2
  | line l hit =>
    simp only [optStep] at inv' ⊢
    have hset : Direct cfg (setLine st l) m := by
      unfold setLine
      split
      · exact hd
      · rename_i f rest hs
        intro a b pre g x rest' he hb hk
        cases pre with
        | nil =>
          simp only [List.nil_append, List.cons.injEq] at he
          obtain ⟨rfl, he⟩ := he
          exact hd a b [] f x rest' (by rw [hs, he]; rfl) hb hk
        | cons y pre =>
          simp only [List.cons_append, List.cons.injEq] at he
          exact hd a b (f :: pre) g x rest' (by rw [hs, he.2]; rfl) hb hk
    split
    · rename_i hs
      exact hset
    · rename_i f rest hs
      split
      · rename_i hm
        simp only [hs] at inv'
        rw [if_pos hm] at inv'
        simp only at inv'
        generalize hv : lineVerdict cfg (setLine st l) f hit (f :: rest) = v at inv' ⊢
        have hv' : (∃ d, v = .go d) ∨ ∃ w, v = .stop w (f :: rest) := by
          rw [← hv]; unfold lineVerdict
          split
          · exact .inl ⟨_, rfl⟩
          · split
            · exact .inr ⟨_, rfl⟩
            · split
              · exact .inr ⟨_, rfl⟩
              · split
                · exact .inl ⟨_, rfl⟩
                · exact .inr ⟨_, rfl⟩
                · split
                  · exact .inl ⟨_, rfl⟩
                  · exact .inr ⟨_, rfl⟩
                · split
                  · exact .inr ⟨_, rfl⟩
                  · exact .inl ⟨_, rfl⟩
                · split
                  · exact .inr ⟨_, rfl⟩
                  · exact .inl ⟨_, rfl⟩
                · exact .inl ⟨_, rfl⟩
                · exact .inl ⟨_, rfl⟩
        rw [hs, hv]
        rcases hv' with ⟨d, rfl⟩ | ⟨w, rfl⟩
        · exact direct_mono hset (retOn_monAfter _ _ _ _ _ _ _)
        · refine direct_top (f := f) (rest := rest) ?_ inv'.uniq ?_
          · exact ((resume_stack _ _ _ _).1).trans hs
          · intro h; exact shown_stop h
      · exact hset
  | ret =>
    simp only [optStep] at inv' ⊢
    split
    · exact hd
    · rename_i f back hs
      split
      · rename_i hm
        simp only [hs] at inv'
        rw [if_pos hm] at inv'
        simp only at inv'
        generalize hv : retVerdict cfg st f back = v at inv' ⊢
        have hsuf : (pop st).stack <:+ st.stack := List.tail_suffix _
        cases v with
        | go d => exact direct_mono (direct_suffix hd (st' := pop st) rfl rfl hsuf) (retOn_monAfter _ _ _ _ _ _ _)
        | finish => exact direct_not rfl
        | convert =>
          refine direct_not ?_
          simp only [after, pop]
          split <;> rfl
        | retrace => exact direct_mono (direct_suffix hd (st' := pop st) rfl rfl hsuf) (retOn_monAfter _ _ _ _ _ _ _)
        | stop w shown =>
          have hb : shown = back ∧ back ≠ [] := by
            have hsr : ∀ s : Stack, stopOnReturn s = .stop w shown → shown = s ∧ s ≠ [] := by
              intro s h
              cases s with
              | nil => cases h
              | cons b s =>
                simp only [stopOnReturn] at h
                split at h
                · cases h
                · split at h
                  · cases h
                  · split at h
                    · cases h
                    · cases h; exact ⟨rfl, by simp⟩
            unfold retVerdict at hv
            split at hv
            · cases hv
            · split at hv
              · cases hv
              · split at hv
                · split at hv
                  · exact hsr _ hv
                  · cases hv
                · cases hv
              · split at hv
                · split at hv
                  · exact hsr _ hv
                  · cases hv
                · cases hv
              · split at hv
                · exact hsr _ hv
                · cases hv
              · split at hv
                · exact hsr _ hv
                · cases hv
              · split at hv
                · split at hv
                  · split at hv
                    · exact hsr _ hv
                    · cases hv
                  · cases hv
                · cases hv
              · split at hv
                · split at hv
                  · split at hv
                    · exact hsr _ hv
                    · cases hv
                  · cases hv
                · cases hv
          obtain ⟨rfl, hne⟩ := hb
          cases shown with
          | nil => exact absurd rfl hne
          | cons b rest =>
            refine direct_top (f := b) (rest := rest) ?_ inv'.uniq ?_
            · simp only [after, pop, (resume_stack _ _ _ _).1, hs, List.tail_cons]
            · intro h; exact shown_stop h
      · exact direct_suffix hd (st' := pop st) rfl rfl (List.tail_suffix _)
  | unwind => exact direct_suffix hd (st' := pop st) rfl rfl (List.tail_suffix _)
  | raise stops =>
    simp only [optStep] at inv' ⊢
    split
    · exact hd
    · rename_i f rest hs
      split
      · rename_i hm
        simp only [hs] at inv'
        rw [if_pos hm] at inv'
        refine direct_top (f := f) (rest := rest) ?_ inv'.uniq ?_
        · exact ((resume_stack _ _ _ _).1).trans hs
        · intro h; exact shown_stop h
      · exact hd
  | pause =>
    simp only [Fine] at hf
    refine direct_not ?_
    simp only [optStep, paused]
    split
    · rfl
    · exact hf.1

theorem direct_run {cfg : Cfg} : ∀ (es : List Event) {st : St} {m : Mon}, Inv cfg st m → Direct cfg st m → AllFine cfg st es →
    Direct cfg (optRun cfg st m es).1 (optRun cfg st m es).2.1 := by
  intro es
  induction es with
  | nil => intro st m _ hd _; exact hd
  | cons e es ih =>
    intro st m inv hd h
    have hs := step_same inv e h.1
    exact ih hs.2.2 (direct_step inv hd e h.1) (by rw [hs.1]; exact h.2)

/-- the calls (callee and caller) whose values are recorded at the event `e` after the events `es` -/
def shownAt (cfg : Cfg) (es : List Event) (e : Event) : List (Frame × Frame) :=
  shown cfg (optRun cfg start (startMon cfg) es).1 (optRun cfg start (startMon cfg) es).2.1 e

theorem reached {cfg : Cfg} {es : List Event} (h : AllFine cfg start es) :
    ∃ m, Inv cfg (A cfg es) m ∧ Direct cfg (A cfg es) m ∧ ∀ e, shownAt cfg es e = shown cfg (A cfg es) m e := by
  have hs := run_same es (inv_start cfg) h
  refine ⟨(optRun cfg start (startMon cfg) es).2.1, ?_, ?_, ?_⟩
  · have := hs.2.2
    rw [hs.1] at this
    exact this
  · have := direct_run es (inv_start cfg) (direct_not rfl) h
    rw [hs.1] at this
    exact this
  · intro e
    unfold shownAt
    rw [hs.1]; rfl

theorem shown_ret {cfg : Cfg} {st : St} {m : Mon} (inv : Inv cfg st m) {g b : Frame} {rest : Stack} {r : Cmd} (hs : st.stack = g :: b :: rest)
    (hc : st.cmd ≠ .none) (hk : g.code.skip = false) (hr : m.retOn g.code = true) (hsh : retShows cfg st g (b :: rest) = true) :
    shown cfg st m ⟨.ret, r⟩ = [(g, b)] := by
  have hd : m.disabled g.code .ret = false := by
    cases h : m.disabled g.code .ret with
    | false => rfl
    | true => rw [inv.dret _ h] at hk; cases hk
  simp [shown, hs, inv.stepping hc, hr, hd, hsh]

section
variable {cfg : Cfg} {es0 : List Event} {e : Event} {f : Frame} {es : List Event}

/-- C93, step over with `sys.monitoring`: the values of the calls the stepped frame makes itself, and its own, are recorded, whatever the
program does in between. -/
theorem c93_mon_over (ho : cfg.showRet = true) (h : Since cfg es0 e f es) (hr : e.reply.isOver = true) (hf : AllFine cfg start (es0 ++ e :: es))
    (own : Own (es0 ++ e :: es)) {g b : Frame} {rest : Stack} (hg : frames (es0 ++ e :: es) = g :: b :: rest) (hk : g.code.skip = false)
    (hid : b.id = f.id ∨ g.id = f.id) (r : Cmd) : shownAt cfg (es0 ++ e :: es) ⟨.ret, r⟩ = [(g, b)] := by
  obtain ⟨m, inv, hd, hsh⟩ := reached hf
  have hst : (A cfg (es0 ++ e :: es)).stack = g :: b :: rest := by rw [A_stack]; exact hg
  have hmem : f.id ∈ (A cfg (es0 ++ e :: es)).stack.map (·.id) := by
    rw [hst]; rcases hid with h | h <;> simp [h]
  obtain ⟨c1, c2⟩ := (since_over h hf own hr).1 hmem
  have hov : (A cfg (es0 ++ e :: es)).cmd.isOver = true := by rw [c1]; exact hr
  rw [hsh]
  refine shown_ret inv hst ?_ hk ?_ ?_
  · intro h'; rw [h'] at hov; cases hov
  · rcases hid with h' | h'
    · exact hd ho hov [] g b rest hst (by rw [c2, h']) hk
    · exact ((inv.needs g (by rw [hst]; simp)).over hov hk (by rw [c2, h'])).2
  · have hsm : same (A cfg (es0 ++ e :: es)) g = true ∨ same (A cfg (es0 ++ e :: es)) b = true := by
      rcases hid with h' | h'
      · right; simp [same, c2, h']
      · left; simp [same, c2, h']
    unfold retShows
    rw [ho, hk]
    cases hcc : (A cfg (es0 ++ e :: es)).cmd <;> rw [hcc] at hov <;> first | cases hov | skip
    all_goals (rcases hsm with h' | h' <;> simp [h'])

/-- C93, step over: no other value is recorded while the frame is there. -/
theorem c93_mon_over_only (h : Since cfg es0 e f es) (hr : e.reply.isOver = true) (hf : AllFine cfg start (es0 ++ e :: es))
    (own : Own (es0 ++ e :: es)) (hin : f.id ∈ (frames (es0 ++ e :: es)).map (·.id)) {x : Event} {g b : Frame}
    (hx : (g, b) ∈ shownAt cfg (es0 ++ e :: es) x) :
    cfg.showRet = true ∧ x.ev = .ret ∧ (∃ rest, frames (es0 ++ e :: es) = g :: b :: rest) ∧ (b.id = f.id ∨ g.id = f.id) := by
  obtain ⟨m, inv, hd, hsh⟩ := reached hf
  rw [hsh] at hx
  obtain ⟨c1, c2⟩ := (since_over h hf own hr).1 (by rw [A_stack]; exact hin)
  have hov : (A cfg (es0 ++ e :: es)).cmd.isOver = true := by rw [c1]; exact hr
  rw [← A_stack cfg]
  unfold shown at hx
  split at hx
  · rename_i g' b' rest hev hst
    split at hx
    · rename_i hc
      simp only [List.mem_cons, List.not_mem_nil, or_false, Prod.mk.injEq] at hx
      obtain ⟨rfl, rfl⟩ := hx
      simp only [Bool.and_eq_true] at hc
      have hc := hc.2
      unfold retShows at hc
      simp only [Bool.and_eq_true] at hc
      refine ⟨hc.1.1, hev, ⟨rest, hst⟩, ?_⟩
      have hc := hc.2
      cases hcc : (A cfg (es0 ++ e :: es)).cmd <;> rw [hcc] at hov hc <;> first | cases hov | skip
      all_goals
        simp only [same, c2, Bool.or_eq_true, beq_iff_eq, Option.some.injEq] at hc
        rcases hc with h' | h'
        · exact .inr h'.symm
        · exact .inl h'.symm
    · cases hx
  · cases hx

/-- C93, step into: every value is recorded until the step ends. -/
theorem c93_mon_into (ho : cfg.showRet = true) (h : Since cfg es0 e f es) (hr : e.reply = .into) (hf : AllFine cfg start (es0 ++ e :: es))
    (own : Own (es0 ++ e :: es)) {g b : Frame} {rest : Stack} (hg : frames (es0 ++ e :: es) = g :: b :: rest) (hk : g.code.skip = false)
    (r : Cmd) : shownAt cfg (es0 ++ e :: es) ⟨.ret, r⟩ = [(g, b)] := by
  obtain ⟨m, inv, hd, hsh⟩ := reached hf
  have hst : (A cfg (es0 ++ e :: es)).stack = g :: b :: rest := by rw [A_stack]; exact hg
  obtain ⟨c1, _⟩ := since_into h hf own (by rw [hr]; rfl)
  rw [hr] at c1
  rw [hsh]
  refine shown_ret inv hst (by rw [c1]; simp) hk ?_ ?_
  · exact ((inv.needs g (by rw [hst]; simp)).into (by rw [c1]; rfl) hk).2
  · unfold retShows
    rw [ho, hk, c1]; rfl

/-- C93, step into the user's code: the values that go to the user's code are recorded. -/
theorem c93_mon_into_my (ho : cfg.showRet = true) (h : Since cfg es0 e f es) (hr : e.reply = .intoMy) (hf : AllFine cfg start (es0 ++ e :: es))
    (own : Own (es0 ++ e :: es)) {g b : Frame} {rest : Stack} (hg : frames (es0 ++ e :: es) = g :: b :: rest) (hk : g.code.skip = false)
    (hb : b.code.skip = false) (hh : b.code.hook = false) (r : Cmd) :
    shownAt cfg (es0 ++ e :: es) ⟨.ret, r⟩ = if b.code.filterForce = true then [] else [(g, b)] := by
  obtain ⟨m, inv, hd, hsh⟩ := reached hf
  have hst : (A cfg (es0 ++ e :: es)).stack = g :: b :: rest := by rw [A_stack]; exact hg
  obtain ⟨c1, _⟩ := since_into h hf own (by rw [hr]; rfl)
  rw [hr] at c1
  rw [hsh]
  have hsr : retShows cfg (A cfg (es0 ++ e :: es)) g (b :: rest) = !b.code.filterForce := by
    unfold retShows
    rw [ho, hk, c1]
    cases hbf : b.code.filterForce <;> simp [visible, forced, filtered, hb, hh, hbf]
  split
  · rename_i hbf
    simp [shown, hst, hsr, hbf]
  · rename_i hbf
    refine shown_ret inv hst (by rw [c1]; simp) hk ?_ (by rw [hsr]; simp [hbf])
    exact ((inv.needs g (by rw [hst]; simp)).into (by rw [c1]; rfl) hk).2

/-- C93, step return: the value of the function that is left is recorded. -/
theorem c93_mon_return (ho : cfg.showRet = true) (h : Since cfg es0 e f es) (hr : e.reply.isRet = true) (hf : AllFine cfg start (es0 ++ e :: es))
    {rest0 : Stack} (h0 : frames (es0 ++ [e]) = f :: rest0) {t b0 : Frame} (hl : Leaves cfg e.reply.isMy f rest0 t b0)
    {g b : Frame} {rest : Stack} (hg : frames (es0 ++ e :: es) = g :: b :: rest) (hk : g.code.skip = false) (hid : g.id = t.id) (r : Cmd) :
    shownAt cfg (es0 ++ e :: es) ⟨.ret, r⟩ = [(g, b)] := by
  obtain ⟨m, inv, hd, hsh⟩ := reached hf
  have hst : (A cfg (es0 ++ e :: es)).stack = g :: b :: rest := by rw [A_stack]; exact hg
  obtain ⟨c1, c2⟩ := (since_return h hf hr h0 hl).1 (by rw [hst]; simp [hid])
  have hrr : (A cfg (es0 ++ e :: es)).cmd.isRet = true := by rw [c1]; exact hr
  rw [hsh]
  refine shown_ret inv hst ?_ hk ?_ ?_
  · intro h'; rw [h'] at hrr; cases hrr
  · exact (inv.needs g (by rw [hst]; simp)).ret hrr hk (by rw [c2, hid])
  · unfold retShows
    rw [ho, hk]
    cases hcc : (A cfg (es0 ++ e :: es)).cmd <;> rw [hcc] at hrr <;> first | rfl | cases hrr

/-- C93: nothing is recorded with the option off. -/
theorem c93_mon_off (ho : cfg.showRet = false) (es : List Event) (e : Event) : shownAt cfg es e = [] := by
  unfold shownAt shown
  split
  · simp [retShows, ho]
  · rfl

/-- C93: nothing is recorded while the program runs freely. -/
theorem c93_mon_running {st : St} {m : Mon} (hc : st.cmd = .none) (e : Event) : shown cfg st m e = [] := by
  unfold shown
  split
  · simp [retShows, hc]
  · rfl

end

/-! ### Concrete cases -/

def cfgShow : Cfg := ⟨false, true, true, true⟩

/-- main stops at line 3 and steps over a line with two calls; the first one calls a third function -/
def overTwo : List Event :=
  [⟨.call (plain 2 []) true, .none⟩, ⟨.line 20 true, .none⟩, ⟨.call (plain 3 []) true, .none⟩, ⟨.line 30 true, .none⟩]

theorem c93_example : Since cfgShow [⟨.call (plain 1 [3]) true, .none⟩] ⟨.line 3 true, .over⟩ ⟨0, plain 1 [3], 3⟩ (overTwo ++ [⟨.ret, .none⟩]) ∧
    AllFine cfgShow start (⟨.call (plain 1 [3]) true, .none⟩ :: ⟨.line 3 true, .over⟩ :: (overTwo ++ [⟨.ret, .none⟩])) ∧
    shownAt cfgShow (⟨.call (plain 1 [3]) true, .none⟩ :: ⟨.line 3 true, .over⟩ :: overTwo) ⟨.ret, .none⟩ = [] ∧
    shownAt cfgShow (⟨.call (plain 1 [3]) true, .none⟩ :: ⟨.line 3 true, .over⟩ :: (overTwo ++ [⟨.ret, .none⟩])) ⟨.ret, .none⟩ =
      [(⟨1, plain 2 [], 20⟩, ⟨0, plain 1 [3], 3⟩)] := by
  refine ⟨⟨⟨.breakpoint, by decide +kernel⟩, ?_⟩, by decide +kernel, by decide +kernel, by decide +kernel⟩
  intro a x b h
  have hlen := congrArg List.length h
  have : ∀ n, n < 5 → ∀ (y : Event), (overTwo ++ [(⟨.ret, .none⟩ : Event)])[n]? = some y →
      stopsAt cfgShow ([⟨.call (plain 1 [3]) true, .none⟩] ++ ⟨.line 3 true, .over⟩ :: (overTwo ++ [(⟨.ret, .none⟩ : Event)]).take n) y = none := by
    decide +kernel
  have hl : a.length < 5 := by simp [overTwo] at hlen; omega
  have := this a.length hl x (by rw [h]; simp)
  rw [h] at this
  simpa using this

/-- the step return of a function that calls another one, which was stepped into before: with `sys.monitoring` the value of that other
function, which the step does not concern, is recorded too; with tracing it is not (`c93_trace`) -/
theorem c93_mon_return_witness :
    let es : List Event := [⟨.call (plain 1 [3]) true, .none⟩, ⟨.line 3 true, .into⟩, ⟨.call (plain 2 []) true, .none⟩, ⟨.line 20 true, .into⟩,
      ⟨.ret, .into⟩, ⟨.line 4 true, .into⟩, ⟨.call (plain 3 []) true, .none⟩, ⟨.line 30 true, .ret⟩, ⟨.call (plain 2 []) true, .none⟩, ⟨.line 20 true, .none⟩]
    AllFine cfgShow start es ∧ (A cfgShow es).cmd = .ret ∧ (A cfgShow es).stop = some 2 ∧
    shownAt cfgShow es ⟨.ret, .none⟩ = [(⟨3, plain 2 [], 20⟩, ⟨2, plain 3 [], 30⟩)] := by
  decide +kernel

end

end ReturnValues
