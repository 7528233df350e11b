import Verif.MonStep.Same
/-!
Steps of the machine that gets every event.
-/

namespace MonStep

def verdictStop : Verdict → Option (Why × Frame)
  | .stop w (f :: _) => some (w, f)
  | _ => none

theorem find_outs (v : Verdict) : (outs v).findSome? stopOf = verdictStop v := by
  unfold outs verdictStop
  split <;> simp [stopOf]

theorem find_line (cfg : Cfg) (f : Frame) (v : Verdict) : (lineOuts cfg f ++ outs v).findSome? stopOf = verdictStop v := by
  unfold lineOuts
  split <;> simp [List.findSome?_cons, stopOf, find_outs]

theorem find_start (cfg : Cfg) (f : Frame) (v : Verdict) : (startOuts cfg f ++ outs v).findSome? stopOf = verdictStop v := by
  unfold startOuts
  split <;> simp [List.findSome?_cons, stopOf, find_outs]

/-- the stop of one event, with every event reported -/
def allStop (cfg : Cfg) (st : St) (e : Event) : Option (Why × Frame) := (allStep cfg st e).2.findSome? stopOf

/-! Histories -/

def A (cfg : Cfg) (es : List Event) : St := (allRun cfg start es).1

theorem allRun_append (cfg : Cfg) (st : St) (a b : List Event) : (allRun cfg st (a ++ b)).1 = (allRun cfg (allRun cfg st a).1 b).1 := by
  induction a generalizing st with
  | nil => rfl
  | cons x a ih => exact ih _

theorem fine_append {cfg : Cfg} {st : St} {a b : List Event} : AllFine cfg st (a ++ b) ↔ AllFine cfg st a ∧ AllFine cfg (allRun cfg st a).1 b := by
  induction a generalizing st with
  | nil => simp [AllFine, allRun]
  | cons x a ih => simp only [List.cons_append, AllFine, allRun, ih, and_assoc]

theorem A_snoc (cfg : Cfg) (es : List Event) (e : Event) : A cfg (es ++ [e]) = (allStep cfg (A cfg es) e).1 := by
  unfold A
  rw [allRun_append]
  rfl

theorem A_append (cfg : Cfg) (a b : List Event) : A cfg (a ++ b) = (allRun cfg (A cfg a) b).1 := allRun_append cfg start a b

theorem inv_all {cfg : Cfg} {es : List Event} (h : AllFine cfg start es) : ∃ m, Inv cfg (A cfg es) m := by
  have := run_same es (inv_start cfg) h
  exact ⟨_, this.1 ▸ this.2.2⟩

/-- the debugger as it is stops where the one that gets every event does -/
theorem stops_all {cfg : Cfg} {es : List Event} {e : Event} (h : AllFine cfg start (es ++ [e])) : stopsAt cfg es e = allStop cfg (A cfg es) e := by
  obtain ⟨h1, h2⟩ := fine_append.1 h
  have hr := run_same es (inv_start cfg) h1
  have hs := step_same hr.2.2 e (by rw [hr.1]; exact h2.1)
  simp only [stopsAt, allStop, A]
  rw [hs.2.1, hr.1]

/-! The debugger does not change the program -/

theorem resume_next (cfg : Cfg) (st : St) (shown : Stack) (reply : Cmd) : (resume cfg st shown reply).1.stack = st.stack ∧ (resume cfg st shown reply).1.next = st.next :=
  ⟨(resume_stack cfg st shown reply).1, (resume_stack cfg st shown reply).2.1⟩

theorem after_stack (cfg : Cfg) (st : St) (v : Verdict) (reply : Cmd) : (after cfg st v reply).stack = st.stack ∧ (after cfg st v reply).next = st.next := by
  cases v <;> simp [after, resume_next]

theorem step_prog (cfg : Cfg) (st : St) (e : Event) : ((allStep cfg st e).1.stack, (allStep cfg st e).1.next) = progStep (st.stack, st.next) e := by
  obtain ⟨ev, reply⟩ := e
  cases ev with
  | call c hit => simp [allStep, progStep, push, after_stack]
  | line l hit =>
    simp only [allStep, progStep, setLine]
    cases hs : st.stack with
    | nil => simp [hs]
    | cons f rest => simp [after_stack]
  | ret =>
    simp only [allStep, progStep]
    cases hs : st.stack with
    | nil => simp [hs]
    | cons f rest => simp [pop, after_stack, hs]
  | unwind => simp [allStep, progStep, pop]
  | raise stops =>
    simp only [allStep, progStep]
    cases hs : st.stack with
    | nil => simp [hs]
    | cons f rest =>
      simp only
      split <;> simp [after_stack, hs]
  | pause => simp [allStep, progStep, paused]

theorem run_prog (cfg : Cfg) (es : List Event) (st : St) :
    ((allRun cfg st es).1.stack, (allRun cfg st es).1.next) = es.foldl progStep (st.stack, st.next) := by
  induction es generalizing st with
  | nil => rfl
  | cons e es ih =>
    simp only [allRun, List.foldl_cons]
    rw [ih, ← step_prog]

theorem A_stack (cfg : Cfg) (es : List Event) : (A cfg es).stack = frames es := by
  have := run_prog cfg es start
  unfold frames A
  exact congrArg Prod.fst this

/-! The code on the stack -/

def OwnStack (s : Stack) : Prop := ∀ f ∈ s, f.code.debugStart = true ∨ f.code.traceProperty = true → f.code.skip = true

theorem own_step {p : Stack × Nat} {e : Event} (h : OwnStack p.1) (he : Own [e]) : OwnStack (progStep p e).1 := by
  obtain ⟨ev, reply⟩ := e
  have he := he ⟨ev, reply⟩ (by simp)
  cases ev <;> simp only [progStep] at he ⊢
  · intro f hf
    rcases List.mem_cons.1 hf with rfl | hf
    · exact he
    · exact h f hf
  · split
    · exact h
    · rename_i g rest hs
      intro f hf
      rcases List.mem_cons.1 hf with rfl | hf
      · exact h g (by rw [hs]; simp)
      · exact h f (by rw [hs]; simp [hf])
  · exact fun f hf => h f (List.mem_of_mem_tail hf)
  · exact fun f hf => h f (List.mem_of_mem_tail hf)
  · exact h
  · exact h

theorem own_fold {es : List Event} {p : Stack × Nat} (h : OwnStack p.1) (he : Own es) : OwnStack (es.foldl progStep p).1 := by
  induction es generalizing p with
  | nil => exact h
  | cons e es ih => exact ih (own_step h (fun x hx => he x (by simp at hx; simp [hx]))) (fun x hx => he x (by simp [hx]))

theorem own_frames {es : List Event} (he : Own es) : OwnStack (frames es) := own_fold (p := ([], 0)) (by intro f hf; cases hf) he

/-! Where steps may stop -/

theorem shown_filtered {cfg : Cfg} {c : Code} {my : Bool} (h : Shown cfg my c) : filtered cfg c = false ∧ c.skip = false ∧ (my = true → forced c = false) := by
  obtain ⟨h1, h2, h3⟩ := h
  refine ⟨?_, h1, fun hm => by simp [forced, h3 (Or.inr hm)]⟩
  simp only [filtered, h1, h2, Bool.false_or, Bool.and_eq_false_imp]
  exact fun h => h3 (Or.inl h)

theorem visible_iff {cfg : Cfg} {my : Bool} {c : Code} : visible cfg my c = true ↔ Shown cfg my c := by
  unfold visible Shown filtered forced
  cases c.skip <;> cases c.hook <;> cases c.filterForce <;> cases cfg.filtersOn <;> cases my <;> simp

theorem visible_false {cfg : Cfg} {my : Bool} {c : Code} : visible cfg my c = false ↔ ¬ Shown cfg my c := by
  rw [← visible_iff, Bool.not_eq_true]

theorem stopOnReturn_shown {b : Frame} {rest : Stack} (hc : b.code.skip = false) (hh : b.code.hook = false)
    (own : b.code.debugStart = true ∨ b.code.traceProperty = true → b.code.skip = true) : stopOnReturn (b :: rest) = .stop .step (b :: rest) := by
  have h1 : b.code.debugStart = false := Bool.eq_false_iff.2 fun h => by rw [own (Or.inl h)] at hc; cases hc
  have h2 : b.code.traceProperty = false := Bool.eq_false_iff.2 fun h => by rw [own (Or.inr h)] at hc; cases hc
  simp [stopOnReturn, h1, h2, hh]

/-! The stops of one event -/

theorem stop_line {cfg : Cfg} {st : St} {f : Frame} {rest : Stack} {l : Nat} {hit : Bool} {r : Cmd} (hs : (setLine st l).stack = f :: rest) :
    allStop cfg st ⟨.line l hit, r⟩ = verdictStop (lineVerdict cfg (setLine st l) f hit (f :: rest)) := by
  unfold allStop allStep
  simp only [hs, find_line]

theorem stop_ret {cfg : Cfg} {st : St} {f : Frame} {rest : Stack} {r : Cmd} (hs : st.stack = f :: rest) :
    allStop cfg st ⟨.ret, r⟩ = verdictStop (retVerdict cfg st f rest) := by
  unfold allStop allStep
  simp only [hs, find_outs]

theorem setLine_same (st : St) (l : Nat) : (setLine st l).cmd = st.cmd ∧ (setLine st l).stop = st.stop ∧ (setLine st l).suspended = st.suspended ∧
    (setLine st l).initial = st.initial := by
  unfold setLine
  split <;> simp

/-- during a step, the line of the frame where it is to stop does stop -/
theorem line_stops {cfg : Cfg} {st : St} {f : Frame} {rest : Stack} {l : Nat} {hit : Bool} {r : Cmd} (hs : (setLine st l).stack = f :: rest)
    (hc : st.cmd.isInto = true ∧ Shown cfg st.cmd.isMy f.code ∨ st.cmd.isOver = true ∧ st.stop = some f.id ∧ Shown cfg false f.code ∨
      st.suspended = true ∧ Shown cfg false f.code) :
    ∃ w, allStop cfg st ⟨.line l hit, r⟩ = some (w, f) := by
  rw [stop_line hs]
  obtain ⟨e1, e2, e3, e4⟩ := setLine_same st l
  unfold lineVerdict
  have hsh : Shown cfg false f.code := by
    rcases hc with h | h | h
    · exact ⟨h.2.1, h.2.2.1, fun h' => h.2.2.2 (h'.imp_right (by simp))⟩
    · exact h.2.2
    · exact h.2
  have hf := shown_filtered hsh
  rw [e1, e3]
  simp only [hf.1, hf.2.1, Bool.or_false, Bool.false_eq_true, if_false]
  split
  · exact ⟨_, rfl⟩
  · split
    · exact ⟨_, rfl⟩
    · rename_i hns
      rcases hc with ⟨h, h'⟩ | ⟨h, h', h''⟩ | h
      · cases hcm : st.cmd <;> rw [hcm] at h h' <;> try (cases h; done)
        · exact ⟨_, rfl⟩
        · simp [(shown_filtered h').2.2 rfl, verdictStop]
      · cases hcm : st.cmd <;> rw [hcm] at h <;> try (cases h; done)
        all_goals simp [same, e2, h', verdictStop]
      · exact absurd h.1 hns

/-- a line that stops for a step -/
theorem line_only {cfg : Cfg} {st : St} {f g : Frame} {rest : Stack} {l : Nat} {hit : Bool} {r : Cmd} (hs : (setLine st l).stack = f :: rest)
    (h : allStop cfg st ⟨.line l hit, r⟩ = some (.step, g)) : g = f ∧ Shown cfg false f.code ∧
      (st.cmd.isInto = true ∧ Shown cfg st.cmd.isMy f.code ∨ st.cmd.isOver = true ∧ st.stop = some f.id) := by
  rw [stop_line hs] at h
  obtain ⟨e1, e2, e3, e4⟩ := setLine_same st l
  unfold lineVerdict at h
  rw [e1, e3] at h
  split at h
  · cases h
  · rename_i hf
    simp only [Bool.or_eq_true, not_or, Bool.not_eq_true] at hf
    have hsh : Shown cfg false f.code := by
      refine ⟨hf.1, ?_, ?_⟩
      · have := hf.2
        simp only [filtered, Bool.or_eq_false_iff] at this
        exact this.1.2
      · intro h'
        have := hf.2
        simp only [filtered, Bool.or_eq_false_iff] at this
        rcases h' with h' | h'
        · simpa [h'] using this.2
        · cases h'
    split at h
    · cases h
    · split at h
      · cases h
      · cases hcm : st.cmd <;> rw [hcm] at h
        · cases h
        · cases h
          exact ⟨rfl, hsh, Or.inl ⟨rfl, hsh⟩⟩
        · simp only at h
          split at h
          · cases h
          · cases h
            rename_i hfo
            refine ⟨rfl, hsh, Or.inl ⟨rfl, hsh.1, hsh.2.1, fun _ => ?_⟩⟩
            simpa [forced, hsh.1, hsh.2.1] using hfo
        · simp only at h
          split at h
          · cases h
            rename_i hsm
            exact ⟨rfl, hsh, Or.inr ⟨rfl, by simpa [same, e2] using hsm⟩⟩
          · cases h
        · simp only at h
          split at h
          · cases h
            rename_i hsm
            exact ⟨rfl, hsh, Or.inr ⟨rfl, by simpa [same, e2] using hsm⟩⟩
          · cases h
        · cases h
        · cases h

/-- during a step, the return that is to stop does stop -/
theorem ret_stops {cfg : Cfg} {st : St} {f b : Frame} {rest : Stack} {r : Cmd} (hs : st.stack = f :: b :: rest) (hf : f.code.skip = false) (own : OwnStack st.stack)
    (hc : st.cmd.isInto = true ∧ Shown cfg st.cmd.isMy b.code ∧ st.initial ≠ some (b.id, b.line) ∨
      st.cmd.isOver = true ∧ st.stop = some f.id ∧ Shown cfg st.cmd.isMy b.code ∨
      st.cmd.isRet = true ∧ st.stop = some f.id ∧ b.code.skip = false ∧ b.code.hook = false) :
    allStop cfg st ⟨.ret, r⟩ = some (.step, b) := by
  have ob := own b (by rw [hs]; simp)
  rw [stop_ret hs]
  unfold retVerdict
  simp only [hf, Bool.false_eq_true, if_false]
  rcases hc with ⟨h, h', h''⟩ | ⟨h, h', h''⟩ | ⟨h, h', h'', h'''⟩
  · have hv := visible_iff.2 h'
    have := stopOnReturn_shown (rest := rest) h'.1 h'.2.1 ob
    cases hcm : st.cmd <;> rw [hcm] at h hv <;> try (cases h; done)
    all_goals
      simp only [hv, Bool.true_and, this]
      rw [if_pos (by simpa using h'')]
      rfl
  · have hv := visible_iff.2 h''
    have := stopOnReturn_shown (rest := rest) h''.1 h''.2.1 ob
    cases hcm : st.cmd <;> rw [hcm] at h hv <;> try (cases h; done)
    all_goals
      simp only [hv, same, h', beq_self_eq_true, if_true, this]
      rfl
  · have := stopOnReturn_shown (rest := rest) h'' h''' ob
    cases hcm : st.cmd <;> rw [hcm] at h <;> try (cases h; done)
    all_goals
      simp only [same, h', beq_self_eq_true, if_true, this]
      rfl

/-- a return never stops for another reason than the step -/
theorem stopOnReturn_stop {back : Stack} {w : Why} {g : Frame} (h : verdictStop (stopOnReturn back) = some (w, g)) :
    w = .step ∧ ∃ rest, back = g :: rest ∧ g.code.debugStart = false ∧ g.code.traceProperty = false ∧ g.code.hook = false := by
  unfold stopOnReturn at h
  split at h
  · cases h
  · split at h
    · cases h
    · split at h
      · cases h
      · split at h
        · cases h
        · cases h
          rename_i h1 h2 h3
          exact ⟨rfl, _, rfl, by simpa using h1, by simpa using h2, by simpa using h3⟩

theorem ret_only {cfg : Cfg} {st : St} {f g : Frame} {back : Stack} {r : Cmd} {w : Why} (hs : st.stack = f :: back)
    (h : allStop cfg st ⟨.ret, r⟩ = some (w, g)) : w = .step ∧ f.code.skip = false ∧ g.code.hook = false ∧ (∃ rest, back = g :: rest) ∧
      (st.cmd.isInto = true ∧ Shown cfg st.cmd.isMy g.code ∧ st.initial ≠ some (g.id, g.line) ∨
        st.cmd.isOver = true ∧ st.stop = some f.id ∧ Shown cfg st.cmd.isMy g.code ∨
        st.cmd.isRet = true ∧ st.stop = some f.id) := by
  rw [stop_ret hs] at h
  unfold retVerdict at h
  split at h
  · cases h
  · rename_i hf
    have hf' : f.code.skip = false := by simpa using hf
    cases hcm : st.cmd <;> rw [hcm] at h
    · cases h
    case into | intoMy =>
      simp only at h
      split at h
      · split at h
        · rename_i hb
          obtain ⟨h1, rest', h2, h3, h4, h5⟩ := stopOnReturn_stop h
          cases h2
          simp only [Bool.and_eq_true, visible_iff, bne_iff_ne] at hb
          exact ⟨h1, hf', h5, ⟨_, rfl⟩, Or.inl ⟨rfl, hb.1, hb.2⟩⟩
        · cases h
      · cases h
    case over | overMy =>
      simp only at h
      split at h
      · rename_i hsm
        split at h
        · split at h
          · rename_i hb
            obtain ⟨h1, rest', h2, h3, h4, h5⟩ := stopOnReturn_stop h
            cases h2
            exact ⟨h1, hf', h5, ⟨_, rfl⟩, Or.inr (Or.inl ⟨rfl, by simpa [same] using hsm, visible_iff.1 hb⟩)⟩
          · cases h
        · cases h
      · cases h
    case ret | retMy =>
      simp only at h
      split at h
      · rename_i hsm
        obtain ⟨h1, rest', h2, h3, h4, h5⟩ := stopOnReturn_stop h
        exact ⟨h1, hf', h5, ⟨_, h2⟩, Or.inr (Or.inr ⟨rfl, by simpa [same] using hsm⟩)⟩
      · cases h

/-- the other events do not stop for a step -/
theorem other_only {cfg : Cfg} {st : St} {e : Event} {g : Frame} (h : allStop cfg st e = some (.step, g)) :
    (∃ l hit, e.ev = .line l hit) ∨ e.ev = .ret := by
  obtain ⟨ev, r⟩ := e
  cases ev with
  | call c hit =>
    exfalso
    unfold allStop allStep at h
    simp only [push, find_start] at h
    unfold startVerdict at h
    split at h
    · cases h
    · split at h
      · split at h <;> cases h
      · cases h
  | line l hit => exact Or.inl ⟨l, hit, rfl⟩
  | ret => exact Or.inr rfl
  | unwind => cases h
  | raise stops =>
    exfalso
    unfold allStop allStep at h
    simp only at h
    split at h
    · cases h
    · split at h <;> cases h
  | pause => cases h

end MonStep
