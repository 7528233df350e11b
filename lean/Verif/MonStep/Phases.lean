import Verif.MonStep.Steps
/-!
What the debugger remembers between two stops.
-/

namespace MonStep

/-- the state after a stop that showed `f`, called by `rest`, and was answered with `reply` -/
structure Resumed (cfg : Cfg) (st : St) (f : Frame) (rest : Stack) (reply : Cmd) : Prop where
  stack : st.stack = f :: rest
  run : reply = .none → st.cmd = .none
  into : reply.isInto = true → st.cmd = reply ∧ st.initial = some (f.id, f.line)
  over : reply.isOver = true → st.cmd = reply ∧ st.stop = some f.id
  ret : reply.isRet = true → ∀ g b, Leaves cfg reply.isMy f rest g b → st.cmd = reply ∧ st.stop = some g.id
  nowhere : reply.isRet = true → (¬ ∃ g b, Leaves cfg reply.isMy f rest g b) → st.cmd = .none

theorem leaves_returnFrom {cfg : Cfg} {my : Bool} {f : Frame} {rest : Stack} {g b : Frame} (h : Leaves cfg my f rest g b) :
    ∃ r, returnFrom cfg my (f :: rest) = g :: b :: r := by
  induction h with
  | here hn =>
    rename_i f b rest
    refine ⟨rest, ?_⟩
    rw [returnFrom, if_neg]
    simpa using hn
  | outer h1 h2 _ ih =>
    obtain ⟨r, hr⟩ := ih
    refine ⟨r, ?_⟩
    rw [returnFrom, if_pos (by simp [h1, h2])]
    exact hr

theorem returnFrom_leaves {cfg : Cfg} {my : Bool} (s : Stack) {f : Frame} {rest : Stack} (hs : s = f :: rest) {g b : Frame} {r : Stack}
    (h : returnFrom cfg my s = g :: b :: r) : Leaves cfg my f rest g b := by
  fun_induction returnFrom cfg my s generalizing f rest with
  | case1 f' b' rest' hc ih =>
    cases hs
    have := ih rfl h
    simp only [Bool.and_eq_true, Bool.or_eq_true] at hc
    exact .outer hc.1 hc.2 this
  | case2 f' b' rest' hc =>
    cases hs; cases h
    refine .here ?_
    simpa using hc
  | case3 s hn =>
    subst hs
    cases h
    exact absurd rfl (hn _ _ _)

theorem resumed {cfg : Cfg} {st' st : St} {f : Frame} {rest : Stack} {reply : Cmd} (hs : st.stack = f :: rest)
    (hc : st.cmd = (resume cfg st' (f :: rest) reply).1.cmd) (ht : st.stop = (resume cfg st' (f :: rest) reply).1.stop)
    (hi : st.initial = (resume cfg st' (f :: rest) reply).1.initial) : Resumed cfg st f rest reply := by
  refine ⟨hs, ?_, ?_, ?_, ?_, ?_⟩
  · rintro rfl; rw [hc]; rfl
  · intro h; rw [hc, hi]
    cases reply <;> first | (cases h; done) | exact ⟨rfl, rfl⟩
  · intro h; rw [hc, ht]
    cases reply <;> first | (cases h; done) | exact ⟨rfl, rfl⟩
  · intro h g b hl
    obtain ⟨r, hr⟩ := leaves_returnFrom hl
    rw [hc, ht]
    cases reply <;> first | (cases h; done) | simp [resume, hr]
  · intro h hn
    rw [hc]
    cases reply <;> try (cases h; done)
    all_goals
      simp only [resume]
      split
      · rename_i hr
        exact absurd ⟨_, _, returnFrom_leaves _ rfl hr⟩ hn
      · rfl

theorem stop_resumed {cfg : Cfg} {st : St} {e : Event} {w : Why} {f : Frame} (h : allStop cfg st e = some (w, f)) :
    ∃ rest, Resumed cfg (allStep cfg st e).1 f rest e.reply := by
  obtain ⟨ev, r⟩ := e
  have vs : ∀ {v : Verdict} {w : Why} {f : Frame}, verdictStop v = some (w, f) → ∃ rest, v = .stop w (f :: rest) := by
    intro v w f h
    unfold verdictStop at h
    split at h
    · cases h; exact ⟨_, rfl⟩
    · cases h
  cases ev with
  | call c hit =>
    unfold allStop allStep at h
    simp only [push, find_start] at h
    obtain ⟨rest, hv⟩ := vs h
    rcases start_cases cfg (push st c) ⟨st.next, c, c.first⟩ hit (push st c).stack with ⟨d, h', _⟩ | ⟨w', h', _⟩
    · simp only [push] at h'; rw [h'] at hv; cases hv
    · simp only [push] at h'; rw [h'] at hv
      cases hv
      refine ⟨st.stack, ?_⟩
      simp only [allStep, push, h', after]
      exact resumed (by simp [resume_next]) rfl rfl rfl
  | line l hit =>
    cases hs : (setLine st l).stack with
    | nil => unfold allStop allStep at h; simp [hs] at h
    | cons g rest =>
      rw [stop_line hs] at h
      obtain ⟨rest', hv⟩ := vs h
      rcases line_cases cfg (setLine st l) g hit (g :: rest) with ⟨d, h', _⟩ | ⟨w', h', _⟩
      · rw [h'] at hv; cases hv
      · rw [h'] at hv
        cases hv
        refine ⟨rest, ?_⟩
        simp only [allStep, hs, h', after]
        exact resumed (by simp [resume_next, hs]) rfl rfl rfl
  | ret =>
    cases hs : st.stack with
    | nil => unfold allStop allStep at h; simp [hs] at h
    | cons g back =>
      rw [stop_ret hs] at h
      obtain ⟨rest', hv⟩ := vs h
      rcases ret_cases cfg st g back with ⟨d, h', _⟩ | ⟨h', _⟩ | ⟨h', _⟩ | h' | ⟨b, rest, hb, h'⟩ <;> rw [h'] at hv <;> try (cases hv; done)
      cases hv
      refine ⟨rest', ?_⟩
      simp only [allStep, hs, h', after]
      exact resumed (by simp [pop, resume_next, hs]) rfl rfl rfl
  | unwind => cases h
  | raise stops =>
    unfold allStop allStep at h
    simp only at h
    cases hs : st.stack with
    | nil => simp [hs] at h
    | cons g rest =>
      simp only [hs] at h
      split at h
      · rename_i hc
        cases h
        refine ⟨rest, ?_⟩
        simp only [allStep, hs, hc, if_true, after]
        exact resumed (by simp [resume_next, hs]) rfl rfl rfl
      · cases h
  | pause => cases h

/-! Events without a stop -/

/-- the handlers of everything but returns only go on or stop -/
theorem quiet_state {cfg : Cfg} {st : St} {e : Event} (h : allStop cfg st e = none) (hr : e.ev ≠ .ret) (hp : e.ev ≠ .pause) :
    (allStep cfg st e).1.cmd = st.cmd ∧ (allStep cfg st e).1.stop = st.stop ∧ (allStep cfg st e).1.initial = st.initial ∧
    (allStep cfg st e).1.suspended = st.suspended := by
  obtain ⟨ev, r⟩ := e
  cases ev with
  | call c hit =>
    unfold allStop allStep at h
    simp only [push, find_start] at h
    rcases start_cases cfg (push st c) ⟨st.next, c, c.first⟩ hit (push st c).stack with ⟨d, h', _⟩ | ⟨w', h', _⟩
    · simp only [push] at h'
      simp only [allStep, push, h', after, and_self]
    · simp only [push] at h'; rw [h'] at h; cases h
  | line l hit =>
    obtain ⟨e1, e2, e3, e4⟩ := setLine_same st l
    cases hs : (setLine st l).stack with
    | nil => simp only [allStep, hs]; exact ⟨e1, e2, e4, e3⟩
    | cons g rest =>
      rw [stop_line hs] at h
      rcases line_cases cfg (setLine st l) g hit (g :: rest) with ⟨d, h', _⟩ | ⟨w', h', _⟩
      · simp only [allStep, hs, h', after]; exact ⟨e1, e2, e4, e3⟩
      · rw [h'] at h; cases h
  | ret => exact absurd rfl hr
  | unwind => exact ⟨rfl, rfl, rfl, rfl⟩
  | raise stops =>
    unfold allStop allStep at h
    simp only at h
    cases hs : st.stack with
    | nil => simp [allStep, hs]
    | cons g rest =>
      simp only [hs] at h
      split at h
      · cases h
      · rename_i hc
        simp only [allStep, hs, hc, if_false]
        exact ⟨rfl, rfl, rfl, rfl⟩
  | pause => exact absurd rfl hp

theorem quiet_pause {cfg : Cfg} {st : St} {r : Cmd} (hc : st.cmd ≠ .none) :
    (allStep cfg st ⟨.pause, r⟩).1.cmd = st.cmd ∧ (allStep cfg st ⟨.pause, r⟩).1.stop = st.stop ∧ (allStep cfg st ⟨.pause, r⟩).1.initial = st.initial := by
  simp [allStep, paused, hc]

theorem ret_state {cfg : Cfg} {st : St} {f : Frame} {back : Stack} {r : Cmd} (hs : st.stack = f :: back) :
    (allStep cfg st ⟨.ret, r⟩).1 = pop (after cfg st (retVerdict cfg st f back) r) := by
  simp only [allStep, hs]

theorem ret_empty {cfg : Cfg} {st : St} {r : Cmd} (hs : st.stack = []) : (allStep cfg st ⟨.ret, r⟩).1 = st := by
  simp only [allStep, hs]

/-- a step into goes on -/
theorem quiet_into {cfg : Cfg} {st : St} {e : Event} (h : allStop cfg st e = none) (hc : st.cmd.isInto = true) (own : OwnStack st.stack) :
    (allStep cfg st e).1.cmd = st.cmd ∧ (allStep cfg st e).1.initial = st.initial := by
  have hn : st.cmd ≠ .none := by intro h; rw [h] at hc; cases hc
  by_cases hr : e.ev = .ret
  · obtain ⟨ev, r⟩ := e
    cases hr
    cases hs : st.stack with
    | nil => rw [ret_empty hs]; exact ⟨rfl, rfl⟩
    | cons f back =>
      rw [ret_state hs]
      rw [stop_ret hs] at h
      have : ∃ d, retVerdict cfg st f back = .go d := by
        unfold retVerdict at h ⊢
        split
        · exact ⟨_, rfl⟩
        · rename_i hk
          simp only [hk, if_false] at h
          cases hcm : st.cmd <;> rw [hcm] at hc h <;> try (cases hc; done)
          all_goals
            simp only at h ⊢
            cases back with
            | nil => exact ⟨_, rfl⟩
            | cons b rest =>
              simp only at h ⊢
              split
              · rename_i hv
                rw [if_pos hv] at h
                simp only [Bool.and_eq_true, visible_iff] at hv
                rw [stopOnReturn_shown hv.1.1 hv.1.2.1 (own b (by rw [hs]; simp))] at h
                cases h
              · exact ⟨_, rfl⟩
      obtain ⟨d, hd⟩ := this
      rw [hd]
      exact ⟨rfl, rfl⟩
  · by_cases hp : e.ev = .pause
    · obtain ⟨ev, r⟩ := e
      cases hp
      exact ⟨(quiet_pause hn).1, (quiet_pause hn).2.2⟩
    · have := quiet_state h hr hp
      exact ⟨this.1, this.2.2.1⟩

/-- a step over goes on, or its frame returned to code where the step is not shown and it goes on as a step into -/
theorem quiet_over {cfg : Cfg} {st : St} {e : Event} {s : Nat} (h : allStop cfg st e = none) (hc : st.cmd.isOver = true) (ht : st.stop = some s) (own : OwnStack st.stack) :
    ((allStep cfg st e).1.cmd = st.cmd ∧ (allStep cfg st e).1.stop = some s) ∨
    (e.ev = .ret ∧ ∃ f back, st.stack = f :: back ∧ f.id = s ∧ (∀ b rest, back = b :: rest → ¬ Shown cfg st.cmd.isMy b.code) ∧
      (allStep cfg st e).1.cmd = (if st.cmd.isMy then .intoMy else .into) ∧ (allStep cfg st e).1.initial = st.initial) := by
  have hn : st.cmd ≠ .none := by intro h; rw [h] at hc; cases hc
  by_cases hr : e.ev = .ret
  · obtain ⟨ev, r⟩ := e
    cases hr
    cases hs : st.stack with
    | nil => rw [ret_empty hs]; exact Or.inl ⟨rfl, ht⟩
    | cons f back =>
      rw [ret_state hs]
      rw [stop_ret hs] at h
      have : (∃ d, retVerdict cfg st f back = .go d) ∨ (retVerdict cfg st f back = .convert ∧ f.id = s ∧ ∀ b rest, back = b :: rest → ¬ Shown cfg st.cmd.isMy b.code) := by
        unfold retVerdict at h ⊢
        split
        · exact Or.inl ⟨_, rfl⟩
        · rename_i hk
          simp only [hk, if_false] at h
          cases hcm : st.cmd <;> rw [hcm] at hc h <;> try (cases hc; done)
          all_goals
            simp only at h ⊢
            split
            · rename_i hsm
              have hid : f.id = s := by
                simp only [same, ht, beq_iff_eq, Option.some.injEq] at hsm
                exact hsm.symm
              cases back with
              | nil => exact Or.inr ⟨rfl, hid, by simp⟩
              | cons b rest =>
                simp only [hsm, if_true] at h ⊢
                split
                · rename_i hv
                  rw [if_pos hv] at h
                  have hv' := visible_iff.1 hv
                  rw [stopOnReturn_shown hv'.1 hv'.2.1 (own b (by rw [hs]; simp))] at h
                  cases h
                · rename_i hv
                  refine Or.inr ⟨rfl, hid, ?_⟩
                  intro b' rest' hb
                  cases hb
                  exact fun h' => hv (visible_iff.2 h')
            · exact Or.inl ⟨_, rfl⟩
      rcases this with ⟨d, hd⟩ | ⟨hd, hid, hb⟩
      · rw [hd]; exact Or.inl ⟨rfl, ht⟩
      · rw [hd]; exact Or.inr ⟨rfl, f, back, rfl, hid, hb, rfl, rfl⟩
  · by_cases hp : e.ev = .pause
    · obtain ⟨ev, r⟩ := e
      cases hp
      exact Or.inl ⟨(quiet_pause hn).1, by rw [(quiet_pause hn).2.1, ht]⟩
    · have := quiet_state h hr hp
      exact Or.inl ⟨this.1, by rw [this.2.1, ht]⟩

/-- a step return goes on, or its frame returned and the step ended -/
theorem quiet_return {cfg : Cfg} {st : St} {e : Event} {s : Nat} (h : allStop cfg st e = none) (hc : st.cmd.isRet = true) (ht : st.stop = some s) :
    ((allStep cfg st e).1.cmd = st.cmd ∧ (allStep cfg st e).1.stop = some s) ∨
    (e.ev = .ret ∧ (∃ f back, st.stack = f :: back ∧ f.id = s) ∧ (allStep cfg st e).1.cmd = .none ∧ (allStep cfg st e).1.suspended = false) := by
  have hn : st.cmd ≠ .none := by intro h; rw [h] at hc; cases hc
  by_cases hr : e.ev = .ret
  · obtain ⟨ev, r⟩ := e
    cases hr
    cases hs : st.stack with
    | nil => rw [ret_empty hs]; exact Or.inl ⟨rfl, ht⟩
    | cons f back =>
      rw [ret_state hs]
      rw [stop_ret hs] at h
      have : (∃ d, retVerdict cfg st f back = .go d) ∨ retVerdict cfg st f back = .retrace ∨ (retVerdict cfg st f back = .finish ∧ f.id = s) := by
        unfold retVerdict at h ⊢
        split
        · exact Or.inl ⟨_, rfl⟩
        · rename_i hk
          simp only [hk, if_false] at h
          cases hcm : st.cmd <;> rw [hcm] at hc h <;> try (cases hc; done)
          all_goals
            simp only at h ⊢
            split
            · rename_i hsm
              rw [if_pos hsm] at h
              have hid : f.id = s := by
                simp only [same, ht, beq_iff_eq, Option.some.injEq] at hsm
                exact hsm.symm
              rcases stopOnReturn_cases back with h' | h' | h' | ⟨b, rest, hb, h'⟩
              · exact Or.inr (Or.inr ⟨h', hid⟩)
              · exact Or.inl ⟨_, h'⟩
              · exact Or.inr (Or.inl h')
              · rw [h', hb] at h; cases h
            · exact Or.inl ⟨_, rfl⟩
      rcases this with ⟨d, hd⟩ | hd | ⟨hd, hid⟩
      · rw [hd]; exact Or.inl ⟨rfl, ht⟩
      · rw [hd]; exact Or.inl ⟨rfl, ht⟩
      · rw [hd]; exact Or.inr ⟨rfl, ⟨f, back, rfl, hid⟩, rfl, rfl⟩
  · by_cases hp : e.ev = .pause
    · obtain ⟨ev, r⟩ := e
      cases hp
      exact Or.inl ⟨(quiet_pause hn).1, by rw [(quiet_pause hn).2.1, ht]⟩
    · have := quiet_state h hr hp
      exact Or.inl ⟨this.1, by rw [this.2.1, ht]⟩

/-- a thread that runs goes on -/
theorem quiet_run {cfg : Cfg} {st : St} {e : Event} (h : allStop cfg st e = none) (hc : st.cmd = .none) (hp : e.ev ≠ .pause) :
    (allStep cfg st e).1.cmd = .none := by
  by_cases hr : e.ev = .ret
  · obtain ⟨ev, r⟩ := e
    cases hr
    cases hs : st.stack with
    | nil => rw [ret_empty hs]; exact hc
    | cons f back =>
      rw [ret_state hs]
      have : ∃ d, retVerdict cfg st f back = .go d := by
        unfold retVerdict
        split
        · exact ⟨_, rfl⟩
        · rw [hc]; exact ⟨_, rfl⟩
      obtain ⟨d, hd⟩ := this
      rw [hd]; exact hc
  · rw [(quiet_state h hr hp).1, hc]

/-! Frames come and go -/

theorem id_back {p : Stack × Nat} {e : Event} {s : Nat} (hs : s < p.2) (h : s ∈ ((progStep p e).1.map (·.id))) : s ∈ p.1.map (·.id) := by
  obtain ⟨ev, r⟩ := e
  cases ev <;> simp only [progStep] at h
  · simp only [List.map_cons, List.mem_cons] at h
    rcases h with h | h
    · omega
    · exact h
  · split at h
    · exact h
    · rename_i hs'
      rw [hs']; simpa using h
  · rw [List.map_tail] at h; exact List.mem_of_mem_tail h
  · rw [List.map_tail] at h; exact List.mem_of_mem_tail h
  · exact h
  · exact h

theorem next_le (p : Stack × Nat) (e : Event) : p.2 ≤ (progStep p e).2 := by
  obtain ⟨ev, r⟩ := e
  cases ev <;> simp only [progStep] <;> try exact Nat.le_refl _
  · exact Nat.le_succ _
  · split <;> exact Nat.le_refl _

theorem step_id {cfg : Cfg} {st : St} {e : Event} {s : Nat} (hs : s < st.next) :
    s < (allStep cfg st e).1.next ∧ (s ∈ (allStep cfg st e).1.stack.map (·.id) → s ∈ st.stack.map (·.id)) := by
  have h := step_prog cfg st e
  have h1 : (allStep cfg st e).1.stack = (progStep (st.stack, st.next) e).1 := congrArg Prod.fst h
  have h2 : (allStep cfg st e).1.next = (progStep (st.stack, st.next) e).2 := congrArg Prod.snd h
  rw [h1, h2]
  exact ⟨Nat.lt_of_lt_of_le hs (next_le (st.stack, st.next) e), fun h => id_back hs h⟩

/-! Since the last stop -/

theorem fine_prefix {cfg : Cfg} {a b : List Event} (h : AllFine cfg start (a ++ b)) : AllFine cfg start a := (fine_append.1 h).1

/-- something that holds after the stop and is kept by events without a stop holds until the next stop -/
theorem since_induct {cfg : Cfg} {es0 : List Event} {e : Event} {f : Frame} {es : List Event} (h : Since cfg es0 e f es)
    (hf : AllFine cfg start (es0 ++ e :: es)) (P : St → Prop) (h0 : ∀ rest, Resumed cfg (A cfg (es0 ++ [e])) f rest e.reply → P (A cfg (es0 ++ [e])))
    (hs : ∀ a x b, es = a ++ x :: b → AllFine cfg start (es0 ++ e :: a) → allStop cfg (A cfg (es0 ++ e :: a)) x = none → P (A cfg (es0 ++ e :: a)) →
      P (allStep cfg (A cfg (es0 ++ e :: a)) x).1) : P (A cfg (es0 ++ e :: es)) := by
  have key : ∀ b a, es = a ++ b → P (A cfg (es0 ++ e :: a)) → P (A cfg (es0 ++ e :: es)) := by
    intro b
    induction b with
    | nil => intro a ha hp; rw [ha, List.append_nil]; exact hp
    | cons x b ih =>
      intro a ha hp
      have hfa : AllFine cfg start ((es0 ++ e :: a) ++ [x]) := by
        have : es0 ++ e :: es = ((es0 ++ e :: a) ++ [x]) ++ b := by rw [ha]; simp
        rw [this] at hf
        exact fine_prefix hf
      refine ih (a ++ [x]) (by rw [ha]; simp) ?_
      have := hs a x b ha (fine_prefix hfa) (by rw [← stops_all hfa]; exact h.quiet a x b ha) hp
      have e1 : es0 ++ e :: (a ++ [x]) = (es0 ++ e :: a) ++ [x] := by simp
      rw [e1, A_snoc]
      exact this
  refine key es [] rfl ?_
  have hf0 : AllFine cfg start (es0 ++ [e]) := by
    have : es0 ++ e :: es = (es0 ++ [e]) ++ es := by simp
    rw [this] at hf
    exact fine_prefix hf
  obtain ⟨w, hw⟩ := h.stopped
  rw [stops_all hf0] at hw
  obtain ⟨rest, hr⟩ := stop_resumed hw
  rw [← A_snoc] at hr
  exact h0 rest hr

theorem own_prefix {a b : List Event} (h : Own (a ++ b)) : Own a := fun x hx => h x (by simp [hx])

theorem own_A {cfg : Cfg} {es : List Event} (h : Own es) : OwnStack (A cfg es).stack := by
  rw [A_stack]; exact own_frames h

theorem since_into {cfg : Cfg} {es0 : List Event} {e : Event} {f : Frame} {es : List Event} (h : Since cfg es0 e f es)
    (hf : AllFine cfg start (es0 ++ e :: es)) (own : Own (es0 ++ e :: es)) (hr : e.reply.isInto = true) :
    (A cfg (es0 ++ e :: es)).cmd = e.reply ∧ (A cfg (es0 ++ e :: es)).initial = some (f.id, f.line) := by
  refine since_induct h hf (fun st => st.cmd = e.reply ∧ st.initial = some (f.id, f.line)) (fun rest hres => hres.into hr) ?_
  intro a x b hab _ hq ⟨h1, h2⟩
  have hown : OwnStack (A cfg (es0 ++ e :: a)).stack := by
    apply own_A
    have : es0 ++ e :: es = (es0 ++ e :: a) ++ x :: b := by rw [hab]; simp
    rw [this] at own
    exact own_prefix own
  have := quiet_into hq (by rw [h1]; exact hr) hown
  exact ⟨by rw [this.1, h1], by rw [this.2, h2]⟩

theorem since_over {cfg : Cfg} {es0 : List Event} {e : Event} {f : Frame} {es : List Event} (h : Since cfg es0 e f es)
    (hf : AllFine cfg start (es0 ++ e :: es)) (own : Own (es0 ++ e :: es)) (hr : e.reply.isOver = true) :
    (f.id ∈ (A cfg (es0 ++ e :: es)).stack.map (·.id) → (A cfg (es0 ++ e :: es)).cmd = e.reply ∧ (A cfg (es0 ++ e :: es)).stop = some f.id) ∧
    f.id < (A cfg (es0 ++ e :: es)).next := by
  refine since_induct h hf (fun st => (f.id ∈ st.stack.map (·.id) → st.cmd = e.reply ∧ st.stop = some f.id) ∧ f.id < st.next) ?_ ?_
  · intro rest hres
    refine ⟨fun _ => hres.over hr, ?_⟩
    have hf0 : AllFine cfg start (es0 ++ [e]) := by
      have : es0 ++ e :: es = (es0 ++ [e]) ++ es := by simp
      rw [this] at hf
      exact fine_prefix hf
    obtain ⟨m, inv⟩ := inv_all hf0
    exact inv.ids f (by rw [hres.stack]; simp)
  · intro a x b hab hfa hq ⟨h1, h2⟩
    have hown : OwnStack (A cfg (es0 ++ e :: a)).stack := by
      apply own_A
      have : es0 ++ e :: es = (es0 ++ e :: a) ++ x :: b := by rw [hab]; simp
      rw [this] at own
      exact own_prefix own
    obtain ⟨n1, n2⟩ := step_id (cfg := cfg) (e := x) h2
    refine ⟨fun hm => ?_, n1⟩
    obtain ⟨c1, c2⟩ := h1 (n2 hm)
    rcases quiet_over hq (by rw [c1]; exact hr) c2 hown with ⟨q1, q2⟩ | ⟨hx, g, back, hst, hid, _⟩
    · exact ⟨by rw [q1, c1], q2⟩
    · exfalso
      obtain ⟨m, inv⟩ := inv_all hfa
      have hu := inv.uniq
      have hp := congrArg Prod.fst (step_prog cfg (A cfg (es0 ++ e :: a)) x)
      simp only at hp
      rw [hp] at hm
      simp only [progStep, hx, hst, List.tail_cons] at hm
      rw [hst, List.map_cons, List.nodup_cons] at hu
      rw [hid] at hu
      exact hu.1 hm

theorem since_return {cfg : Cfg} {es0 : List Event} {e : Event} {f : Frame} {es : List Event} (h : Since cfg es0 e f es)
    (hf : AllFine cfg start (es0 ++ e :: es)) (hr : e.reply.isRet = true) {rest : Stack} (hst0 : frames (es0 ++ [e]) = f :: rest) {g b : Frame}
    (hl : Leaves cfg e.reply.isMy f rest g b) :
    (g.id ∈ (A cfg (es0 ++ e :: es)).stack.map (·.id) → (A cfg (es0 ++ e :: es)).cmd = e.reply ∧ (A cfg (es0 ++ e :: es)).stop = some g.id) ∧
    g.id < (A cfg (es0 ++ e :: es)).next := by
  refine since_induct h hf (fun st => (g.id ∈ st.stack.map (·.id) → st.cmd = e.reply ∧ st.stop = some g.id) ∧ g.id < st.next) ?_ ?_
  · intro rest' hres
    have heq : rest' = rest := by
      have := hres.stack
      rw [A_stack, hst0] at this
      cases this; rfl
    subst heq
    refine ⟨fun _ => hres.ret hr g b hl, ?_⟩
    have hf0 : AllFine cfg start (es0 ++ [e]) := by
      have : es0 ++ e :: es = (es0 ++ [e]) ++ es := by simp
      rw [this] at hf
      exact fine_prefix hf
    obtain ⟨m, inv⟩ := inv_all hf0
    exact inv.stopLt _ (hres.ret hr g b hl).2
  · intro a x c hab hfa hq ⟨h1, h2⟩
    obtain ⟨n1, n2⟩ := step_id (cfg := cfg) (e := x) h2
    refine ⟨fun hm => ?_, n1⟩
    obtain ⟨c1, c2⟩ := h1 (n2 hm)
    rcases quiet_return hq (by rw [c1]; exact hr) c2 with ⟨q1, q2⟩ | ⟨hx, ⟨g', back, hst, hid⟩, _⟩
    · exact ⟨by rw [q1, c1], q2⟩
    · exfalso
      obtain ⟨m, inv⟩ := inv_all hfa
      have hu := inv.uniq
      have hp := congrArg Prod.fst (step_prog cfg (A cfg (es0 ++ e :: a)) x)
      simp only at hp
      rw [hp] at hm
      simp only [progStep, hx, hst, List.tail_cons] at hm
      rw [hst, List.map_cons, List.nodup_cons] at hu
      rw [hid] at hu
      exact hu.1 hm

theorem since_run {cfg : Cfg} {es0 : List Event} {e : Event} {f : Frame} {es : List Event} (h : Since cfg es0 e f es)
    (hf : AllFine cfg start (es0 ++ e :: es)) (hp : ∀ x ∈ es, x.ev ≠ .pause) (h0 : ∀ rest, Resumed cfg (A cfg (es0 ++ [e])) f rest e.reply → (A cfg (es0 ++ [e])).cmd = .none) :
    (A cfg (es0 ++ e :: es)).cmd = .none := by
  refine since_induct h hf (fun st => st.cmd = .none) h0 ?_
  intro a x b hab _ hq h1
  exact quiet_run hq h1 (hp x (by rw [hab]; simp))

/-- the same from some later event on -/
theorem since_from {cfg : Cfg} {es0 a b : List Event} (hf : AllFine cfg start (es0 ++ (a ++ b)))
    (hq : ∀ c x d, a ++ b = c ++ x :: d → stopsAt cfg (es0 ++ c) x = none) (P : St → Prop) (h0 : P (A cfg (es0 ++ a)))
    (hs : ∀ c x d, b = c ++ x :: d → AllFine cfg start (es0 ++ (a ++ c)) → allStop cfg (A cfg (es0 ++ (a ++ c))) x = none → P (A cfg (es0 ++ (a ++ c))) →
      P (allStep cfg (A cfg (es0 ++ (a ++ c))) x).1) : P (A cfg (es0 ++ (a ++ b))) := by
  have key : ∀ d c, b = c ++ d → P (A cfg (es0 ++ (a ++ c))) → P (A cfg (es0 ++ (a ++ b))) := by
    intro d
    induction d with
    | nil => intro c hc hp; rw [hc, List.append_nil]; exact hp
    | cons x d ih =>
      intro c hc hp
      have hfa : AllFine cfg start ((es0 ++ (a ++ c)) ++ [x]) := by
        have : es0 ++ (a ++ b) = ((es0 ++ (a ++ c)) ++ [x]) ++ d := by rw [hc]; simp
        rw [this] at hf
        exact fine_prefix hf
      refine ih (c ++ [x]) (by rw [hc]; simp) ?_
      have := hs c x d hc (fine_prefix hfa) (by rw [← stops_all hfa]; exact hq (a ++ c) x d (by rw [hc]; simp)) hp
      have e1 : es0 ++ (a ++ (c ++ [x])) = (es0 ++ (a ++ c)) ++ [x] := by simp
      rw [e1, A_snoc]
      exact this
  exact key b [] rfl (by rw [List.append_nil]; exact h0)

/-- a thread that was asked to pause still is -/
theorem quiet_susp {cfg : Cfg} {st : St} {e : Event} (h : allStop cfg st e = none) (hc : st.cmd.isInto = true) (hs : st.suspended = true) (own : OwnStack st.stack) :
    (allStep cfg st e).1.suspended = true := by
  by_cases hr : e.ev = .ret
  · obtain ⟨ev, r⟩ := e
    cases hr
    cases hst : st.stack with
    | nil => rw [ret_empty hst]; exact hs
    | cons f back =>
      have hcmd := (quiet_into h hc own).1
      rw [ret_state hst] at hcmd ⊢
      rw [stop_ret hst] at h
      rcases ret_cases cfg st f back with ⟨d, h', _⟩ | ⟨h', _⟩ | ⟨h', ho⟩ | h' | ⟨b, rest, hb, h'⟩ <;> rw [h'] at h hcmd ⊢
      · exact hs
      · simp only [after, pop] at hcmd; rw [← hcmd] at hc; cases hc
      · cases hcm : st.cmd <;> rw [hcm] at ho hc <;> first | (cases ho; done) | (cases hc; done)
      · exact hs
      · rw [hb] at h; cases h
  · by_cases hp : e.ev = .pause
    · obtain ⟨ev, r⟩ := e
      cases hp
      rfl
    · rw [(quiet_state h hr hp).2.2.2, hs]

end MonStep
