import Verif.MonStep.Spec
/-!
The events the debugger has switched on are enough: the invariant.
-/

namespace MonStep

/-- `m'` reports at least what `m` does, and the same is switched off -/
structure Le (m m' : Mon) : Prop where
  on : m'.on = m.on
  disabled : m'.disabled = m.disabled
  line : ∀ c, m.lineOn c = true → m'.lineOn c = true
  ret : ∀ c, m.retOn c = true → m'.retOn c = true

theorem Le.refl (m : Mon) : Le m m := ⟨rfl, rfl, fun _ h => h, fun _ h => h⟩

theorem Le.trans {a b c : Mon} (h1 : Le a b) (h2 : Le b c) : Le a c :=
  ⟨h2.on.trans h1.on, h2.disabled.trans h1.disabled, fun x h => h2.line x (h1.line x h), fun x h => h2.ret x (h1.ret x h)⟩

theorem le_line (m : Mon) (c : Code) : Le m (enableLine m c) :=
  ⟨rfl, rfl, fun x h => by simp [enableLine, h], fun _ h => h⟩

theorem le_ret (m : Mon) (c : Code) : Le m (enableRet m c) :=
  ⟨rfl, rfl, fun _ h => h, fun x h => by simp [enableRet, h]⟩

theorem le_step (cfg : Cfg) (st : St) (f : Frame) (back : Stack) (m : Mon) : Le m (stepTracing cfg st f back m) := by
  unfold stepTracing
  split
  · exact Le.refl m
  · exact (le_line m _).trans (le_ret _ _)
  · exact (le_line m _).trans (le_ret _ _)
  · split
    · exact le_ret m _
    · exact Le.refl m
  · split
    · exact le_ret m _
    · exact Le.refl m
  all_goals
    split
    · exact (le_line m _).trans (le_ret _ _)
    · split
      · split
        · exact le_ret m _
        · exact Le.refl m
      · exact Le.refl m

theorem le_code (cfg : Cfg) (st : St) (f : Frame) (back : Stack) (m : Mon) : Le m (codeTracing cfg st f back m) := by
  unfold codeTracing
  split
  · exact le_step cfg st f back m
  · refine Le.trans ?_ (le_step cfg st f back _)
    split
    · exact le_line m _
    · exact Le.refl m

theorem le_all (cfg : Cfg) (st : St) (s : Stack) (m : Mon) : Le m (traceAll cfg st s m) := by
  induction s generalizing m with
  | nil => exact Le.refl m
  | cons f back ih =>
    unfold traceAll
    refine Le.trans ?_ (ih _)
    split
    · exact Le.refl m
    · exact le_code cfg st f back m

/-- the events a frame needs -/
structure Needs (cfg : Cfg) (st : St) (m : Mon) (f : Frame) : Prop where
  bp : bpFound cfg f.code = true → m.lineOn f.code = true
  into : st.cmd.isInto = true → f.code.skip = false → m.lineOn f.code = true ∧ m.retOn f.code = true
  over : st.cmd.isOver = true → f.code.skip = false → st.stop = some f.id → m.lineOn f.code = true ∧ m.retOn f.code = true
  ret : st.cmd.isRet = true → f.code.skip = false → st.stop = some f.id → m.retOn f.code = true

theorem Needs.mono {cfg : Cfg} {st : St} {m m' : Mon} {f : Frame} (h : Needs cfg st m f) (l : Le m m') : Needs cfg st m' f :=
  ⟨fun a => l.line _ (h.bp a), fun a b => ⟨l.line _ (h.into a b).1, l.ret _ (h.into a b).2⟩,
    fun a b c => ⟨l.line _ (h.over a b c).1, l.ret _ (h.over a b c).2⟩, fun a b c => l.ret _ (h.ret a b c)⟩

theorem bpFound_skip {cfg : Cfg} {c : Code} (h : bpFound cfg c = true) : c.skip = false ∧ filtered cfg c = false := by
  simp only [bpFound, filtered, Bool.and_eq_true, Bool.not_eq_true', Bool.or_eq_false_iff] at h ⊢
  exact ⟨h.1.1.1, h.1⟩

theorem needs_step (cfg : Cfg) (st : St) (f : Frame) (back : Stack) (m : Mon) (hb : bpFound cfg f.code = true → m.lineOn f.code = true) :
    Needs cfg st (stepTracing cfg st f back m) f := by
  refine ⟨fun h => (le_step cfg st f back m).line _ (hb h), ?_, ?_, ?_⟩
  · intro h _
    unfold stepTracing
    cases hc : st.cmd <;> simp [hc, Cmd.isInto] at h <;> simp [enableLine, enableRet]
  · intro h _ hs
    unfold stepTracing
    cases hc : st.cmd <;> simp [hc, Cmd.isOver] at h <;> simp [enableLine, enableRet, same, hs]
  · intro h _ hs
    unfold stepTracing
    cases hc : st.cmd <;> simp [hc, Cmd.isRet] at h <;> simp [enableRet, same, hs]

theorem needs_code (cfg : Cfg) (st : St) (f : Frame) (back : Stack) (m : Mon) : Needs cfg st (codeTracing cfg st f back m) f := by
  unfold codeTracing
  split
  · rename_i h
    exact needs_step cfg st f back m (fun hb => by have := (bpFound_skip hb).2; simp [this] at h)
  · exact needs_step cfg st f back _ (fun hb => by simp [hb, enableLine])

theorem needs_skip {cfg : Cfg} {st : St} {m : Mon} {f : Frame} (h : f.code.skip = true) : Needs cfg st m f := by
  refine ⟨fun hb => ?_, fun _ hs => ?_, fun _ hs => ?_, fun _ hs => ?_⟩
  · have := (bpFound_skip hb).1; rw [h] at this; cases this
  all_goals rw [h] at hs; cases hs

theorem needs_all (cfg : Cfg) (st : St) (s : Stack) (m : Mon) : ∀ f ∈ s, Needs cfg st (traceAll cfg st s m) f := by
  induction s generalizing m with
  | nil => simp
  | cons f back ih =>
    intro g hg
    unfold traceAll
    rcases List.mem_cons.1 hg with rfl | hg
    · refine Needs.mono ?_ (le_all cfg st back _)
      split
      · rename_i h; exact needs_skip h
      · exact needs_code cfg st g back m
    · exact ih _ g hg

/-- the invariant of the debugger as it is -/
structure Inv (cfg : Cfg) (st : St) (m : Mon) : Prop where
  breaks : cfg.hasBreaks = true → m.on = true
  stepping : st.cmd ≠ .none → m.on = true
  susp : st.suspended = true → st.cmd.isInto = true
  dline : ∀ c l, m.disabled c (.line l) = true → filtered cfg c = true ∨ (bpFound cfg c = false ∧ st.cmd = .none)
  dstart : ∀ c, m.disabled c .start = true → c.skip = true ∨ (bpFound cfg c = false ∧ funcBpFound cfg c = false ∧ st.cmd = .none)
  dret : ∀ c, m.disabled c .ret = true → c.skip = true
  needs : ∀ f ∈ st.stack, Needs cfg st m f
  ids : ∀ f ∈ st.stack, f.id < st.next
  uniq : (st.stack.map (·.id)).Nodup
  stopLt : ∀ i, st.stop = some i → i < st.next
  known : ∀ f ∈ st.stack, (f.code.bps ≠ [] ∨ f.code.funcBp = true) → cfg.hasBreaks = true

theorem inv_start (cfg : Cfg) : Inv cfg start (startMon cfg) := by
  constructor <;> simp [start, startMon]

theorem returnFrom_suffix (cfg : Cfg) (my : Bool) (s : Stack) : returnFrom cfg my s <:+ s := by
  fun_induction returnFrom cfg my s with
  | case1 f b rest h ih => exact ih.trans (List.suffix_cons _ _)
  | case2 => exact List.suffix_refl _
  | case3 => exact List.suffix_refl _

theorem resume_suffix (cfg : Cfg) (st : St) (shown : Stack) (reply : Cmd) : (resume cfg st shown reply).2 <:+ shown := by
  unfold resume
  split
  · exact List.nil_suffix
  · split
    · exact List.nil_suffix
    · exact List.suffix_refl _
    · exact List.suffix_refl _
    · exact List.suffix_refl _
    · exact List.suffix_refl _
    all_goals
      split
      · rename_i h; rw [← h]; exact returnFrom_suffix _ _ _
      · exact List.nil_suffix

theorem resume_stack (cfg : Cfg) (st : St) (shown : Stack) (reply : Cmd) :
    (resume cfg st shown reply).1.stack = st.stack ∧ (resume cfg st shown reply).1.next = st.next ∧ (resume cfg st shown reply).1.suspended = false := by
  unfold resume
  split
  · exact ⟨rfl, rfl, rfl⟩
  · split
    · exact ⟨rfl, rfl, rfl⟩
    · exact ⟨rfl, rfl, rfl⟩
    · exact ⟨rfl, rfl, rfl⟩
    · exact ⟨rfl, rfl, rfl⟩
    · exact ⟨rfl, rfl, rfl⟩
    all_goals split <;> exact ⟨rfl, rfl, rfl⟩

/-- after a stop, the frames that need events are among those that are traced -/
theorem resume_traced (cfg : Cfg) (st : St) (shown : Stack) (hne : shown ≠ []) (reply : Cmd) :
    let r := resume cfg st shown reply
    (r.1.cmd.isInto = true → r.2 = shown) ∧
    (r.1.cmd.isOver = true ∨ r.1.cmd.isRet = true → ∃ f rest, r.2 = f :: rest ∧ r.1.stop = some f.id) := by
  unfold resume
  cases shown with
  | nil => exact absurd rfl hne
  | cons f back =>
    cases reply
    · simp [Cmd.isInto, Cmd.isOver, Cmd.isRet]
    · simp [Cmd.isOver, Cmd.isRet]
    · simp [Cmd.isOver, Cmd.isRet]
    · simp [Cmd.isInto]
    · simp [Cmd.isInto]
    all_goals
      simp only
      split <;> simp [Cmd.isInto, Cmd.isOver, Cmd.isRet]

theorem inj_of_nodup {l : Stack} (h : (l.map (·.id)).Nodup) {a b : Frame} (ha : a ∈ l) (hb : b ∈ l) (e : a.id = b.id) : a = b := by
  induction l with
  | nil => cases ha
  | cons x l ih =>
    simp only [List.map_cons, List.nodup_cons] at h
    rcases List.mem_cons.1 ha with ha' | ha'
    · rcases List.mem_cons.1 hb with hb' | hb'
      · rw [ha', hb']
      · exact absurd (by rw [← ha', e]; exact List.mem_map.2 ⟨b, hb', rfl⟩) h.1
    · rcases List.mem_cons.1 hb with hb' | hb'
      · exact absurd (by rw [← hb', ← e]; exact List.mem_map.2 ⟨a, ha', rfl⟩) h.1
      · exact ih h.2 ha' hb'

/-- after a stop in a state with the invariant (apart from the commands), the invariant holds, for the frames shown -/
theorem stop_needs (cfg : Cfg) (st : St) (shown : Stack) (hne : shown ≠ []) (reply : Cmd) (m : Mon)
    (hu : (shown.map (·.id)).Nodup) (hbp : ∀ f ∈ shown, bpFound cfg f.code = true → m.lineOn f.code = true) :
    ∀ f ∈ shown, Needs cfg (resume cfg st shown reply).1 (traceAll cfg (resume cfg st shown reply).1 (resume cfg st shown reply).2 m) f := by
  intro f hf
  obtain ⟨h1, h2⟩ := resume_traced cfg st shown hne reply
  have hsuf := resume_suffix cfg st shown reply
  have hall := needs_all cfg (resume cfg st shown reply).1 (resume cfg st shown reply).2 m
  refine ⟨fun h => (le_all _ _ _ m).line _ (hbp f hf h), ?_, ?_, ?_⟩
  · intro hi hs
    exact (hall f (by rw [h1 hi]; exact hf)).into hi hs
  · intro ho hs hst
    obtain ⟨g, rest, hg, hgs⟩ := h2 (Or.inl ho)
    have hgm : g ∈ shown := hsuf.subset (by rw [hg]; simp)
    have : g = f := by
      rw [hgs] at hst
      exact inj_of_nodup hu hgm hf (Option.some.inj hst)
    subst this
    exact (hall g (by rw [hg]; simp)).over ho hs hst
  · intro ho hs hst
    obtain ⟨g, rest, hg, hgs⟩ := h2 (Or.inr ho)
    have hgm : g ∈ shown := hsuf.subset (by rw [hg]; simp)
    have : g = f := by
      rw [hgs] at hst
      exact inj_of_nodup hu hgm hf (Option.some.inj hst)
    subst this
    exact (hall g (by rw [hg]; simp)).ret ho hs hst

theorem resume_stop (cfg : Cfg) (st : St) (shown : Stack) (reply : Cmd) (i : Nat) (h : (resume cfg st shown reply).1.stop = some i) :
    ∃ f ∈ shown, f.id = i := by
  unfold resume at h
  cases shown with
  | nil => simp at h
  | cons f back =>
    cases reply
    · simp at h
    · simp at h
    · simp at h
    · simp at h; exact ⟨f, by simp, h⟩
    · simp at h; exact ⟨f, by simp, h⟩
    all_goals
      simp only at h
      split at h
      · rename_i g b rest hg
        simp at h
        exact ⟨g, (returnFrom_suffix _ _ _).subset (by rw [hg]; simp), h⟩
      · simp at h

/-- stopping keeps the invariant -/
theorem inv_stop {cfg : Cfg} {st : St} {m : Mon} (inv : Inv cfg st m) {shown : Stack} (hne : shown ≠ []) (hsub : shown <:+ st.stack)
    (hon : (m.on || cfg.single) = true) (reply : Cmd) (w : Why) (hw : w = .pause → st.suspended = true) :
    Inv cfg { (resume cfg st shown reply).1 with stack := shown }
      (traceAll cfg (resume cfg st shown reply).1 (resume cfg st shown reply).2 (suspendMon cfg w m)) := by
  have hu : (shown.map (·.id)).Nodup := (List.Sublist.map _ hsub.sublist).nodup inv.uniq
  have hle := le_all cfg (resume cfg st shown reply).1 (resume cfg st shown reply).2 (suspendMon cfg w m)
  have hst := resume_stack cfg st shown reply
  have hc : w = .pause → st.cmd ≠ .none := by
    intro h h'
    have := inv.susp (hw h)
    rw [h'] at this
    cases this
  have hm : (suspendMon cfg w m).on = true ∧ (suspendMon cfg w m).lineOn = m.lineOn ∧
      (∀ c l, (suspendMon cfg w m).disabled c (.line l) = true → filtered cfg c = true) ∧
      (∀ c, (suspendMon cfg w m).disabled c .start = true → c.skip = true) ∧
      (∀ c, (suspendMon cfg w m).disabled c .ret = true → c.skip = true) := by
    unfold suspendMon
    split
    · rename_i hp
      refine ⟨inv.stepping (hc hp), rfl, ?_, ?_, inv.dret⟩
      · intro c l h
        rcases inv.dline c l h with h | h
        · exact h
        · exact absurd h.2 (hc hp)
      · intro c h
        rcases inv.dstart c h with h | h
        · exact h
        · exact absurd h.2.2 (hc hp)
    · exact ⟨hon, rfl, by simp [restart], by simp [restart], by simp [restart]⟩
  obtain ⟨hm1, hm2, hm3, hm4, hm5⟩ := hm
  have hn := stop_needs cfg st shown hne reply (suspendMon cfg w m) hu
    (fun f hf hb => by rw [hm2]; exact (inv.needs f (hsub.subset hf)).bp hb)
  refine ⟨?_, ?_, ?_, ?_, ?_, ?_, ?_, ?_, ?_, ?_, ?_⟩
  · intro _; rw [hle.on]; exact hm1
  · intro _; rw [hle.on]; exact hm1
  · intro h; simp only at h; rw [hst.2.2] at h; cases h
  · intro c l h; rw [hle.disabled] at h; exact Or.inl (hm3 c l h)
  · intro c h; rw [hle.disabled] at h; exact Or.inl (hm4 c h)
  · intro c h; rw [hle.disabled] at h; exact hm5 c h
  · intro f hf
    have := hn f hf
    exact ⟨this.bp, this.into, this.over, this.ret⟩
  · intro f hf
    simp only [hst.2.1]
    exact inv.ids f (hsub.subset hf)
  · exact hu
  · intro i hi
    obtain ⟨f, hf, rfl⟩ := resume_stop cfg st shown reply i hi
    simp only [hst.2.1]
    exact inv.ids f (hsub.subset hf)
  · exact fun f hf => inv.known f (hsub.subset hf)

/-- leaving a frame keeps the invariant -/
theorem inv_pop {cfg : Cfg} {st : St} {m : Mon} (inv : Inv cfg st m) : Inv cfg (pop st) m := by
  refine ⟨inv.breaks, inv.stepping, inv.susp, inv.dline, inv.dstart, inv.dret, ?_, ?_, ?_, inv.stopLt, ?_⟩
  · intro f hf
    have := inv.needs f (List.mem_of_mem_tail hf)
    exact ⟨this.bp, this.into, this.over, this.ret⟩
  · exact fun f hf => inv.ids f (List.mem_of_mem_tail hf)
  · exact (List.Sublist.map _ (List.tail_sublist _)).nodup inv.uniq
  · exact fun f hf => inv.known f (List.mem_of_mem_tail hf)

theorem inv_setLine {cfg : Cfg} {st : St} {m : Mon} (inv : Inv cfg st m) (l : Nat) : Inv cfg (setLine st l) m := by
  unfold setLine
  split
  · exact inv
  · rename_i f rest hs
    have hn := inv.needs
    have hi := inv.ids
    have hu := inv.uniq
    have hk := inv.known
    rw [hs] at hn hi hu hk
    refine ⟨inv.breaks, inv.stepping, inv.susp, inv.dline, inv.dstart, inv.dret, ?_, ?_, hu, inv.stopLt, ?_⟩
    · intro g hg
      rcases List.mem_cons.1 hg with rfl | hg
      · have := hn f (by simp)
        exact ⟨this.bp, this.into, this.over, this.ret⟩
      · have := hn g (by simp [hg])
        exact ⟨this.bp, this.into, this.over, this.ret⟩
    · intro g hg
      rcases List.mem_cons.1 hg with rfl | hg
      · exact hi f (by simp)
      · exact hi g (by simp [hg])
    · intro g hg
      rcases List.mem_cons.1 hg with rfl | hg
      · exact hk f (by simp)
      · exact hk g (by simp [hg])

/-- more events do no harm -/
theorem inv_le {cfg : Cfg} {st : St} {m m' : Mon} (inv : Inv cfg st m) (h : Le m m') : Inv cfg st m' := by
  refine ⟨?_, ?_, inv.susp, ?_, ?_, ?_, fun f hf => (inv.needs f hf).mono h, inv.ids, inv.uniq, inv.stopLt, inv.known⟩
  · rw [h.on]; exact inv.breaks
  · rw [h.on]; exact inv.stepping
  · rw [h.disabled]; exact inv.dline
  · rw [h.disabled]; exact inv.dstart
  · rw [h.disabled]; exact inv.dret

theorem inv_push {cfg : Cfg} {st : St} {m : Mon} (inv : Inv cfg st m) (c : Code) (hk : c.bps ≠ [] ∨ c.funcBp = true → cfg.hasBreaks = true)
    (hn : Needs cfg (push st c) m ⟨st.next, c, c.first⟩) : Inv cfg (push st c) m := by
  refine ⟨inv.breaks, inv.stepping, inv.susp, inv.dline, inv.dstart, inv.dret, ?_, ?_, ?_, ?_, ?_⟩
  · intro f hf
    rcases List.mem_cons.1 hf with rfl | hf
    · exact hn
    · have := inv.needs f hf
      exact ⟨this.bp, this.into, this.over, this.ret⟩
  · intro f hf
    simp only [push]
    rcases List.mem_cons.1 hf with rfl | hf
    · exact Nat.lt_succ_self _
    · exact Nat.lt_succ_of_lt (inv.ids f hf)
  · simp only [push, List.map_cons, List.nodup_cons]
    refine ⟨fun h => ?_, inv.uniq⟩
    obtain ⟨f, hf, he⟩ := List.mem_map.1 h
    exact absurd he (Nat.ne_of_lt (inv.ids f hf))
  · intro i hi
    exact Nat.lt_succ_of_lt (inv.stopLt i hi)
  · intro f hf
    rcases List.mem_cons.1 hf with rfl | hf
    · exact hk
    · exact inv.known f hf

end MonStep
