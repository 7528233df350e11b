import Verif.Timeout.Model
/-! Invariant of the timeout tracker. -/

namespace Timeout

/-- The handle the pass is working on. -/
def Pc.cur : Pc → List Handle
  | .next => []
  | .dispTest h | .readKw h | .readCb h _ | .test h _ _ | .setDisp h _ _ | .clearKw h _ _
  | .clearCb h _ _ | .call h _ _ => [h]

/-- The pass has decided to call the handle (it passed the test of `disposed`). -/
def Pc.committed : Pc → List Handle
  | .setDisp h _ _ | .clearKw h _ _ | .clearCb h _ _ | .call h _ _ => [h]
  | _ => []

/-- Everything the tracker still holds. -/
def held (s : State) : List Handle :=
  match s.pass with
  | none => s.handles
  | some p => p.todo ++ p.pc.cur ++ p.kept

/-- Facts about the pass in progress. -/
def PassOk (s : State) (p : Pass) : Prop :=
  s.handles = [] ∧
  (∀ h ∈ p.kept, p.cur < s.due h) ∧
  (match p.min with
    | none => p.kept = []
    | some m => (∃ h ∈ p.kept, m = s.due h) ∧ ∀ h ∈ p.kept, m ≤ s.due h) ∧
  (match p.pc with
    | .next => True
    | .dispTest h => p.cur < s.due h
    | .readKw h => s.due h ≤ p.cur ∨ s.disposed h = true
    | .readCb h k => (s.due h ≤ p.cur ∨ s.disposed h = true) ∧ (k = false → s.disposed h = true)
    | .test h k c => (s.due h ≤ p.cur ∨ s.disposed h = true) ∧ ((k && c) = false → s.disposed h = true)
    | .setDisp h k c => s.due h ≤ p.cur ∧ k = true ∧ c = true
    | .clearKw h k c | .clearCb h k c | .call h k c =>
      s.due h ≤ p.cur ∧ k = true ∧ c = true ∧ s.disposed h = true)

structure Inv (s : State) : Prop where
  nodup : (held s ++ s.calls.map (·.handle)).Nodup
  reg : ∀ h, (h ∈ held s ∨ h ∈ s.calls.map (·.handle)) → s.registered h = true
  unreg : ∀ h, s.registered h = false → s.disposed h = false
  exitd : ∀ h, 0 < s.exit h → s.disposed h = true
  kwd : ∀ h, (s.kw h = false ∨ s.cb h = false) → s.disposed h = true
  called : ∀ c ∈ s.calls, s.due c.handle ≤ c.cur ∧ c.kw = true ∧ c.cb = true
  pass : ∀ p, s.pass = some p → PassOk s p
  lost : ∀ h, s.registered h = true → s.exit h = 0 → h ∈ held s ∨ h ∈ s.calls.map (·.handle)
  disp : ∀ h, s.disposed h = true → s.exit h = 0 →
    h ∈ s.calls.map (·.handle) ∨ ∃ p, s.pass = some p ∧ h ∈ p.pc.committed
  waitOk : s.pass = none → ∀ h ∈ s.handles, s.event = true ∨ ∃ d, s.wait = some d ∧ d ≤ s.due h - s.lastCur
  waitPos : ∀ d, s.wait = some d → 0 < d

theorem inv_start : Inv start := by
  constructor <;> simp [start, held]

theorem upd_same {α : Type} (f : Handle → α) (h : Handle) (v : α) : upd f h v h = v := by simp [upd]
theorem upd_ne {α : Type} (f : Handle → α) (h k : Handle) (v : α) (hk : k ≠ h) : upd f h v k = f k := by
  simp [upd, hk]

theorem upd_true_mono {f : Handle → Bool} {h k : Handle} (hf : f k = true) : upd f h true k = true := by
  unfold upd; split <;> simp_all

theorem inv_register {s : State} (hi : Inv s) (h : Handle) (now timeout : Int) :
    Inv (step s (.register h now timeout)) := by
  simp only [step]
  split
  · rename_i hc
    simp only [Bool.and_eq_true, Option.isNone_iff_eq_none, Bool.not_eq_true'] at hc
    obtain ⟨hp, hr⟩ := hc
    have hheld : held s = s.handles := by simp [held, hp]
    have hfresh : h ∉ held s ∧ h ∉ s.calls.map (·.handle) := by
      constructor
      · intro hm; have := hi.reg h (.inl hm); rw [hr] at this; cases this
      · intro hm; have := hi.reg h (.inr hm); rw [hr] at this; cases this
    have hnd := hi.nodup
    rw [hheld] at hfresh hnd
    constructor
    · simp only [held, hp]
      rw [List.append_assoc]
      have : (s.handles ++ ([h] ++ s.calls.map (·.handle))).Perm (h :: (s.handles ++ s.calls.map (·.handle))) := by
        simpa using List.perm_middle
      rw [this.nodup_iff, List.nodup_cons]
      exact ⟨by simpa using hfresh, hnd⟩
    · intro k hk
      by_cases hkh : k = h
      · subst hkh; exact upd_same ..
      · simp only [upd_ne _ _ _ _ hkh]
        apply hi.reg k
        simp only [held, hp, List.mem_append, List.mem_singleton, hkh, or_false] at hk ⊢
        exact hk
    · intro k hk
      by_cases hkh : k = h
      · subst hkh; simp [upd_same] at hk
      · simp only [upd_ne _ _ _ _ hkh] at hk; exact hi.unreg k hk
    · exact hi.exitd
    · exact hi.kwd
    · intro c hc
      have : c.handle ≠ h := by
        intro e; exact hfresh.2 (by rw [← e]; exact List.mem_map_of_mem hc)
      simp only [upd_ne _ _ _ _ this]
      exact hi.called c hc
    · intro p hp'; simp only at hp'; rw [hp] at hp'; cases hp'
    · intro k hk he
      simp only [held, hp]
      by_cases hkh : k = h
      · left; simp [hkh]
      · simp only [upd_ne _ _ _ _ hkh] at hk
        have := hi.lost k hk he
        rw [hheld] at this
        simp only [List.mem_append, List.mem_singleton]
        rcases this with h | h <;> simp [h]
    · exact hi.disp
    · intro _ k hk; left; rfl
    · exact hi.waitPos
  · exact hi

theorem inv_exit {s : State} (hi : Inv s) (h : Handle) : Inv (step s (.exit h)) := by
  simp only [step]
  split
  · rename_i hr
    split
    · -- disposed := True
      rename_i h0
      constructor
      · exact hi.nodup
      · exact hi.reg
      · intro k hk
        have : k ≠ h := by rintro rfl; rw [hr] at hk; cases hk
        simp only [upd_ne _ _ _ _ this]; exact hi.unreg k hk
      · intro k hk
        by_cases hkh : k = h
        · subst hkh; exact upd_same ..
        · simp only [upd_ne _ _ _ _ hkh] at hk ⊢; exact hi.exitd k hk
      · intro k hk; exact upd_true_mono (hi.kwd k hk)
      · exact hi.called
      · intro p hp
        obtain ⟨a, b, c, d⟩ := hi.pass p hp
        refine ⟨a, b, c, ?_⟩
        have hm : ∀ k, s.disposed k = true → upd s.disposed h true k = true := fun k => upd_true_mono
        cases hpc : p.pc <;> simp only [hpc] at d ⊢ <;> grind
      · intro k hk he
        by_cases hkh : k = h
        · subst hkh; simp [upd_same] at he
        · simp only [upd_ne _ _ _ _ hkh] at he; exact hi.lost k hk he
      · intro k hk he
        by_cases hkh : k = h
        · subst hkh; simp [upd_same] at he
        · simp only [upd_ne _ _ _ _ hkh] at he hk; exact hi.disp k hk he
      · exact hi.waitOk
      · exact hi.waitPos
    · -- kwargs := None
      rename_i h1
      have hd : s.disposed h = true := hi.exitd h (by omega)
      have he2 : ∀ k, upd s.exit h 2 k = 0 → s.exit k = 0 := by
        intro k; unfold upd; split <;> simp
      refine ⟨hi.nodup, hi.reg, hi.unreg, ?_, ?_, hi.called, hi.pass,
        fun k a b => hi.lost k a (he2 k b), fun k a b => hi.disp k a (he2 k b), hi.waitOk, hi.waitPos⟩
      · intro k hk
        by_cases hkh : k = h
        · subst hkh; exact hd
        · simp only [upd_ne _ _ _ _ hkh] at hk; exact hi.exitd k hk
      · intro k hk
        by_cases hkh : k = h
        · subst hkh; exact hd
        · simp only [upd_ne _ _ _ _ hkh] at hk; exact hi.kwd k hk
    · -- on_timeout := None
      rename_i h1
      have hd : s.disposed h = true := hi.exitd h (by omega)
      have he2 : ∀ k, upd s.exit h 3 k = 0 → s.exit k = 0 := by
        intro k; unfold upd; split <;> simp
      refine ⟨hi.nodup, hi.reg, hi.unreg, ?_, ?_, hi.called, hi.pass,
        fun k a b => hi.lost k a (he2 k b), fun k a b => hi.disp k a (he2 k b), hi.waitOk, hi.waitPos⟩
      · intro k hk
        by_cases hkh : k = h
        · subst hkh; exact hd
        · simp only [upd_ne _ _ _ _ hkh] at hk; exact hi.exitd k hk
      · intro k hk
        by_cases hkh : k = h
        · subst hkh; exact hd
        · simp only [upd_ne _ _ _ _ hkh] at hk; exact hi.kwd k hk
    · exact hi
  · exact hi

theorem inv_begin {s : State} (hi : Inv s) (cur : Int) : Inv (step s (.begin cur)) := by
  simp only [step]
  split
  · exact hi
  · rename_i hp
    have hheld : held s = s.handles := by simp [held, hp]
    have hnd := hi.nodup
    have hreg := hi.reg
    have hlost := hi.lost
    have hdisp := hi.disp
    rw [hheld] at hnd
    simp only [hheld] at hreg hlost
    constructor
    · simpa [held, Pc.cur] using hnd
    · simpa [held, Pc.cur] using hreg
    · exact hi.unreg
    · exact hi.exitd
    · exact hi.kwd
    · exact hi.called
    · intro p hp'
      simp only [Option.some.injEq] at hp'
      subst hp'
      simp [PassOk]
    · simpa [held, Pc.cur] using hlost
    · intro k hk he
      have := hdisp k hk he
      simp only [hp] at this
      rcases this with h | ⟨_, h, _⟩
      · exact .inl h
      · cases h
    · simp
    · exact hi.waitPos

theorem newMin_ok {due : Handle → Int} {kept : List Handle} {m : Option Int} {h : Handle}
    (hm : match m with
      | none => kept = []
      | some m => (∃ h ∈ kept, m = due h) ∧ ∀ h ∈ kept, m ≤ due h) :
    match newMin m (due h) with
      | none => kept ++ [h] = []
      | some m => (∃ k ∈ kept ++ [h], m = due k) ∧ ∀ k ∈ kept ++ [h], m ≤ due k := by
  unfold newMin
  cases m with
  | none => simp only at hm; subst hm; simp
  | some x =>
    simp only at hm
    obtain ⟨⟨k, hk, hx⟩, hall⟩ := hm
    by_cases hlt : due h < x
    · simp only [hlt, if_true]
      refine ⟨⟨h, by simp, rfl⟩, ?_⟩
      intro j hj
      simp only [List.mem_append, List.mem_singleton] at hj
      rcases hj with hj | rfl
      · have := hall j hj; omega
      · omega
    · simp only [hlt, if_false]
      refine ⟨⟨k, by simp [hk], hx⟩, ?_⟩
      intro j hj
      simp only [List.mem_append, List.mem_singleton] at hj
      rcases hj with hj | rfl
      · exact hall j hj
      · omega

theorem inv_tick {s : State} (hi : Inv s) : Inv (step s .tick) := by
  cases hp : s.pass with
  | none => simpa only [step, hp] using hi
  | some p =>
  simp only [step, hp]
  obtain ⟨h1, h2, h3, h4⟩ := hi.pass p hp
  have hheld : held s = p.todo ++ p.pc.cur ++ p.kept := by simp [held, hp]
  have hnd := hi.nodup
  have hreg := hi.reg
  have hlost := hi.lost
  have hdisp := hi.disp
  simp only [hheld] at hnd hreg hlost
  simp only [hp, Option.some.injEq, exists_eq_left'] at hdisp
  unfold tick
  split <;> rename_i hpc <;> simp only [hpc, Pc.cur, Pc.committed] at h4 hnd hreg hlost hdisp
  · -- next
    split
    · rename_i htodo
      simp only [htodo, List.nil_append, List.append_nil] at hnd hreg hlost
      simp only [List.not_mem_nil, or_false] at hdisp
      refine ⟨by simpa [held] using hnd, by simpa [held] using hreg, hi.unreg, hi.exitd, hi.kwd, hi.called,
        by simp, by simpa [held] using hlost, fun k a b => .inl (hdisp k a b), ?_, ?_⟩
      · intro _ k hk
        right
        cases hm : p.min with
        | none => rw [hm] at h3; simp only at h3 hk; rw [h3] at hk; cases hk
        | some m =>
          rw [hm] at h3
          simp only at h3 hk
          have := h3.2 k hk
          exact ⟨m - p.cur, by simp, by simp only; omega⟩
      · intro d hd
        cases hm : p.min with
        | none => simp [hm] at hd
        | some m =>
          rw [hm] at h3
          simp only [hm, Option.map_some, Option.some.injEq] at hd
          obtain ⟨⟨k, hk, hmk⟩, _⟩ := h3
          have := h2 k hk
          omega
    · rename_i h todo htodo
      simp only [htodo] at hnd hreg hlost
      have hcur : (if p.cur < s.due h then Pc.dispTest h else Pc.readKw h).cur = [h] := by
        split <;> rfl
      have hcom : (if p.cur < s.due h then Pc.dispTest h else Pc.readKw h).committed = [] := by
        split <;> rfl
      refine ⟨?_, ?_, hi.unreg, hi.exitd, hi.kwd, hi.called, ?_, ?_, ?_, by simp, hi.waitPos⟩
      · simp only [held, hcur]
        refine List.Perm.nodup ?_ hnd
        apply List.Perm.append_right
        apply List.Perm.append_right
        simpa using (List.perm_middle (l₁ := todo) (l₂ := []) (a := h)).symm
      · intro k hk
        apply hreg k
        simp only [held, hcur] at hk
        simp only [List.append_nil, List.mem_append, List.mem_cons, List.not_mem_nil, or_false] at hk ⊢
        grind
      · intro q hq
        simp only [Option.some.injEq] at hq
        subst hq
        refine ⟨h1, h2, h3, ?_⟩
        by_cases hlt : p.cur < s.due h
        · simp only [hlt, if_true]
        · simp only [hlt, if_false]; left; omega
      · intro k hk he
        have := hlost k hk he
        simp only [held, hcur]
        simp only [List.append_nil, List.mem_append, List.mem_cons, List.not_mem_nil, or_false] at this ⊢
        grind
      · intro k hk he
        simp only [Option.some.injEq, exists_eq_left', hcom]
        exact hdisp k hk he
  · -- dispTest
    rename_i h
    split
    · rename_i hd
      refine ⟨by simpa [held, Pc.cur] using hnd, by simpa [held, Pc.cur] using hreg, hi.unreg, hi.exitd,
        hi.kwd, hi.called, ?_, by simpa [held, Pc.cur] using hlost,
        by simpa [Pc.committed] using hdisp, by simp, hi.waitPos⟩
      intro q hq
      simp only [Option.some.injEq] at hq
      subst hq
      exact ⟨h1, h2, h3, .inr hd⟩
    · rename_i hd
      refine ⟨?_, ?_, hi.unreg, hi.exitd, hi.kwd, hi.called, ?_, ?_, by simpa [Pc.committed] using hdisp,
        by simp, hi.waitPos⟩
      · simp only [held, Pc.cur]
        refine List.Perm.nodup ?_ hnd
        apply List.Perm.append_right
        rw [List.append_assoc, List.append_assoc]
        apply List.Perm.append_left
        simpa using (List.perm_middle (l₁ := p.kept) (l₂ := []) (a := h)).symm
      · intro k hk
        apply hreg k
        simp only [held, Pc.cur] at hk
        simp only [List.append_nil, List.mem_append, List.mem_cons, List.not_mem_nil, or_false] at hk ⊢
        grind
      · intro q hq
        simp only [Option.some.injEq] at hq
        subst hq
        refine ⟨h1, ?_, newMin_ok h3, trivial⟩
        intro k hk
        simp only [List.mem_append, List.mem_singleton] at hk
        rcases hk with hk | rfl
        · exact h2 k hk
        · exact h4
      · intro k hk he
        have := hlost k hk he
        simp only [held, Pc.cur]
        simp only [List.append_nil, List.mem_append, List.mem_cons, List.not_mem_nil, or_false] at this ⊢
        grind
  · -- readKw
    rename_i h
    refine ⟨by simpa [held, Pc.cur] using hnd, by simpa [held, Pc.cur] using hreg, hi.unreg, hi.exitd,
      hi.kwd, hi.called, ?_, by simpa [held, Pc.cur] using hlost,
      by simpa [Pc.committed] using hdisp, by simp, hi.waitPos⟩
    intro q hq
    simp only [Option.some.injEq] at hq
    subst hq
    exact ⟨h1, h2, h3, h4, fun hk => hi.kwd h (.inl hk)⟩
  · -- readCb
    rename_i h k
    refine ⟨by simpa [held, Pc.cur] using hnd, by simpa [held, Pc.cur] using hreg, hi.unreg, hi.exitd,
      hi.kwd, hi.called, ?_, by simpa [held, Pc.cur] using hlost,
      by simpa [Pc.committed] using hdisp, by simp, hi.waitPos⟩
    intro q hq
    simp only [Option.some.injEq] at hq
    subst hq
    refine ⟨h1, h2, h3, h4.1, fun hk => ?_⟩
    simp only [Bool.and_eq_false_iff] at hk
    rcases hk with hk | hk
    · exact h4.2 hk
    · exact hi.kwd h (.inr hk)
  · -- test
    rename_i h k c
    split
    · rename_i hd
      have hnd' := hnd
      refine ⟨?_, ?_, hi.unreg, hi.exitd, hi.kwd, hi.called, ?_, ?_, by simpa [Pc.committed] using hdisp,
        by simp, hi.waitPos⟩
      · simp only [held, Pc.cur]
        refine List.Nodup.sublist ?_ hnd
        simp
      · intro j hj
        apply hreg j
        simp only [held, Pc.cur] at hj
        simp only [List.append_nil, List.mem_append, List.mem_cons, List.not_mem_nil, or_false] at hj ⊢
        grind
      · intro q hq
        simp only [Option.some.injEq] at hq
        subst hq
        exact ⟨h1, h2, h3, trivial⟩
      · intro j hj he
        have hl := hlost j hj he
        simp only [held, Pc.cur]
        simp only [List.append_nil, List.mem_append, List.mem_cons, List.not_mem_nil, or_false] at hl ⊢
        by_cases hjh : j = h
        · subst hjh
          have := hdisp j hd he
          simp only [List.not_mem_nil, or_false] at this
          exact .inr this
        · grind
    · rename_i hd
      simp only [Bool.not_eq_true] at hd
      refine ⟨by simpa [held, Pc.cur] using hnd, by simpa [held, Pc.cur] using hreg, hi.unreg, hi.exitd,
        hi.kwd, hi.called, ?_, by simpa [held, Pc.cur] using hlost, ?_, by simp, hi.waitPos⟩
      · intro q hq
        simp only [Option.some.injEq] at hq
        subst hq
        refine ⟨h1, h2, h3, ?_, ?_⟩
        · rcases h4.1 with h | h
          · exact h
          · rw [hd] at h; cases h
        · have := h4.2
          cases k <;> cases c <;> simp_all
      · intro j hj he
        have := hdisp j hj he
        simp only [List.not_mem_nil, or_false] at this
        exact .inl this
  · -- setDisp
    rename_i h k c
    have hr : s.registered h = true := hreg h (by simp)
    refine ⟨by simpa [held, Pc.cur] using hnd, by simpa [held, Pc.cur] using hreg, ?_, ?_, ?_, hi.called,
      ?_, by simpa [held, Pc.cur] using hlost, ?_, by simp, hi.waitPos⟩
    · intro j hj
      have : j ≠ h := by rintro rfl; rw [hr] at hj; cases hj
      simp only [upd_ne _ _ _ _ this]; exact hi.unreg j hj
    · intro j hj; exact upd_true_mono (hi.exitd j hj)
    · intro j hj; exact upd_true_mono (hi.kwd j hj)
    · intro q hq
      simp only [Option.some.injEq] at hq
      subst hq
      exact ⟨h1, h2, h3, h4.1, h4.2.1, h4.2.2, upd_same ..⟩
    · intro j hj he
      simp only [Option.some.injEq, exists_eq_left', Pc.committed, List.mem_singleton]
      by_cases hjh : j = h
      · exact .inr hjh
      · simp only [upd_ne _ _ _ _ hjh] at hj
        have := hdisp j hj he
        simpa using this
  · -- clearKw
    rename_i h k c
    refine ⟨by simpa [held, Pc.cur] using hnd, by simpa [held, Pc.cur] using hreg, hi.unreg, hi.exitd,
      ?_, hi.called, ?_, by simpa [held, Pc.cur] using hlost, by simpa [Pc.committed] using hdisp,
      by simp, hi.waitPos⟩
    · intro j hj
      by_cases hjh : j = h
      · subst hjh; exact h4.2.2.2
      · simp only [upd_ne _ _ _ _ hjh] at hj; exact hi.kwd j hj
    · intro q hq
      simp only [Option.some.injEq] at hq
      subst hq
      exact ⟨h1, h2, h3, h4⟩
  · -- clearCb
    rename_i h k c
    refine ⟨by simpa [held, Pc.cur] using hnd, by simpa [held, Pc.cur] using hreg, hi.unreg, hi.exitd,
      ?_, hi.called, ?_, by simpa [held, Pc.cur] using hlost, by simpa [Pc.committed] using hdisp,
      by simp, hi.waitPos⟩
    · intro j hj
      by_cases hjh : j = h
      · subst hjh; exact h4.2.2.2
      · simp only [upd_ne _ _ _ _ hjh] at hj; exact hi.kwd j hj
    · intro q hq
      simp only [Option.some.injEq] at hq
      subst hq
      exact ⟨h1, h2, h3, h4⟩
  · -- call
    rename_i h k c
    refine ⟨?_, ?_, hi.unreg, hi.exitd, hi.kwd, ?_, ?_, ?_, ?_, by simp, hi.waitPos⟩
    · simp only [held, Pc.cur, List.map_append, List.map_cons, List.map_nil, List.append_nil]
      refine List.Perm.nodup ?_ hnd
      simp only [List.append_assoc]
      apply List.Perm.append_left
      have e : ([h] ++ (p.kept ++ s.calls.map (·.handle))).Perm ((p.kept ++ s.calls.map (·.handle)) ++ [h]) :=
        List.perm_append_comm
      simpa using e
    · intro j hj
      apply hreg j
      simp only [held, Pc.cur] at hj
      simp only [List.map_append, List.map_cons, List.map_nil, List.append_nil, List.mem_append, List.mem_cons,
        List.not_mem_nil, or_false] at hj ⊢
      grind
    · intro d hd
      simp only [List.mem_append, List.mem_singleton] at hd
      rcases hd with hd | rfl
      · exact hi.called d hd
      · exact ⟨h4.1, h4.2.1, h4.2.2.1⟩
    · intro q hq
      simp only [Option.some.injEq] at hq
      subst hq
      exact ⟨h1, h2, h3, trivial⟩
    · intro j hj he
      have hl := hlost j hj he
      simp only [held, Pc.cur]
      simp only [List.map_append, List.map_cons, List.map_nil, List.append_nil, List.mem_append, List.mem_cons,
        List.not_mem_nil, or_false] at hl ⊢
      grind
    · intro j hj he
      left
      have := hdisp j hj he
      simp only [List.map_append, List.map_cons, List.map_nil, List.mem_append, List.mem_cons,
        List.not_mem_nil, or_false] at this ⊢
      exact this

theorem inv_step {s : State} (hi : Inv s) (a : Action) : Inv (step s a) := by
  cases a with
  | register h n t => exact inv_register hi h n t
  | exit h => exact inv_exit hi h
  | begin c => exact inv_begin hi c
  | tick => exact inv_tick hi

theorem inv_run {s : State} (hi : Inv s) (as : List Action) : Inv (run s as) := by
  induction as generalizing s with
  | nil => exact hi
  | cons a as ih => exact ih (inv_step hi a)

end Timeout
