import Verif.Startup.Inv
/-!
# Every step keeps the invariant
-/
namespace Startup
open Spec

theorem creating_holds {d : Nat} {p : PC} (h : creating d p = true) : holds p = true := by
  cases p <;> simp_all [creating, holds]

/-- A step of thread `t`, from where it is to `p`. -/
theorem inv_move {s s' : St} {t : Nat} {p : PC} {e : List Ev} (i : Inv s) (fl : Flags s')
    (hpc : s'.pc = upd s.pc t p)
    (hone : holds p = true → holds (s.pc t) = true ∨ ∀ t', holds (s.pc t') = false)
    (hlock : s'.user = true → ∀ t', holds (s'.pc t') = true → s'.lock = some t')
    (hside : ∀ t', Side s'.user (s'.pc t'))
    (hna : ∀ a, args p = some a → a.script = true → Launch a)
    (hat : At s' t p) (hn : s.next ≤ s'.next) (hh : s'.hist = s.hist ++ e)
    (he : ∀ d b, Ev.attempt d b ∈ e → creating d (s.pc t) = true ∧ d < s.next)
    (hr : ∀ d, d < s.next → (s'.dbg d).ready = true →
      (s.dbg d).ready = true ∨ Go s'.hist d ∨ creating d (s.pc t) = true)
    (hg : ∀ d, s'.glob = some d → creating d p = true ∨
      (s.glob = some d ∧ (creating d (s.pc t) = true → SetUp s'.hist d ∨ Failed s'.hist d)))
    (hl : ∀ d, (s'.dbg d).listener ≠ .none → (s.dbg d).listener ≠ .none ∨ d < s'.next)
    (hm : ∀ t' d a, Ev.made t' d a ∈ e → d < s'.next ∧ s'.glob = some d)
    (hk : ∀ d, s.glob = some d → s'.glob = some d ∨ Ev.disposed d ∈ s'.hist)
    (hf : AllPre Fine s'.hist) : Inv s' where
  flags := fl
  one := by
    intro t1 t2 h1 h2
    rw [hpc, upd_apply] at h1 h2
    split at h1 <;> split at h2
    · rename_i x y; rw [x, y]
    · rename_i x y
      rcases hone h1 with h | h
      · exact x.trans (i.one _ _ h h2)
      · rw [h t2] at h2; cases h2
    · rename_i x y
      rcases hone h2 with h | h
      · exact (i.one _ _ h1 h).trans y.symm
      · rw [h t1] at h1; cases h1
    · exact i.one _ _ h1 h2
  locked := hlock
  side := hside
  noAttach := by
    intro t' a h1 h2
    rw [hpc, upd_apply] at h1
    split at h1
    · exact hna a h1 h2
    · exact i.noAttach t' a h1 h2
  at_ := by
    intro t'
    rw [hpc, upd_apply]
    split
    · rename_i x; rw [x]; exact hat
    · rename_i x
      have hnot : ∀ d, creating d (s.pc t) = true → creating d (s.pc t') = false := by
        intro d h1
        cases h2 : creating d (s.pc t') with
        | false => rfl
        | true => exact absurd (i.one _ _ (creating_holds h2) (creating_holds h1)) x
      refine at_mono (i.at_ t') hn e hh ?_ ?_
      · rintro d b hb ⟨a, ha⟩
        have := hnot d (he d b hb).1
        rw [ha] at this
        simp [creating] at this
      · intro a d hp hrd
        have hc : creating d (s.pc t') = true := by
          rcases hp with hp | hp | ⟨hp, _⟩ <;> rw [hp] <;> simp [creating]
        have hdn : d < s.next := by
          have ha := i.at_ t'
          rcases hp with hp | hp | ⟨hp, _⟩ <;> rw [hp] at ha <;> exact ha.2.1
        rcases hr d hdn hrd with h | h | h
        · exact Or.inl h
        · exact Or.inr h
        · have := hnot d h
          rw [hc] at this
          cases this
  glob := by
    intro d hd
    rcases hg d hd with h | ⟨h, h'⟩
    · refine Or.inr (Or.inr ⟨t, ?_⟩)
      rw [hpc, upd_self]; exact h
    · rcases i.glob d h with h1 | h1 | ⟨t', h1⟩
      · exact Or.inl (by rw [hh]; exact setUp_mono h1 e)
      · exact Or.inr (Or.inl (by rw [hh]; exact failed_mono h1 e))
      · by_cases x : t' = t
        · subst x
          rcases h' h1 with h2 | h2
          · exact Or.inl h2
          · exact Or.inr (Or.inl h2)
        · refine Or.inr (Or.inr ⟨t', ?_⟩)
          rw [hpc, upd_other _ _ x]; exact h1
  listener := by
    intro d hd
    rcases hl d hd with h | h
    · exact Nat.lt_of_lt_of_le (i.listener d h) hn
    · exact h
  made := by
    intro t' d a h
    rw [hh] at h
    rcases List.mem_append.1 h with h | h
    · obtain ⟨h1, h2⟩ := i.made t' d a h
      refine ⟨Nat.lt_of_lt_of_le h1 hn, ?_⟩
      rcases h2 with h2 | h2
      · exact hk d h2
      · exact Or.inr (by rw [hh]; exact List.mem_append_left _ h2)
    · obtain ⟨h1, h2⟩ := hm t' d a h
      exact ⟨h1, Or.inl h2⟩
  tried := by
    intro d b h
    rw [hh] at h
    rcases List.mem_append.1 h with h | h
    · exact Nat.lt_of_lt_of_le (i.tried d b h) hn
    · exact Nat.lt_of_lt_of_le (he d b h).2 hn
  fine := hf

/-- A step which is not of a user thread, and does not change who is where. -/
theorem inv_still {s s' : St} {e : List Ev} (i : Inv s) (fl : Flags s')
    (hpc : s'.pc = s.pc) (hu : s'.user = s.user) (hlk : s'.lock = s.lock) (hgl : s'.glob = s.glob ∨ s'.glob = none)
    (hk : ∀ d, s.glob = some d → s'.glob = some d ∨ Ev.disposed d ∈ s'.hist)
    (hn : s.next = s'.next) (hh : s'.hist = s.hist ++ e)
    (he : ∀ d b, Ev.attempt d b ∉ e) (hm : ∀ t' d a, Ev.made t' d a ∉ e)
    (hr : ∀ d, (s'.dbg d).ready = true → (s.dbg d).ready = true ∨ Go s'.hist d)
    (hl : ∀ d, (s'.dbg d).listener ≠ .none → (s.dbg d).listener ≠ .none ∨ d < s'.next)
    (hf : AllPre Fine s'.hist) : Inv s' where
  flags := fl
  one := by rw [hpc]; exact i.one
  locked := by rw [hpc, hu, hlk]; exact i.locked
  side := by rw [hpc, hu]; exact i.side
  noAttach := by rw [hpc]; exact i.noAttach
  at_ := by
    intro t
    rw [hpc]
    exact at_mono (i.at_ t) (Nat.le_of_eq hn) e hh (fun d b h => absurd h (he d b)) (fun a d _ h => hr d h)
  glob := by
    intro d hd
    rcases hgl with h | h
    · rw [h] at hd
      rcases i.glob d hd with h1 | h1 | ⟨t', h1⟩
      · exact Or.inl (by rw [hh]; exact setUp_mono h1 e)
      · exact Or.inr (Or.inl (by rw [hh]; exact failed_mono h1 e))
      · exact Or.inr (Or.inr ⟨t', by rw [hpc]; exact h1⟩)
    · rw [h] at hd; cases hd
  listener := by
    intro d hd
    rcases hl d hd with h | h
    · exact hn ▸ i.listener d h
    · exact h
  made := by
    intro t' d a h
    rw [hh] at h
    rcases List.mem_append.1 h with h | h
    · obtain ⟨h1, h2⟩ := i.made t' d a h
      refine ⟨hn ▸ h1, ?_⟩
      rcases h2 with h2 | h2
      · exact hk d h2
      · exact Or.inr (by rw [hh]; exact List.mem_append_left _ h2)
    · exact absurd h (hm t' d a)
  tried := by
    intro d b h
    rw [hh] at h
    rcases List.mem_append.1 h with h | h
    · exact hn ▸ i.tried d b h
    · exact absurd h (he d b)
  fine := hf

/-! ### One after another -/

theorem side_upd {s : St} (i : Inv s) {t : Nat} {p : PC} (h : Side s.user p) :
    ∀ t', Side s.user (upd s.pc t p t') := by
  intro t'
  rw [upd_apply]
  split
  · exact h
  · exact i.side t'

/-- Going on inside the protected part. -/
theorem lock_upd {s : St} (i : Inv s) {t : Nat} {p : PC} (h : holds p = true → holds (s.pc t) = true) :
    s.user = true → ∀ t', holds (upd s.pc t p t') = true → s.lock = some t' := by
  intro hu t' ht
  rw [upd_apply] at ht
  split at ht
  · rename_i x; rw [x]; exact i.locked hu t (h ht)
  · exact i.locked hu t' ht

/-- Leaving the protected part. -/
theorem lock_free {s : St} (i : Inv s) {t : Nat} {p : PC} (hp : holds (s.pc t) = true) (h : holds p = false) :
    ∀ t', holds (upd s.pc t p t') = true → False := by
  intro t' ht
  rw [upd_apply] at ht
  split at ht
  · rw [h] at ht; cases ht
  · rename_i x; exact x (i.one _ _ ht hp)

/-- The rest of the call keeps the arguments. -/
theorem side_keep {s : St} (i : Inv s) {t : Nat} {p : PC} {a : Args} (h : args (s.pc t) = some a)
    (h' : args p = some a) (hp : inside (s.pc t) = true → inside p = true) : Side s.user p := by
  obtain ⟨h1, h2⟩ := i.side t
  refine ⟨fun hu b hb => ?_, fun hu => ?_⟩
  · rw [h'] at hb
    exact h1 hu b (h.trans hb)
  · rcases h2 hu with h3 | ⟨h3, b, h4, h5⟩
    · rw [h3] at h; cases h
    · exact Or.inr ⟨hp h3, b, by rw [h', ← h, h4], h5⟩

theorem inv_call {s : St} (i : Inv s) (t : Nat) (a : Args) : Inv (call s t a) := by
  unfold call
  split
  case isFalse => exact i
  rename_i hc
  simp only [Bool.and_eq_true, decide_eq_true_eq, Bool.not_eq_true'] at hc
  obtain ⟨⟨hu, hp⟩, hs⟩ := hc
  split
  · exact inv_still (e := [.raised t a]) i (flags_quiet i.flags rfl) rfl rfl rfl (Or.inl rfl)
      (fun d h => Or.inl h) rfl rfl (by simp) (by simp) (fun d h => Or.inl h) (fun d h => Or.inl h)
      (allPre_snoc i.fine trivial)
  · refine inv_move (t := t) (p := .want a) (e := []) i
      (flags_frame i.flags rfl rfl (Nat.le_refl _) (fun _ => rfl) (fun _ _ h => h) rfl rfl) rfl
      (by simp [holds]) (lock_upd i (by simp [holds])) (side_upd i ?_) ?_ trivial (Nat.le_refl _) (by simp)
      (by simp) (fun d _ h => Or.inl h) ?_ (fun d h => Or.inl h) (by simp) (fun d h => Or.inl h) i.fine
    · refine ⟨fun _ b h => ?_, fun h => ?_⟩
      · simp only [args, Option.some.injEq] at h; rw [← h]; exact hs
      · rw [hu] at h; cases h
    · intro b h hb
      simp only [args, Option.some.injEq] at h
      rw [h, hb] at hs; cases hs
    · intro d hd
      refine Or.inr ⟨hd, ?_⟩
      rw [hp]; simp [creating]

theorem inv_acquire {s : St} (i : Inv s) (t : Nat) : Inv (acquire s t) := by
  unfold acquire
  split
  case h_2 => exact i
  rename_i a hp
  split
  case isFalse => exact i
  rename_i hl
  have hu : s.user = true := by
    cases hu : s.user with
    | true => rfl
    | false =>
      rcases (i.side t).2 hu with h | ⟨h, _⟩
      · rw [hp] at h; cases h
      · rw [hp] at h; cases h
  have hno : ∀ t', holds (s.pc t') = false := by
    intro t'
    cases h : holds (s.pc t') with
    | false => rfl
    | true => have := i.locked hu t' h; rw [hl] at this; cases this
  refine inv_move (t := t) (p := .locked a) (e := []) i
    (flags_frame i.flags rfl rfl (Nat.le_refl _) (fun _ => rfl) (fun _ _ h => h) rfl rfl) rfl
    (fun _ => Or.inr hno) ?_ (side_upd i ?_) ?_ trivial (Nat.le_refl _) (by simp)
    (by simp) (fun d _ h => Or.inl h) ?_ (fun d h => Or.inl h) (by simp) (fun d h => Or.inl h) i.fine
  · intro _ t' h
    simp only [upd_apply] at h
    split at h
    · rename_i x; rw [x]
    · rw [hno t'] at h; cases h
  · exact side_keep i (a := a) (by rw [hp]; rfl) rfl (fun h => by rw [hp] at h; cases h)
  · intro b h
    exact i.noAttach t b (by rw [hp]; exact h)
  · intro d hd
    refine Or.inr ⟨hd, ?_⟩
    rw [hp]; simp [creating]

theorem inv_enter {s : St} (i : Inv s) (t : Nat) : Inv (enter s t) := by
  unfold enter
  split
  case h_2 => exact i
  rename_i a hp
  have hone : ∀ t', t' ≠ t → holds (s.pc t') = false := by
    intro t' x
    cases h : holds (s.pc t') with
    | false => rfl
    | true => exact absurd (i.one _ _ h (by rw [hp]; rfl)) x
  have hna : ∀ b, a = b → b.script = true → Launch b := by
    intro b hb
    exact i.noAttach t b (by rw [hp, ← hb]; rfl)
  split
  · rename_i d hd
    have hu : s.user = true := by
      cases hu : s.user with
      | true => rfl
      | false =>
        rcases (i.side t).2 hu with h | ⟨h, _⟩
        · rw [hp] at h; cases h
        · rw [hp] at h; cases h
    refine inv_move (t := t) (p := .tracing a d) (e := []) i
      (flags_frame i.flags rfl rfl (Nat.le_refl _) (fun _ => rfl) (fun _ _ h => h) rfl rfl) rfl
      (fun _ => Or.inl (by rw [hp]; rfl)) (lock_upd i (fun _ => by rw [hp]; rfl)) (side_upd i ?_) ?_ ?_
      (Nat.le_refl _) (by simp) (by simp) (fun d _ h => Or.inl h) ?_ (fun d h => Or.inl h) (by simp)
      (fun d h => Or.inl h) i.fine
    · exact side_keep i (a := a) (by rw [hp]; rfl) rfl (fun _ => rfl)
    · intro b h
      simp only [args, Option.some.injEq] at h
      exact hna b h
    · have hs : a.script = false := (i.side t).1 hu a (by rw [hp]; rfl)
      rcases i.glob d hd with h | h | ⟨t', h⟩
      · exact Or.inl ⟨h, fun x => (by rw [hs] at x; cases x)⟩
      · exact Or.inr ⟨h, hs⟩
      · by_cases x : t' = t
        · rw [x, hp] at h; cases h
        · have := hone t' x
          rw [creating_holds h] at this; cases this
    · intro d' hd'
      refine Or.inr ⟨hd', ?_⟩
      rw [hp]; simp [creating]
  · rename_i hd
    have hfl : Flags { s with
        glob := some s.next, dbg := upd s.dbg s.next {}, next := s.next + 1
        setup := some (s.setup.getD a.port)
        pc := upd s.pc t (.connecting a s.next) } := by
      refine flags_frame i.flags rfl rfl (Nat.le_succ _) ?_ ?_ rfl rfl
      · intro d
        simp only [upd_apply]
        split
        · rename_i x
          subst x
          cases h : (s.dbg s.next).configured with
          | false => rfl
          | true => exact absurd ((i.flags.configured _).1 h) (not_attached_new i.flags (Nat.le_refl _))
        · rfl
      · intro d hd h
        simp only [upd_apply]
        rw [if_neg (by omega)]
        exact h
    refine inv_move (t := t) (p := .connecting a s.next) (e := [.made t s.next a]) i
      (flags_quiet hfl rfl) rfl
      (fun _ => Or.inl (by rw [hp]; rfl)) (lock_upd i (fun _ => by rw [hp]; rfl)) (side_upd i ?_) ?_ ?_
      (Nat.le_succ _) rfl
      (by simp) ?_ ?_ ?_ ?_ ?_ (allPre_snoc i.fine ?_)
    · exact side_keep i (a := a) (by rw [hp]; rfl) rfl (fun _ => rfl)
    · intro b h
      simp only [args, Option.some.injEq] at h
      exact hna b h
    · refine ⟨by simp, Nat.lt_succ_self _, ?_, ?_⟩
      · intro b hb
        simp only [List.mem_append, List.mem_singleton, reduceCtorEq, or_false] at hb
        have := i.tried _ _ hb
        omega
      · intro h
        simp [upd_self] at h
    · intro d hdn h
      simp only [upd_apply] at h
      rw [if_neg (by omega)] at h
      exact Or.inl h
    · intro d h
      injection h with h
      exact Or.inl (by simp [creating, h])
    · intro d h
      simp only [upd_apply] at h
      split at h
      · exact absurd rfl h
      · exact Or.inl h
    · intro t' d b h
      have := List.mem_singleton.1 h
      injection this with h1 h2 h3
      subst h2
      exact ⟨Nat.lt_succ_self _, rfl⟩
    · intro d h; rw [hd] at h; cases h
    · intro t' d' a' h
      obtain ⟨h1, h2⟩ := i.made t' d' a' h
      refine ⟨?_, h1⟩
      rcases h2 with h2 | h2
      · rw [hd] at h2; cases h2
      · exact h2

theorem inv_connect {s : St} (i : Inv s) (t : Nat) (ok : Bool) : Inv (connect s t ok) := by
  unfold connect
  split
  case h_2 => exact i
  rename_i a d hp
  have hat := i.at_ t
  rw [hp] at hat
  obtain ⟨h1, h2, h3, h4⟩ := hat
  have hna : ∀ b, a = b → b.script = true → Launch b := by
    intro b hb
    exact i.noAttach t b (by rw [hp, ← hb]; rfl)
  have hkeep : Side s.user (.connected a d) := side_keep i (a := a) (by rw [hp]; rfl) rfl (fun _ => rfl)
  have hidle : Side s.user .idle := ⟨fun _ a h => by simp [args] at h, fun _ => Or.inl rfl⟩
  split
  · rename_i hb
    split
    · refine inv_move (t := t) (p := .connected a d) (e := [.attempt d true]) i
        (flags_quiet (s := { (network s d) with pc := upd s.pc t (.connected a d) })
          (flags_frame (flags_network i.flags h2) rfl rfl (Nat.le_refl _) (fun _ => rfl) (fun _ _ h => h) rfl rfl)
          rfl) rfl
        (fun _ => Or.inl (by rw [hp]; rfl)) (lock_upd i (fun _ => by rw [hp]; rfl)) (side_upd i hkeep) ?_ ?_
        (Nat.le_refl _) rfl ?_ ?_ ?_ ?_ (by simp) (fun d h => Or.inl h) (allPre_snoc i.fine h3)
      · intro b h
        simp only [args, Option.some.injEq] at h
        exact hna b h
      · refine ⟨List.mem_append_left _ h1, h2, fun _ => by simp, ?_⟩
        intro h
        simp only [network, upd_self] at h
        exact go_mono (h4 h) _
      · intro d' b' h
        have := List.mem_singleton.1 h
        injection this with x y
        subst x
        exact ⟨by rw [hp]; simp [creating], h2⟩
      · intro d' _ h
        simp only [network, upd_apply] at h
        split at h
        · rename_i x; subst x; exact Or.inl h
        · exact Or.inl h
      · intro d' hd'
        by_cases x : d = d'
        · subst x; exact Or.inl (by simp [creating])
        · refine Or.inr ⟨hd', ?_⟩
          rw [hp]; simp [creating, x]
      · intro d' h
        simp only [network, upd_apply] at h
        split at h
        · rename_i x; subst x; exact Or.inl h
        · exact Or.inl h
    · split
      · refine inv_move (t := t) (p := .idle) (e := [.attempt d false, .exited]) i ?_ rfl
          (by simp [holds]) (lock_upd i (by simp [holds])) (side_upd i hidle) (by simp [args]) trivial
          (Nat.le_refl _) rfl ?_ (fun d _ h => Or.inl h) ?_ (fun d h => Or.inl h) (by simp) (fun d h => Or.inl h) ?_
        · have f1 := flags_quiet (flags_quiet i.flags (e := .attempt d false) rfl) (e := .exited) rfl
          exact flags_frame f1 rfl rfl (Nat.le_refl _) (fun _ => rfl) (fun _ _ h => h) rfl (by simp)
        · intro d' b' h
          simp only [List.mem_cons, List.not_mem_nil, or_false, reduceCtorEq] at h
          injection h with x y
          subst x
          exact ⟨by rw [hp]; simp [creating], h2⟩
        · intro d' hd'
          refine Or.inr ⟨hd', ?_⟩
          rw [hp]
          simp only [creating, decide_eq_true_eq]
          intro x
          subst x
          exact Or.inr (by simp [Failed])
        · have := allPre_snoc (allPre_snoc i.fine (e := .attempt d false) h3) (e := .exited) trivial
          simpa using this
      · rename_i hs
        refine inv_move (t := t) (p := .idle) (e := [.attempt d false, .raised t a]) i ?_ rfl
          (by simp [holds]) ?_ (side_upd i hidle) (by simp [args]) trivial
          (Nat.le_refl _) rfl ?_ (fun d _ h => Or.inl h) ?_ (fun d h => Or.inl h) (by simp) (fun d h => Or.inl h) ?_
        · have f1 := flags_quiet (flags_quiet i.flags (e := .attempt d false) rfl) (e := .raised t a) rfl
          exact flags_frame f1 rfl rfl (Nat.le_refl _) (fun _ => rfl) (fun _ _ h => h) rfl (by simp)
        · intro _ t' ht
          exact (lock_free i (by rw [hp]; rfl) rfl t' ht).elim
        · intro d' b' h
          simp only [List.mem_cons, List.not_mem_nil, or_false, reduceCtorEq] at h
          injection h with x y
          subst x
          exact ⟨by rw [hp]; simp [creating], h2⟩
        · intro d' hd'
          refine Or.inr ⟨hd', ?_⟩
          rw [hp]
          simp only [creating, decide_eq_true_eq]
          intro x
          subst x
          exact Or.inr (by simp [Failed])
        · have := allPre_snoc (allPre_snoc i.fine (e := .attempt d false) h3) (e := .raised t a) trivial
          simpa using this
  · rename_i hb
    refine inv_move (t := t) (p := .connected a d) (e := []) i
      (flags_frame i.flags rfl rfl (Nat.le_refl _) ?_ ?_ rfl rfl) rfl
      (fun _ => Or.inl (by rw [hp]; rfl)) (lock_upd i (fun _ => by rw [hp]; rfl)) (side_upd i hkeep) ?_ ?_
      (Nat.le_refl _) (by simp) (by simp) ?_ ?_ ?_ (by simp) (fun d h => Or.inl h) i.fine
    · intro d'
      simp only [upd_apply]
      split
      · rename_i x; subst x; rfl
      · rfl
    · intro d' _ h
      simp only [upd_apply]
      split
      · rename_i x; subst x; exact h
      · exact h
    · intro b h
      simp only [args, Option.some.injEq] at h
      exact hna b h
    · refine ⟨h1, h2, fun h => absurd h hb, ?_⟩
      intro h
      simp only [upd_self] at h
      exact h4 h
    · intro d' _ h
      simp only [upd_apply] at h
      split at h
      · rename_i x; subst x; exact Or.inl h
      · exact Or.inl h
    · intro d' hd'
      by_cases x : d = d'
      · subst x; exact Or.inl (by simp [creating])
      · refine Or.inr ⟨hd', ?_⟩
        rw [hp]; simp [creating, x]
    · intro d' h
      simp only [upd_apply] at h
      split at h
      · rename_i x; subst x; exact Or.inr h2
      · exact Or.inl h

theorem inv_setReady {s : St} (i : Inv s) (t : Nat) : Inv (setReady s t) := by
  unfold setReady
  split
  case h_2 => exact i
  rename_i a d hp
  have hat := i.at_ t
  rw [hp] at hat
  obtain ⟨h1, h2, h3, h4⟩ := hat
  refine inv_move (t := t) (p := .polling a d) (e := []) i
    (flags_frame i.flags rfl rfl (Nat.le_refl _) ?_ ?_ rfl rfl) rfl
    (fun _ => Or.inl (by rw [hp]; rfl)) (lock_upd i (fun _ => by rw [hp]; rfl)) (side_upd i ?_) ?_ ?_
    (Nat.le_refl _) (by simp) (by simp) ?_ ?_ ?_ (by simp) (fun d h => Or.inl h) i.fine
  · intro d'
    dsimp only
    split
    · rfl
    · simp only [upd_apply]
      split
      · rename_i x; subst x; rfl
      · rfl
  · intro d' _ h
    dsimp only
    split
    · exact h
    · simp only [upd_apply]
      split
      · rfl
      · exact h
  · exact side_keep i (a := a) (by rw [hp]; rfl) rfl (fun _ => rfl)
  · intro b h
    exact i.noAttach t b (by rw [hp]; exact h)
  · refine ⟨h1, h2, h3, ?_⟩
    intro hw h
    rw [if_pos hw] at h
    exact h4 h
  · intro d' _ h
    dsimp only at h
    split at h
    · exact Or.inl h
    · simp only [upd_apply] at h
      split at h
      · rename_i x; subst x; exact Or.inr (Or.inr (by rw [hp]; simp [creating]))
      · exact Or.inl h
  · intro d' hd'
    by_cases x : d = d'
    · subst x; exact Or.inl (by simp [creating])
    · refine Or.inr ⟨hd', ?_⟩
      rw [hp]; simp [creating, x]
  · intro d' h
    dsimp only at h
    split at h
    · exact Or.inl h
    · simp only [upd_apply] at h
      split at h
      · rename_i x; subst x; exact Or.inl h
      · exact Or.inl h

theorem inv_poll {s : St} (i : Inv s) (t : Nat) : Inv (poll s t) := by
  unfold poll
  split
  case h_2 => exact i
  rename_i a d hp
  split
  case isFalse => exact i
  rename_i hr
  have hat := i.at_ t
  rw [hp] at hat
  obtain ⟨h1, h2, h3, h4⟩ := hat
  have hset : SetUp s.hist d := ⟨t, a, h1, h3, fun hw => h4 hw hr⟩
  have hscr : a.script = true → Ev.attempt d true ∈ s.hist ∧ Go s.hist d := by
    intro hs
    obtain ⟨_, hb, hw⟩ := i.noAttach t a (by rw [hp]; rfl) hs
    exact ⟨h3 hb, h4 hw hr⟩
  refine inv_move (t := t) (p := .tracing a d) (e := []) i
    (flags_frame i.flags rfl rfl (Nat.le_refl _) (fun _ => rfl) (fun _ _ h => h) rfl rfl) rfl
    (fun _ => Or.inl (by rw [hp]; rfl)) (lock_upd i (fun _ => by rw [hp]; rfl)) (side_upd i ?_) ?_ (Or.inl ⟨hset, hscr⟩)
    (Nat.le_refl _) (by simp) (by simp) (fun d _ h => Or.inl h) ?_ (fun d h => Or.inl h) (by simp)
    (fun d h => Or.inl h) i.fine
  · exact side_keep i (a := a) (by rw [hp]; rfl) rfl (fun _ => rfl)
  · intro b h
    exact i.noAttach t b (by rw [hp]; exact h)
  · intro d' hd'
    refine Or.inr ⟨hd', ?_⟩
    rw [hp]
    simp only [creating, decide_eq_true_eq]
    intro x
    subst x
    exact Or.inl hset

theorem inv_finish {s : St} (i : Inv s) (t : Nat) : Inv (finish s t) := by
  unfold finish
  split
  case h_2 => exact i
  rename_i a d hp
  have hat := i.at_ t
  rw [hp] at hat
  have hglob : ∀ (s' : St) (p : PC), s'.glob = s.glob → ∀ d', s'.glob = some d' → creating d' p = true ∨
      (s.glob = some d' ∧ (creating d' (s.pc t) = true → SetUp s'.hist d' ∨ Failed s'.hist d')) := by
    intro s' p hs d' hd'
    refine Or.inr ⟨hs ▸ hd', ?_⟩
    rw [hp]; simp [creating]
  have hidle : Side s.user .idle := ⟨fun _ a h => by simp [args] at h, fun _ => Or.inl rfl⟩
  have hother : ∀ t', holds (upd s.pc t .idle t') = true → False := lock_free i (by rw [hp]; rfl) rfl
  split
  · rename_i hs
    have hna : a.attach = false := (i.noAttach t a (by rw [hp]; rfl) hs).1
    refine inv_move (t := t) (p := .idle) (e := [.returned t d a]) i
      (flags_frame (flags_quiet i.flags (e := .returned t d a) rfl) rfl rfl (Nat.le_refl _) (fun _ => rfl)
        (fun _ _ h => h) rfl rfl) rfl
      (by simp [holds]) (fun _ t' h => (hother t' h).elim) ?_ (by simp [args]) trivial
      (Nat.le_refl _) rfl (by simp) (fun d _ h => Or.inl h) (hglob _ _ rfl) (fun d h => Or.inl h) (by simp)
      (fun d h => Or.inl h) (allPre_snoc i.fine ⟨fun h => (by rw [hna] at h; cases h), fun _ => hat, fun _ => hna⟩)
    intro t'
    simp only [upd_apply]
    split
    · exact ⟨fun _ a h => by simp [args] at h, fun _ => Or.inl rfl⟩
    · rename_i x
      have hno : s.user = false := by
        cases hu : s.user with
        | false => rfl
        | true =>
          have := (i.side t).1 hu a (by rw [hp]; rfl)
          rw [hs] at this; cases this
      rcases (i.side t').2 hno with h | ⟨h, _⟩
      · rw [h]; exact ⟨fun _ a h => by simp [args] at h, fun _ => Or.inl rfl⟩
      · exact absurd (i.one _ _ (show holds (s.pc t') = true by
          cases hq : s.pc t' <;> rw [hq] at h <;> simp_all [inside, holds]) (by rw [hp]; rfl)) x
  · rename_i hs
    have hs : a.script = false := by simpa using hs
    have hu : s.user = true := by
      cases hu : s.user with
      | true => rfl
      | false =>
        rcases (i.side t).2 hu with h | ⟨_, b, h, h'⟩
        · rw [hp] at h; cases h
        · rw [hp] at h
          simp only [args, Option.some.injEq] at h
          rw [← h, hs] at h'; cases h'
    split
    · refine inv_move (t := t) (p := .reread a) (e := []) i
        (flags_frame i.flags rfl rfl (Nat.le_refl _) (fun _ => rfl) (fun _ _ h => h) rfl rfl) rfl
        (by simp [holds]) ?_ (side_upd i ?_) ?_ (by assumption)
        (Nat.le_refl _) (by simp) (by simp) (fun d _ h => Or.inl h) (hglob _ _ rfl) (fun d h => Or.inl h) (by simp)
        (fun d h => Or.inl h) i.fine
      · intro _ t' h
        exact (lock_free i (by rw [hp]; rfl) rfl t' h).elim
      · refine ⟨fun _ b h => ?_, fun h => (by rw [hu] at h; cases h)⟩
        simp only [args, Option.some.injEq] at h
        rw [← h]; exact hs
      · intro b h hb
        simp only [args, Option.some.injEq] at h
        rw [← h, hs] at hb; cases hb
    · rename_i ha
      exact inv_move (t := t) (p := .idle) (e := [.returned t d a]) i
        (flags_frame (flags_quiet i.flags (e := .returned t d a) rfl) rfl rfl (Nat.le_refl _) (fun _ => rfl)
          (fun _ _ h => h) rfl rfl) rfl
        (by simp [holds]) (fun _ t' h => (hother t' h).elim) (side_upd i hidle) (by simp [args]) trivial
        (Nat.le_refl _) rfl (by simp) (fun d _ h => Or.inl h) (hglob _ _ rfl) (fun d h => Or.inl h) (by simp)
        (fun d h => Or.inl h) (allPre_snoc i.fine ⟨fun h => absurd h ha, fun _ => hat, fun _ => by simpa using ha⟩)

/-- A step of a thread outside of the protected part. -/
theorem inv_outside {s s' : St} {t : Nat} {p : PC} {e : List Ev} (i : Inv s) (fl : Flags s')
    (hq : holds (s.pc t) = false) (hp : holds p = false) (hu : s.user = true) (hu' : s'.user = s.user)
    (ha : args p = none ∨ args p = args (s.pc t)) (hl : s'.lock = s.lock) (hg : s'.glob = s.glob)
    (hd : s'.dbg = s.dbg) (hn : s'.next = s.next) (hpc : s'.pc = upd s.pc t p)
    (hh : s'.hist = s.hist ++ e) (hm : ∀ x ∈ e, (∀ t d a, x ≠ .made t d a) ∧ ∀ d b, x ≠ .attempt d b)
    (hf : AllPre Fine s'.hist) (hat : At s' t p) : Inv s' := by
  have hnc : ∀ d, creating d (s.pc t) = false := by
    intro d
    cases h : creating d (s.pc t) with
    | false => rfl
    | true => rw [creating_holds h] at hq; cases hq
  have hside : Side s.user p := by
    refine ⟨fun hu b hb => ?_, fun h => (by rw [hu] at h; cases h)⟩
    rcases ha with ha | ha
    · rw [ha] at hb; cases hb
    · exact (i.side t).1 hu b (ha ▸ hb)
  refine inv_move (t := t) (p := p) (e := e) i fl hpc (fun h => (by rw [hp] at h; cases h)) ?_ ?_ ?_ ?_
    (Nat.le_of_eq hn.symm) hh ?_ (fun d _ h => Or.inl (hd ▸ h)) ?_ (fun d h => Or.inl (hd ▸ h)) ?_
    (fun d h => Or.inl (hg ▸ h)) hf
  · rw [hu', hpc, hl]
    exact lock_upd i (fun h => (by rw [hp] at h; cases h))
  · rw [hu', hpc]; exact side_upd i hside
  · intro b h
    rcases ha with ha | ha
    · rw [ha] at h; cases h
    · exact i.noAttach t b (ha ▸ h)
  · exact hat
  · intro d b h; exact absurd rfl ((hm _ h).2 d b)
  · intro d h
    exact Or.inr ⟨hg ▸ h, fun h => (by rw [hnc d] at h; cases h)⟩
  · intro t' d b h; exact absurd rfl ((hm _ h).1 t' d b)

theorem user_of {s : St} (i : Inv s) {t : Nat} (h : s.pc t ≠ .idle) (hi : inside (s.pc t) = false) :
    s.user = true := by
  cases hu : s.user with
  | true => rfl
  | false =>
    rcases (i.side t).2 hu with h' | ⟨h', _⟩
    · exact absurd h' h
    · rw [hi] at h'; cases h'

theorem inv_reread {s : St} (i : Inv s) (t : Nat) : Inv (reread s t) := by
  unfold reread
  split
  case h_2 => exact i
  rename_i a hp
  have hu := user_of i (t := t) (by rw [hp]; simp) (by rw [hp]; rfl)
  have hat := i.at_ t
  rw [hp] at hat
  split
  · rename_i d hd
    exact inv_outside (t := t) (p := .socket a d) (e := []) i
      (flags_frame i.flags rfl rfl (Nat.le_refl _) (fun _ => rfl) (fun _ _ h => h) rfl rfl) (by rw [hp]; rfl) rfl hu rfl
      (Or.inr (by rw [hp]; rfl)) rfl rfl rfl rfl rfl (by simp) (by simp) i.fine hat
  · exact inv_outside (t := t) (p := .idle) (e := [.raised t a]) i
      (flags_frame (flags_quiet i.flags (e := .raised t a) rfl) rfl rfl (Nat.le_refl _) (fun _ => rfl)
        (fun _ _ h => h) rfl rfl) (by rw [hp]; rfl) rfl hu rfl
      (Or.inl rfl) rfl rfl rfl rfl rfl rfl (by simp) (allPre_snoc i.fine trivial) trivial

theorem inv_socketReady {s : St} (i : Inv s) (t : Nat) : Inv (socketReady s t) := by
  unfold socketReady
  split
  case h_2 => exact i
  rename_i a d hp
  have hu := user_of i (t := t) (by rw [hp]; simp) (by rw [hp]; rfl)
  have hat := i.at_ t
  rw [hp] at hat
  have hat : a.attach = true := hat
  split
  · rename_i hl
    exact inv_outside (t := t) (p := .idle) (e := [.returned t d a]) i
      (flags_frame (flags_quiet i.flags (e := .returned t d a) rfl) rfl rfl (Nat.le_refl _) (fun _ => rfl)
        (fun _ _ h => h) rfl rfl) (by rw [hp]; rfl) rfl hu rfl
      (Or.inl rfl) rfl rfl rfl rfl rfl rfl (by simp)
      (allPre_snoc i.fine ⟨fun _ => hl, fun h => (by rw [hat] at h; cases h),
        fun h => (i.noAttach t a (by rw [hp]; rfl) h).1⟩) trivial
  · exact i

theorem inv_listen {s : St} (i : Inv s) (d : Nat) (ok : Bool) : Inv (listen s d ok) := by
  unfold listen
  split
  case isFalse => exact i
  rename_i hl
  have hd : d < s.next := i.listener d (by rw [hl]; simp)
  split
  · refine inv_still (e := [.listening d]) i
      (flags_quiet (s := { s with dbg := upd s.dbg d { s.dbg d with listener := .up } })
        (flags_frame i.flags rfl rfl (Nat.le_refl _) ?_ ?_ rfl rfl) rfl) rfl rfl rfl (Or.inl rfl)
      (fun d h => Or.inl h) rfl rfl (by simp) (by simp) ?_ ?_ (allPre_snoc i.fine trivial)
    all_goals intro d'
    all_goals simp only [upd_apply]
    all_goals split
    all_goals first
      | (rename_i x; subst x; simp_all; done)
      | simp_all
  · refine inv_still (e := []) i
        (flags_frame i.flags rfl rfl (Nat.le_refl _) ?_ ?_ rfl rfl) rfl rfl rfl (Or.inl rfl)
      (fun d h => Or.inl h) rfl (by simp) (by simp) (by simp) ?_ ?_ i.fine
    all_goals intro d'
    all_goals simp only [upd_apply]
    all_goals split
    all_goals first
      | (rename_i x; subst x; simp_all; done)
      | simp_all

theorem inv_accept {s : St} (i : Inv s) (d : Nat) : Inv (accept s d) := by
  unfold accept
  split
  case isFalse => exact i
  rename_i hl
  have hd : d < s.next := i.listener d (by rw [hl]; simp)
  split
  · refine inv_still (e := [.dropped d]) i ?_ rfl rfl rfl (Or.inl rfl)
      (fun d h => Or.inl h) rfl rfl (by simp) (by simp) ?_ ?_ (allPre_snoc i.fine trivial)
    · have f := i.flags
      constructor
      · exact f.connDbg
      · intro d' c r b h
        simp only [List.mem_append, List.mem_singleton, reduceCtorEq, or_false] at h
        exact f.evDbg d' c r b h
      · intro d'
        simp only [upd_apply]
        rw [attached_snoc]
        have := f.configured d'
        split
        · rename_i x; subst x
          simp [Configures, Clears]
        · rename_i x
          have y : d ≠ d' := fun h => x h.symm
          simp [Configures, Clears, this, y]
      · intro c
        rw [launched_snoc]
        have := f.launched c
        simp [Launches, Leaves, this]
      · intro n h; exact cancelSet_mono (f.cancel n h) _
      · rintro d' ⟨c, r, hr, hm⟩
        simp only [List.mem_append, List.mem_singleton, reduceCtorEq, or_false] at hm
        have := f.ready d' ⟨c, r, hr, hm⟩
        simp only [upd_apply]
        split
        · rename_i x; subst x; exact this
        · exact this
    all_goals intro d'
    all_goals simp only [upd_apply]
    all_goals split
    all_goals first
      | (rename_i x; subst x; simp_all; done)
      | simp_all
  · refine inv_still (e := []) i
        (flags_frame i.flags rfl rfl (Nat.le_refl _) ?_ ?_ rfl rfl) rfl rfl rfl (Or.inl rfl)
      (fun d h => Or.inl h) rfl (by simp) (by simp) (by simp) ?_ ?_ i.fine
    all_goals intro d'
    all_goals simp only [upd_apply]
    all_goals split
    all_goals first
      | (rename_i x; subst x; simp_all; done)
      | simp_all

theorem inv_swap {s : St} (i : Inv s) (d : Nat) : Inv (swap s d) := by
  unfold swap
  split
  case isFalse => exact i
  rename_i hl
  have hd : d < s.next := i.listener d (by rw [hl]; simp)
  refine inv_still (e := []) i
    (flags_frame (flags_network i.flags hd) rfl rfl (Nat.le_refl _) ?_ ?_ rfl rfl) rfl rfl rfl (Or.inl rfl)
    (fun d h => Or.inl h) rfl (by simp [network]) (by simp) (by simp) ?_ ?_ (by simpa [network] using i.fine)
  all_goals intro d'
  all_goals simp only [upd_apply, network]
  all_goals split
  all_goals first
    | (rename_i x; subst x; simp_all; done)
    | simp_all

theorem inv_handle {s : St} (i : Inv s) (c : Nat) (r : Req) : Inv (handle s c r) := by
  have hfl := flags_handle i.flags c r
  unfold handle at hfl ⊢
  split
  case isFalse => exact i
  rename_i hc
  rw [if_pos hc] at hfl
  refine inv_still (e := [.handled (s.conn c).dbg c r (accepts r (s.conn c))]) i hfl rfl rfl rfl (Or.inl rfl)
    (fun d h => Or.inl h) rfl rfl (by simp) (by simp) ?_ ?_ (allPre_snoc i.fine ?_)
  · intro d' h
    simp only [upd_apply] at h
    split at h
    · rename_i x
      subst x
      cases r
      all_goals first
        | exact Or.inl h
        | exact Or.inr ⟨c, .configurationDone, Or.inl rfl, List.mem_append_right _ (List.mem_singleton.2 rfl)⟩
        | exact Or.inr ⟨c, .run, Or.inr rfl, List.mem_append_right _ (List.mem_singleton.2 rfl)⟩
    · exact Or.inl h
  · intro d' h
    simp only [upd_apply] at h
    split at h
    · rename_i x
      subst x
      left
      cases r <;> exact h
    · exact Or.inl h
  · cases r
    all_goals first
      | trivial
      | (simp only [Fine, accepts]
         have := i.flags.launched c
         rw [← this]
         simp [hc])

theorem inv_stop {s : St} (i : Inv s) (t : Nat) : Inv (stop s t) := by
  unfold stop
  split
  case isFalse => exact i
  split
  · rename_i d hd
    refine inv_still (e := [.disposed d]) i
      (flags_quiet (s := { s with glob := none, dbg := upd s.dbg d { s.dbg d with listener := .dead } })
        (flags_frame i.flags rfl rfl (Nat.le_refl _) ?_ ?_ rfl rfl) rfl) rfl rfl rfl (Or.inr rfl)
      ?_ rfl rfl (by simp) (by simp) ?_ ?_ (allPre_snoc i.fine trivial)
    case refine_3 =>
      intro d' h
      rw [hd] at h
      injection h with h
      subst h
      exact Or.inr (by simp)
    case refine_5 =>
      intro d' h
      simp only [upd_apply] at h
      split at h
      · rename_i x
        subst x
        refine Or.inr ?_
        rcases i.glob _ hd with h' | h' | ⟨t', h'⟩
        · obtain ⟨t1, a1, hm, _⟩ := h'
          exact (i.made _ _ _ hm).1
        · exact i.tried _ _ h'
        · have ha := i.at_ t'
          cases hq : s.pc t' <;> rw [hq] at h' ha <;> simp [creating] at h'
          all_goals subst h'
          all_goals exact ha.2.1
      · exact Or.inl h
    all_goals intro d'
    all_goals simp only [upd_apply]
    all_goals split
    all_goals first
      | (rename_i x; subst x; simp_all; done)
      | simp_all
  · exact i

theorem inv_waitAttach {s : St} (i : Inv s) (t : Nat) (c : Option Nat) : Inv (waitAttach s t c) := by
  unfold waitAttach
  split
  case isFalse => exact i
  rename_i hc
  simp only [Bool.and_eq_true, decide_eq_true_eq] at hc
  obtain ⟨hu, hp⟩ := hc
  split
  · exact inv_outside (t := t) (e := []) i
      (flags_frame i.flags rfl rfl (Nat.le_refl _) (fun _ => rfl) (fun _ _ h => h) rfl rfl) (by rw [hp]; rfl) rfl hu rfl
      (Or.inl rfl) rfl rfl rfl rfl rfl (by simp) (by simp) i.fine trivial
  · exact inv_still (e := [_]) i (flags_quiet i.flags rfl) rfl rfl rfl (Or.inl rfl)
      (fun d h => Or.inl h) rfl rfl (by simp) (by simp) (fun d h => Or.inl h) (fun d h => Or.inl h)
      (allPre_snoc i.fine trivial)

/-- Events about waiting for a client do not change what the flags are about. -/
theorem flags_event {s : St} (f : Flags s) {e : Ev} {k : Nat → Bool}
    (h1 : ∀ d c r b, e ≠ .handled d c r b) (h2 : ∀ d, e ≠ .dropped d)
    (hk : ∀ n, k n = true → s.cancel n = true ∨ CancelSet (s.hist ++ [e]) n) :
    Flags { s with cancel := k, hist := s.hist ++ [e] } where
  connDbg := f.connDbg
  evDbg := by
    intro d c r b h
    rcases List.mem_append.1 h with h | h
    · exact f.evDbg d c r b h
    · exact absurd (List.mem_singleton.1 h).symm (h1 d c r b)
  configured d := by
    rw [f.configured d, attached_snoc]
    simp [Configures, Clears, h1, h2]
  launched c := by
    rw [f.launched c, launched_snoc]
    simp [Launches, Leaves, h1]
  cancel n h := by
    rcases hk n h with h | h
    · exact cancelSet_mono (f.cancel n h) e
    · exact h
  ready := by
    rintro d ⟨c, r, hr, hm⟩
    rcases List.mem_append.1 hm with hm | hm
    · exact f.ready d ⟨c, r, hr, hm⟩
    · exact absurd (List.mem_singleton.1 hm).symm (h1 d c r true)

theorem inv_pollAttach {s : St} (i : Inv s) (t : Nat) : Inv (pollAttach s t) := by
  unfold pollAttach
  split
  case h_2 => exact i
  rename_i d c hp
  have hu := user_of i (t := t) (by rw [hp]; simp) (by rw [hp]; rfl)
  split
  · rename_i hs
    refine inv_outside (t := t) (p := .idle) (e := [.attached t d c]) i
      (flags_frame (flags_event i.flags (e := .attached t d c) (k := s.cancel) (by simp) (by simp)
        (fun n h => Or.inl h)) rfl rfl (Nat.le_refl _) (fun _ => rfl)
        (fun _ _ h => h) rfl rfl) (by rw [hp]; rfl) rfl hu rfl
      (Or.inl rfl) rfl rfl rfl rfl rfl rfl (by simp) (allPre_snoc i.fine ?_) trivial
    cases c with
    | none => cases hs
    | some e => exact Or.inr ⟨e, rfl, i.flags.cancel e hs⟩
  · split
    case isFalse => exact i
    rename_i hc
    refine inv_outside (t := t) (p := .idle) (e := [.attached t d c]) i
      (flags_frame (flags_event i.flags (e := .attached t d c)
        (k := setCancel s.cancel c) (by simp) (by simp)
        ?_) rfl rfl (Nat.le_refl _) (fun _ => rfl)
        (fun _ _ h => h) rfl rfl) (by rw [hp]; rfl) rfl hu rfl
      (Or.inl rfl) rfl rfl rfl rfl rfl rfl (by simp)
      (allPre_snoc i.fine (Or.inl ((i.flags.configured d).1 hc))) trivial
    intro n h
    cases c with
    | none => exact Or.inl h
    | some e =>
      simp only [setCancel, upd_apply] at h
      split at h
      · rename_i x; subst x
        exact Or.inr ((cancelSet_snoc _ _ _).2 (Or.inr (Or.inr ⟨t, d, rfl⟩)))
      · exact Or.inl h

theorem inv_cancelWait {s : St} (i : Inv s) (e : Nat) : Inv (step s (.cancelWait e)) := by
  refine inv_still (e := [.cancelled e]) i (flags_event i.flags (by simp) (by simp) ?_) rfl rfl rfl (Or.inl rfl)
      (fun d h => Or.inl h) rfl rfl (by simp) (by simp) (fun d h => Or.inl h) (fun d h => Or.inl h)
      (allPre_snoc i.fine trivial)
  intro n h
  simp only [upd_apply] at h
  split at h
  · rename_i x; subst x
    exact Or.inr ((cancelSet_snoc _ _ _).2 (Or.inr (Or.inl rfl)))
  · exact Or.inl h

theorem inv_step {s : St} (i : Inv s) (a : Act) : Inv (step s a) := by
  cases a with
  | call t a => exact inv_call i t a
  | acquire t => exact inv_acquire i t
  | enter t => exact inv_enter i t
  | connect t ok => exact inv_connect i t ok
  | setReady t => exact inv_setReady i t
  | poll t => exact inv_poll i t
  | finish t => exact inv_finish i t
  | reread t => exact inv_reread i t
  | socketReady t => exact inv_socketReady i t
  | listen d ok => exact inv_listen i d ok
  | accept d => exact inv_accept i d
  | network d => exact inv_swap i d
  | handle c r => exact inv_handle i c r
  | stop t => exact inv_stop i t
  | waitAttach t c => exact inv_waitAttach i t c
  | cancelWait e => exact inv_cancelWait i e
  | pollAttach t => exact inv_pollAttach i t

theorem inv_exec {s : St} (i : Inv s) (acts : List Act) : Inv (exec s acts) := by
  induction acts generalizing s with
  | nil => exact i
  | cons a r ih => exact ih (inv_step i a)

theorem inv_program : Inv program where
  flags := by
    constructor <;> simp [program, Attached, Launched, Go]
  one := by simp [program, holds]
  locked := by simp [program, holds]
  side := by simp [program, Side, args]
  noAttach := by simp [program, args]
  at_ := by intro t; trivial
  glob := by simp [program]
  listener := by simp [program]
  made := by simp [program]
  tried := by simp [program]
  fine := allPre_nil _

theorem inv_script (port : Nat) : Inv (script port) where
  flags := by
    constructor
    · intro c h; cases h
    · simp [script]
    · intro d
      have := attached_quiet (h := []) (e := Ev.made 0 0 (mainArgs port)) (d := d) rfl
      simp only [script]
      simp only [List.nil_append] at this
      rw [this]
      simp [Attached]
    · intro c
      have := launched_quiet (h := []) (e := Ev.made 0 0 (mainArgs port)) (c := c) rfl
      simp only [script]
      simp only [List.nil_append] at this
      rw [this]
      simp [Launched]
    · simp [script]
    · simp [script, Go]
  one := by
    intro t t' h h'
    simp only [script, upd_apply] at h h'
    split at h
    · split at h'
      · omega
      · simp [holds] at h'
    · simp [holds] at h
  locked := by simp [script]
  side := by
    intro t
    simp only [script, upd_apply]
    refine ⟨by simp, fun _ => ?_⟩
    split
    · exact Or.inr ⟨rfl, mainArgs port, rfl, rfl⟩
    · exact Or.inl rfl
  noAttach := by
    intro t a h
    simp only [script, upd_apply] at h
    split at h
    · simp only [args, Option.some.injEq] at h
      rw [← h]; simp [mainArgs, Launch]
    · simp [args] at h
  at_ := by
    intro t
    simp only [script, upd_apply]
    split
    · rename_i x; subst x
      simp [At]
    · trivial
  glob := by
    intro d h
    simp only [script, Option.some.injEq] at h
    refine Or.inr (Or.inr ⟨0, ?_⟩)
    simp [script, upd_self, creating, h]
  listener := by simp [script]
  made := by
    intro t d a h
    simp only [script, List.mem_singleton, Ev.made.injEq] at h
    simp [script, h.2.1]
  tried := by simp [script]
  fine := by
    have := allPre_snoc (allPre_nil Fine) (e := Ev.made 0 0 (mainArgs port)) (by simp [Fine])
    exact this

theorem inv_reachable {s : St} (h : Reachable s) : Inv s := by
  obtain ⟨acts, h | ⟨port, h⟩⟩ := h
  · rw [h]; exact inv_exec inv_program acts
  · rw [h]; exact inv_exec (inv_script port) acts

end Startup
