import Verif.Ids.Model
/-!
C33 (ids sent to the client), C34 (goto and step-in targets).
-/

namespace Ids

/-! ### C33 -/

/-- some thread has published the client id but not yet its way back -/
def Pending (s : State) (o : Id) (k : Nat) : Prop := ∃ t, s.pcs t = .half o k

structure Inv (s : State) : Prop where
  nextPos : 1 ≤ s.next
  zero : Py.Dict.get s.toObj (.num 0) = some (.num 0)
  noStar : ∀ d, Py.Dict.get s.toDap .star ≠ some d
  /-- every number of the first table is on its way back -/
  dap : ∀ o d, Py.Dict.get s.toDap o = some d → (o = .num 0 ∧ d = .num 0) ∨ d = .none ∨
    ∃ k, 1 ≤ k ∧ k < s.next ∧ d = .num k ∧ (Py.Dict.get s.toObj (.num k) = some o ∨ Pending s o k)
  obj : ∀ d o, Py.Dict.get s.toObj d = some o → d = .none ∨ d = .num 0 ∨ ∃ k, 1 ≤ k ∧ k < s.next ∧ d = .num k ∧ (o, d) ∈ s.sent
  pc : ∀ t o k, (s.pcs t = .have o k ∨ s.pcs t = .half o k) → 1 ≤ k ∧ k < s.next ∧ o ≠ .star ∧ Py.Dict.get s.toObj (.num k) = none
  miss : ∀ t o, s.pcs t = .miss o → o ≠ .star
  own : ∀ t t' o o' k, (s.pcs t = .have o k ∨ s.pcs t = .half o k) → (s.pcs t' = .have o' k ∨ s.pcs t' = .half o' k) → t = t'
  sent : ∀ o d, (o, d) ∈ s.sent → (o = .star ∧ d = .star) ∨ (o = .num 0 ∧ d = .num 0) ∨
    ∃ k, 1 ≤ k ∧ k < s.next ∧ d = .num k ∧ (Py.Dict.get s.toObj (.num k) = some o ∨ Pending s o k)

theorem inv_start : Inv {} := by
  refine ⟨by decide, by decide, ?_, ?_, ?_, ?_, ?_, ?_, ?_⟩
  · intro d; simp [Py.Dict.get]
  · intro o d h
    have := Py.Dict.mem_of_get h
    simp at this
    rcases this with ⟨rfl, rfl⟩ | ⟨rfl, rfl⟩ <;> simp
  · intro d o h
    have := Py.Dict.mem_of_get h
    simp at this
    rcases this with ⟨rfl, rfl⟩ | ⟨rfl, rfl⟩ <;> simp
  · intro t o k h; simp at h
  · intro t o h; simp at h
  · intro t t' o o' k h; simp at h
  · intro o d h; simp at h

theorem pcs_setPc (s : State) (t : Nat) (p : Pc) (u : Nat) : (setPc s t p).pcs u = if u = t then p else s.pcs u := rfl

theorem inv_step {s : State} (hi : Inv s) (a : Action) : Inv (step s a) := by
  cases a with
  | start t o =>
    unfold step
    simp only
    split
    · rename_i hidle
      split
      · refine ⟨hi.nextPos, hi.zero, hi.noStar, hi.dap, ?_, hi.pc, hi.miss, hi.own, ?_⟩
        · intro d o h
          rcases hi.obj d o h with h | h | ⟨k, h1, h2, h3, h4⟩
          · exact .inl h
          · exact .inr (.inl h)
          · exact .inr (.inr ⟨k, h1, h2, h3, List.mem_cons_of_mem _ h4⟩)
        · intro o' d' h
          simp only [List.mem_cons, Prod.mk.injEq] at h
          rcases h with ⟨rfl, rfl⟩ | h
          · left; simp
          · exact hi.sent o' d' h
      · rename_i hns
        split
        · refine ⟨hi.nextPos, hi.zero, hi.noStar, ?_, hi.obj, ?_, ?_, ?_, ?_⟩
          · intro o' d' h
            rcases hi.dap o' d' h with h | h | ⟨k, h1, h2, h3, h4⟩
            · exact .inl h
            · exact .inr (.inl h)
            · refine .inr (.inr ⟨k, h1, h2, h3, h4.imp id ?_⟩)
              rintro ⟨u, hu⟩
              refine ⟨u, ?_⟩
              rw [pcs_setPc, if_neg]
              · exact hu
              · rintro rfl; rw [hidle] at hu; cases hu
          · intro u o' k h
            rw [pcs_setPc] at h
            split at h
            · rcases h with h | h <;> cases h
            · exact hi.pc u o' k h
          · intro u o' h
            rw [pcs_setPc] at h
            split at h
            · cases h; exact hns
            · exact hi.miss u o' h
          · intro u u' o1 o2 k h h'
            rw [pcs_setPc] at h h'
            split at h
            · rcases h with h | h <;> cases h
            · split at h'
              · rcases h' with h | h <;> cases h
              · exact hi.own u u' o1 o2 k h h'
          · intro o' d' h
            rcases hi.sent o' d' h with h | h | ⟨k, h1, h2, h3, h4⟩
            · exact .inl h
            · exact .inr (.inl h)
            · refine .inr (.inr ⟨k, h1, h2, h3, h4.imp id ?_⟩)
              rintro ⟨u, hu⟩
              refine ⟨u, ?_⟩
              rw [pcs_setPc, if_neg]
              · exact hu
              · rintro rfl; rw [hidle] at hu; cases hu
        · rename_i d hd
          have hd' : ∃ d0, Py.Dict.get s.toDap o = some d0 ∧ d0 ≠ .none ∧ d0 = (Py.Dict.get s.toDap o).getD .none := by
            cases hg : Py.Dict.get s.toDap o with
            | none => rw [hg] at hd; exact absurd rfl hd
            | some d0 => exact ⟨d0, rfl, by rw [hg] at hd; exact hd, rfl⟩
          obtain ⟨d0, e1, e2, e3⟩ := hd'
          rw [← e3]
          refine ⟨hi.nextPos, hi.zero, hi.noStar, hi.dap, ?_, hi.pc, hi.miss, hi.own, ?_⟩
          · intro d o h
            rcases hi.obj d o h with h | h | ⟨k, h1, h2, h3, h4⟩
            · exact .inl h
            · exact .inr (.inl h)
            · exact .inr (.inr ⟨k, h1, h2, h3, List.mem_cons_of_mem _ h4⟩)
          · intro o' d' h
            simp only [List.mem_cons, Prod.mk.injEq] at h
            rcases h with ⟨rfl, rfl⟩ | h
            · rcases hi.dap _ _ e1 with h | h | h
              · exact .inr (.inl h)
              · exact absurd h e2
              · exact .inr (.inr h)
            · exact hi.sent o' d' h
    · exact hi
  | alloc t =>
    unfold step
    simp only
    split
    · rename_i o hpc
      have hpend : ∀ o' k, Pending s o' k → Pending (setPc { s with next := s.next + 1 } t (.have o s.next)) o' k := by
        rintro o' k ⟨u, hu⟩
        refine ⟨u, ?_⟩
        rw [pcs_setPc, if_neg]
        · exact hu
        · rintro rfl; rw [hpc] at hu; cases hu
      have hn := hi.nextPos
      have hfresh : Py.Dict.get s.toObj (.num s.next) = none := by
        cases hg : Py.Dict.get s.toObj (.num s.next) with
        | none => rfl
        | some o' =>
          rcases hi.obj _ _ hg with h | h | ⟨k, h1, h2, h3, h4⟩
          · cases h
          · injection h with h; omega
          · injection h3 with h3; omega
      refine ⟨by show 1 ≤ s.next + 1; omega, hi.zero, hi.noStar, ?_, ?_, ?_, ?_, ?_, ?_⟩
      · intro o' d' h
        rcases hi.dap o' d' h with h | h | ⟨k, h1, h2, h3, h4⟩
        · exact .inl h
        · exact .inr (.inl h)
        · exact .inr (.inr ⟨k, h1, Nat.lt_succ_of_lt h2, h3, h4.imp id (hpend _ _)⟩)
      · intro d o' h
        rcases hi.obj d o' h with h | h | ⟨k, h1, h2, h3, h4⟩
        · exact .inl h
        · exact .inr (.inl h)
        · exact .inr (.inr ⟨k, h1, Nat.lt_succ_of_lt h2, h3, h4⟩)
      · intro u o' k h
        rw [pcs_setPc] at h
        split at h
        · rcases h with h | h
          · cases h; exact ⟨hn, Nat.lt_succ_self _, hi.miss t o hpc, hfresh⟩
          · cases h
        · obtain ⟨h1, h2, h3⟩ := hi.pc u o' k h
          exact ⟨h1, Nat.lt_succ_of_lt h2, h3⟩
      · intro u o' h
        rw [pcs_setPc] at h
        split at h
        · cases h
        · exact hi.miss u o' h
      · intro u u' o1 o2 k h h'
        rw [pcs_setPc] at h h'
        split at h
        · rename_i hu
          split at h'
          · rename_i hu'; rw [hu, hu']
          · rcases h with h | h
            · cases h
              have := (hi.pc u' o2 s.next h').2.1; omega
            · cases h
        · split at h'
          · rcases h' with h' | h'
            · cases h'
              have := (hi.pc u o1 s.next h).2.1; omega
            · cases h'
          · exact hi.own u u' o1 o2 k h h'
      · intro o' d' h
        rcases hi.sent o' d' h with h | h | ⟨k, h1, h2, h3, h4⟩
        · exact .inl h
        · exact .inr (.inl h)
        · exact .inr (.inr ⟨k, h1, Nat.lt_succ_of_lt h2, h3, h4.imp id (hpend _ _)⟩)
    · exact hi
  | setDap t =>
    unfold step
    simp only
    split
    · rename_i o k hpc
      obtain ⟨p1, p2, p3, p4⟩ := hi.pc t o k (.inl hpc)
      have hpend : ∀ o' k', Pending s o' k' → Pending (setPc { s with toDap := Py.Dict.set s.toDap o (.num k) } t (.half o k)) o' k' := by
        rintro o' k' ⟨u, hu⟩
        refine ⟨u, ?_⟩
        rw [pcs_setPc, if_neg]
        · exact hu
        · rintro rfl; rw [hpc] at hu; cases hu
      refine ⟨hi.nextPos, hi.zero, ?_, ?_, hi.obj, ?_, ?_, ?_, ?_⟩
      · intro d h
        simp only [setPc, Py.Dict.get_set] at h
        rw [if_neg (Ne.symm p3)] at h
        exact hi.noStar d h
      · intro o' d' h
        simp only [setPc, Py.Dict.get_set] at h
        split at h
        · rename_i he
          cases h
          subst he
          refine .inr (.inr ⟨k, p1, p2, rfl, .inr ⟨t, ?_⟩⟩)
          rw [pcs_setPc, if_pos rfl]
        · rcases hi.dap o' d' h with h | h | ⟨k', h1, h2, h3, h4⟩
          · exact .inl h
          · exact .inr (.inl h)
          · exact .inr (.inr ⟨k', h1, h2, h3, h4.imp id (hpend _ _)⟩)
      · intro u o' k' h
        rw [pcs_setPc] at h
        split at h
        · rcases h with h | h
          · cases h
          · cases h; exact ⟨p1, p2, p3, p4⟩
        · exact hi.pc u o' k' h
      · intro u o' h
        rw [pcs_setPc] at h
        split at h
        · cases h
        · exact hi.miss u o' h
      · intro u u' o1 o2 k' h h'
        rw [pcs_setPc] at h h'
        split at h
        · rename_i hu
          split at h'
          · rename_i hu'; rw [hu, hu']
          · rcases h with h | h
            · cases h
            · cases h; rw [hu]; exact hi.own t u' o o2 k (.inl hpc) h'
        · split at h'
          · rename_i hu'
            rcases h' with h' | h'
            · cases h'
            · cases h'; rw [hu']; exact hi.own u t o1 o k h (.inl hpc)
          · exact hi.own u u' o1 o2 k' h h'
      · intro o' d' h
        rcases hi.sent o' d' h with h | h | ⟨k', h1, h2, h3, h4⟩
        · exact .inl h
        · exact .inr (.inl h)
        · exact .inr (.inr ⟨k', h1, h2, h3, h4.imp id (hpend _ _)⟩)
    · exact hi
  | setObj t =>
    unfold step
    simp only
    split
    · rename_i o k hpc
      obtain ⟨p1, p2, p3, p4⟩ := hi.pc t o k (.inr hpc)
      -- a way back that existed still exists, and a pending one is either this one or still pending
      have hback : ∀ o' k', (Py.Dict.get s.toObj (.num k') = some o' ∨ Pending s o' k') →
          (Py.Dict.get (setPc { s with toObj := Py.Dict.set s.toObj (.num k) o, sent := (o, .num k) :: s.sent } t .idle).toObj (.num k') = some o' ∨
            Pending (setPc { s with toObj := Py.Dict.set s.toObj (.num k) o, sent := (o, .num k) :: s.sent } t .idle) o' k') := by
        intro o' k' h
        simp only [setPc, Py.Dict.get_set, Id.num.injEq]
        rcases h with h | ⟨u, hu⟩
        · left
          rw [if_neg]
          · exact h
          · rintro rfl; rw [p4] at h; cases h
        · by_cases hut : u = t
          · subst hut
            rw [hpc] at hu
            cases hu
            left; simp
          · right
            exact ⟨u, by simp only [hut, if_false]; exact hu⟩
      refine ⟨hi.nextPos, ?_, hi.noStar, ?_, ?_, ?_, ?_, ?_, ?_⟩
      · simp only [setPc, Py.Dict.get_set, Id.num.injEq]
        rw [if_neg (by omega)]
        exact hi.zero
      · intro o' d' h
        rcases hi.dap o' d' h with h | h | ⟨k', h1, h2, h3, h4⟩
        · exact .inl h
        · exact .inr (.inl h)
        · exact .inr (.inr ⟨k', h1, h2, h3, hback _ _ h4⟩)
      · intro d o' h
        simp only [setPc, Py.Dict.get_set] at h
        split at h
        · rename_i he
          cases h
          exact .inr (.inr ⟨k, p1, p2, he, by rw [he]; exact List.mem_cons_self⟩)
        · rcases hi.obj d o' h with h | h | ⟨k', h1, h2, h3, h4⟩
          · exact .inl h
          · exact .inr (.inl h)
          · exact .inr (.inr ⟨k', h1, h2, h3, List.mem_cons_of_mem _ h4⟩)
      · intro u o' k' h
        rw [pcs_setPc] at h
        split at h
        · rcases h with h | h <;> cases h
        · rename_i hut
          obtain ⟨q1, q2, q3, q4⟩ := hi.pc u o' k' h
          refine ⟨q1, q2, q3, ?_⟩
          simp only [setPc, Py.Dict.get_set, Id.num.injEq]
          rw [if_neg]
          · exact q4
          · rintro rfl
            exact hut (hi.own u t o' o _ h (.inr hpc))
      · intro u o' h
        rw [pcs_setPc] at h
        split at h
        · cases h
        · exact hi.miss u o' h
      · intro u u' o1 o2 k' h h'
        rw [pcs_setPc] at h h'
        split at h
        · rcases h with h | h <;> cases h
        · split at h'
          · rcases h' with h | h <;> cases h
          · exact hi.own u u' o1 o2 k' h h'
      · intro o' d' h
        simp only [setPc, List.mem_cons, Prod.mk.injEq] at h
        rcases h with ⟨rfl, rfl⟩ | h
        · refine .inr (.inr ⟨k, p1, p2, rfl, .inl ?_⟩)
          simp only [setPc, Py.Dict.get_set, if_true]
        · rcases hi.sent o' d' h with h | h | ⟨k', h1, h2, h3, h4⟩
          · exact .inl h
          · exact .inr (.inl h)
          · exact .inr (.inr ⟨k', h1, h2, h3, hback _ _ h4⟩)
    · exact hi

theorem inv_run (as : List Action) : ∀ s, Inv s → Inv (run s as) := by
  induction as with
  | nil => intro s h; exact h
  | cons a as ih => intro s h; exact ih _ (inv_step h a)

/-- For every schedule of the threads: an id given to the client translates back to the internal id it was given for
(unless the thread that created it is between the two assignments). -/
theorem c33_translates_back (as : List Action) (o d : Id) (h : (o, d) ∈ (run {} as).sent)
    (hq : ∀ k, d = .num k → ¬Pending (run {} as) o k) : fromDap (run {} as) d = some o := by
  have hi := inv_run as _ inv_start
  unfold fromDap
  rcases hi.sent o d h with ⟨rfl, rfl⟩ | ⟨rfl, rfl⟩ | ⟨k, h1, h2, rfl, h4 | h4⟩
  · rfl
  · simp [hi.zero]
  · simp [h4]
  · exact absurd h4 (hq k rfl)

/-- For every schedule: different internal ids never get the same client id. -/
theorem c33_distinct (as : List Action) (o o' d : Id) (h : (o, d) ∈ (run {} as).sent) (h' : (o', d) ∈ (run {} as).sent) : o = o' := by
  have hi := inv_run as _ inv_start
  rcases hi.sent o d h with ⟨rfl, rfl⟩ | ⟨rfl, rfl⟩ | ⟨k, h1, h2, rfl, h4⟩
  · rcases hi.sent o' _ h' with ⟨rfl, _⟩ | ⟨_, h⟩ | ⟨k, _, _, h, _⟩
    · rfl
    · cases h
    · cases h
  · rcases hi.sent o' _ h' with ⟨_, h⟩ | ⟨rfl, _⟩ | ⟨k, h1, _, h, _⟩
    · cases h
    · rfl
    · injection h with h; omega
  · rcases hi.sent o' _ h' with ⟨_, h⟩ | ⟨_, h⟩ | ⟨k', _, _, h, h4'⟩
    · cases h
    · injection h with h; omega
    · injection h with h
      subst h
      rcases h4 with h4 | ⟨t, ht⟩
      · rcases h4' with h4' | ⟨t', ht'⟩
        · rw [h4] at h4'; injection h4'
        · have := (hi.pc t' o' k (.inr ht')).2.2.2
          rw [h4] at this; cases this
      · rcases h4' with h4' | ⟨t', ht'⟩
        · have := (hi.pc t o k (.inr ht)).2.2.2
          rw [h4'] at this; cases this
        · have := hi.own t t' o o' k (.inr ht) (.inr ht')
          subst this
          rw [ht] at ht'
          cases ht'
          rfl

/-- For every schedule: an id that is accepted from the client is one that was given for the internal id it stands for
(or the reserved `*`, 0 and `None`). -/
theorem c33_refused (as : List Action) (o d : Id) (h : fromDap (run {} as) d = some o) :
    (o, d) ∈ (run {} as).sent ∨ d = .star ∨ d = .none ∨ d = .num 0 := by
  have hi := inv_run as _ inv_start
  unfold fromDap at h
  split at h
  · rename_i hd; exact .inr (.inl hd)
  · rcases hi.obj d o h with h | h | ⟨k, _, _, _, h⟩
    · exact .inr (.inr (.inl h))
    · exact .inr (.inr (.inr h))
    · exact .inl h

/-- invariant of uninterrupted translations -/
structure Inv2 (s : State) : Prop where
  idle : s.pcs 0 = .idle
  sent : ∀ o d, (o, d) ∈ s.sent → (o = .star ∧ d = .star) ∨ (o ≠ .star ∧ Py.Dict.get s.toDap o = some d ∧ d ≠ .none)

theorem inv2_translate {s : State} (hi : Inv2 s) (o : Id) : Inv2 (translate s o) := by
  unfold translate run
  simp only [List.foldl_cons, List.foldl_nil]
  by_cases ho : o = .star
  · have h1 : step s (.start 0 o) = { s with sent := (.star, .star) :: s.sent } := by simp [step, hi.idle, ho]
    rw [h1]
    simp only [step, hi.idle]
    refine ⟨hi.idle, ?_⟩
    intro o' d' h
    simp only [List.mem_cons, Prod.mk.injEq] at h
    rcases h with ⟨rfl, rfl⟩ | h
    · left; simp
    · exact hi.sent o' d' h
  · by_cases hg : (Py.Dict.get s.toDap o).getD .none = .none
    · have h1 : step s (.start 0 o) = setPc s 0 (.miss o) := by simp [step, hi.idle, ho, hg]
      rw [h1]
      simp only [step, setPc, if_true]
      refine ⟨by simp, ?_⟩
      intro o' d' h
      simp only [List.mem_cons, Prod.mk.injEq] at h
      rcases h with ⟨rfl, rfl⟩ | h
      · right; exact ⟨ho, by rw [Py.Dict.get_set]; simp, by simp⟩
      · rcases hi.sent o' d' h with h | ⟨h1, h2, h3⟩
        · exact .inl h
        · right
          refine ⟨h1, ?_, h3⟩
          rw [Py.Dict.get_set, if_neg]
          · exact h2
          · rintro rfl
            rw [h2] at hg
            exact h3 hg
    · have hgs : ∃ d, Py.Dict.get s.toDap o = some d ∧ d ≠ .none := by
        cases hd : Py.Dict.get s.toDap o with
        | none => rw [hd] at hg; exact absurd rfl hg
        | some d => rw [hd] at hg; exact ⟨d, rfl, hg⟩
      obtain ⟨d, hd, hdn⟩ := hgs
      have h1 : step s (.start 0 o) = { s with sent := (o, d) :: s.sent } := by
        simp only [step, hi.idle, ho, if_false, hd, Option.getD_some]
      rw [h1]
      simp only [step, hi.idle]
      refine ⟨hi.idle, ?_⟩
      intro o' d' h
      simp only [List.mem_cons, Prod.mk.injEq] at h
      rcases h with ⟨rfl, rfl⟩ | h
      · exact .inr ⟨ho, hd, hdn⟩
      · exact hi.sent o' d' h

/-- Translations that do not overlap give an internal id always the same client id. -/
theorem c33_same (os : List Id) (o d d' : Id) (h : (o, d) ∈ (os.foldl translate {}).sent) (h' : (o, d') ∈ (os.foldl translate {}).sent) : d = d' := by
  have key : ∀ (os : List Id) s, Inv2 s → Inv2 (os.foldl translate s) := by
    intro os
    induction os with
    | nil => intro s h; exact h
    | cons o os ih => intro s h; exact ih _ (inv2_translate h o)
  have hi := key os {} ⟨rfl, by simp⟩
  rcases hi.sent o d h with ⟨rfl, rfl⟩ | ⟨h1, h2, _⟩
  · rcases hi.sent _ d' h' with ⟨_, rfl⟩ | ⟨h, _⟩
    · rfl
    · exact absurd rfl h
  · rcases hi.sent _ d' h' with ⟨h, _⟩ | ⟨_, h3, _⟩
    · exact absurd h h1
    · rw [h2] at h3; injection h3

def thread1 : Id := .str c!"pid_1_id_2"

/-- two threads, an id of the client used by both -/
example : ([thread1, .num 77, thread1, .none, .num 0].foldl translate {}).sent =
    [(.num 0, .num 0), (.none, .num 3), (thread1, .num 1), (.num 77, .num 2), (thread1, .num 1)] := by decide

/-- Two threads translating the same new id at the same time give it two client ids (both translate back) ... -/
theorem c33_race_two_ids :
    let s := run {} [.start 0 thread1, .start 1 thread1, .alloc 0, .alloc 1, .setDap 0, .setDap 1, .setObj 0, .setObj 1]
    s.sent = [(thread1, .num 2), (thread1, .num 1)] ∧ fromDap s (.num 1) = some thread1 ∧ fromDap s (.num 2) = some thread1 := by decide

/-- ... and an id can be sent by a thread before the thread that created it has stored the way back: the id is refused
if the client's answer is faster. -/
theorem c33_race_refused :
    let s := run {} [.start 0 thread1, .alloc 0, .setDap 0, .start 1 thread1]
    s.sent = [(thread1, .num 1)] ∧ fromDap s (.num 1) = none := by decide

/-! ### C34 -/

variable {ν : Type} [DecidableEq ν]

structure MapInv (m : IDMap ν) : Prop where
  iff : ∀ v k, Py.Dict.get m.valueToKey v = some k ↔ Py.Dict.get m.keyToValue k = some v
  lt : ∀ k v, Py.Dict.get m.keyToValue k = some v → k < m.next

theorem obtainKey_ok {m : IDMap ν} (hi : MapInv m) (v : ν) :
    MapInv (obtainKey m v).2 ∧ Py.Dict.get (obtainKey m v).2.keyToValue (obtainKey m v).1 = some v ∧
      (∀ k w, Py.Dict.get m.keyToValue k = some w → Py.Dict.get (obtainKey m v).2.keyToValue k = some w) ∧
      (∀ k w, Py.Dict.get (obtainKey m v).2.keyToValue k = some w → Py.Dict.get m.keyToValue k = some w ∨ (k, w) = ((obtainKey m v).1, v)) := by
  unfold obtainKey
  cases hg : Py.Dict.get m.valueToKey v with
  | some k => exact ⟨hi, (hi.iff v k).1 hg, fun _ _ h => h, fun _ _ h => .inl h⟩
  | none =>
    have hfresh : Py.Dict.get m.keyToValue m.next = none := by
      cases h : Py.Dict.get m.keyToValue m.next with
      | none => rfl
      | some w => have := hi.lt _ _ h; omega
    refine ⟨⟨?_, ?_⟩, ?_, ?_, ?_⟩
    · intro w k
      simp only [Py.Dict.get_set]
      by_cases h1 : w = v
      · subst h1
        by_cases h2 : k = m.next
        · simp [h2]
        · simp only [if_true, h2, if_false, Option.some.injEq]
          constructor
          · intro h; exact absurd h.symm h2
          · intro h; rw [(hi.iff w k).2 h] at hg; cases hg
      · rw [if_neg h1]
        by_cases h2 : k = m.next
        · subst h2
          simp only [if_true, Option.some.injEq]
          constructor
          · intro h; rw [(hi.iff _ _).1 h] at hfresh; cases hfresh
          · intro h; exact absurd h.symm h1
        · rw [if_neg h2]; exact hi.iff w k
    · intro k w h
      simp only [Py.Dict.get_set] at h ⊢
      split at h
      · rename_i he; rw [he]; exact Nat.lt_succ_self _
      · exact Nat.lt_succ_of_lt (hi.lt k w h)
    · simp only [Py.Dict.get_set, if_true]
    · intro k w h
      simp only [Py.Dict.get_set]
      rw [if_neg]
      · exact h
      · rintro rfl; rw [hfresh] at h; cases h
    · intro k w h
      simp only [Py.Dict.get_set] at h
      split at h
      · rename_i he; cases h; right; rw [he]
      · exact .inl h

theorem requestAll_ok (vs : List ν) : ∀ m : IDMap ν, MapInv m →
    MapInv (requestAll m vs).2 ∧ (∀ k w, Py.Dict.get m.keyToValue k = some w → Py.Dict.get (requestAll m vs).2.keyToValue k = some w) ∧
    (∀ v k, (v, k) ∈ (requestAll m vs).1 → Py.Dict.get (requestAll m vs).2.keyToValue k = some v) ∧
    (∀ k w, Py.Dict.get (requestAll m vs).2.keyToValue k = some w → Py.Dict.get m.keyToValue k = some w ∨ (w, k) ∈ (requestAll m vs).1) := by
  induction vs with
  | nil => intro m h; exact ⟨h, fun _ _ h => h, by simp [requestAll], fun _ _ h => .inl h⟩
  | cons v vs ih =>
    intro m h
    obtain ⟨h1, h2, h3, h4⟩ := obtainKey_ok h v
    obtain ⟨i1, i2, i3, i4⟩ := ih _ h1
    refine ⟨i1, fun k w hk => i2 k w (h3 k w hk), ?_, ?_⟩
    · intro w k hm
      simp only [requestAll, List.mem_cons, Prod.mk.injEq] at hm
      rcases hm with ⟨rfl, rfl⟩ | hm
      · exact i2 _ _ h2
      · exact i3 w k hm
    · intro k w hk
      rcases i4 k w hk with hk | hk
      · rcases h4 k w hk with hk | hk
        · exact .inl hk
        · cases hk; right; simp [requestAll]
      · right; simp only [requestAll, List.mem_cons]; exact .inr hk

theorem mapInv_start : MapInv (ν := ν) {} := ⟨by simp [Py.Dict.get], by simp [Py.Dict.get]⟩

/-- After any sequence of requests for goto targets, every id handed out resolves to its location; an id never handed
out is refused. -/
theorem c34_resolves (vs : List ν) (k : Nat) (v : ν) :
    obtainValue (requestAll {} vs).2 k = some v ↔ (v, k) ∈ (requestAll {} vs).1 := by
  obtain ⟨_, _, h3, h4⟩ := requestAll_ok vs {} mapInv_start
  constructor
  · intro h
    rcases h4 k v h with h | h
    · simp [Py.Dict.get] at h
    · exact h
  · exact h3 v k

/-- Equal locations get the same id and different locations different ids. -/
theorem c34_same_iff (vs : List ν) (v v' : ν) (k k' : Nat) (h : (v, k) ∈ (requestAll {} vs).1) (h' : (v', k') ∈ (requestAll {} vs).1) :
    k = k' ↔ v = v' := by
  obtain ⟨h1, _, h3, _⟩ := requestAll_ok vs {} mapInv_start
  have e1 := h3 v k h
  have e2 := h3 v' k' h'
  constructor
  · rintro rfl; rw [e1] at e2; injection e2
  · rintro rfl
    have f1 := (h1.iff v k).2 e1
    rw [(h1.iff v k').2 e2] at f1
    injection f1 with f1
    exact f1.symm

/-- one answer per request -/
theorem c34_answers (vs : List ν) : (requestAll {} vs).1.map (·.1) = vs := by
  have : ∀ (vs : List ν) m, (requestAll m vs).1.map (·.1) = vs := by
    intro vs
    induction vs with
    | nil => intro m; rfl
    | cons v vs ih => intro m; simp [requestAll, ih]
  exact this vs {}

example : (requestAll {} [(c!"a.py", 3), (c!"a.py", 4), (c!"a.py", 3)]).1 = [((c!"a.py", 3), 0), ((c!"a.py", 4), 1), ((c!"a.py", 3), 0)] := by decide

/-- The calls a user can choose from, in order: those not yet executed, with the calls inside instead of the outer
call when there are some. -/
def choices (vs : List Variant) : List Target :=
  (vs.filter (fun v => !v.visited)).flatMap fun v =>
    if v.children = [] then [⟨v.call, none⟩] else v.children.map fun c => ⟨c, some v.call⟩

/-- a table of targets numbered from 0 -/
def Numbered (acc : List (Nat × Target)) : Prop := acc.map (·.1) = List.range acc.length

theorem numbered_snoc {acc : List (Nat × Target)} (h : Numbered acc) (t : Target) : Numbered (acc ++ [(acc.length, t)]) := by
  unfold Numbered at *
  simp [List.range_succ, h]

theorem addChildren_ok (p : Call) (cs : List Call) : ∀ acc, Numbered acc →
    Numbered (addChildren p cs acc) ∧ ∃ l, l <+: cs.map (fun c => (⟨c, some p⟩ : Target)) ∧ (addChildren p cs acc).map (·.2) = acc.map (·.2) ++ l ∧
      ((addChildren p cs acc).length < 15 → l = cs.map (fun c => (⟨c, some p⟩ : Target))) := by
  induction cs with
  | nil => intro acc h; exact ⟨h, [], by simp, by simp [addChildren], by simp⟩
  | cons c cs ih =>
    intro acc h
    unfold addChildren
    simp only
    split
    · rename_i hlen
      refine ⟨numbered_snoc h _, [⟨c, some p⟩], ?_, by simp, ?_⟩
      · simp
      · intro hl; simp only [List.length_append] at hl hlen; omega
    · obtain ⟨h1, l, h2, h3, h4⟩ := ih _ (numbered_snoc h ⟨c, some p⟩)
      refine ⟨h1, ⟨c, some p⟩ :: l, ?_, ?_, ?_⟩
      · simpa using h2
      · rw [h3]; simp
      · intro hl; rw [h4 hl]; simp

theorem stepTargets_ok (vs : List Variant) : ∀ acc, Numbered acc →
    Numbered (stepTargets vs acc) ∧ ((stepTargets vs acc).length < 15 → (stepTargets vs acc).map (·.2) = acc.map (·.2) ++ choices vs) := by
  induction vs with
  | nil => intro acc h; exact ⟨h, by simp [stepTargets, choices]⟩
  | cons v vs ih =>
    intro acc h
    unfold stepTargets
    simp only
    split
    · rename_i hv
      obtain ⟨h1, h2⟩ := ih acc h
      exact ⟨h1, fun hl => by rw [h2 hl]; simp [choices, hv]⟩
    · rename_i hv
      split
      · rename_i hc
        obtain ⟨a1, l, a2, a3, a4⟩ := addChildren_ok v.call v.children acc h
        obtain ⟨h1, h2⟩ := ih _ a1
        refine ⟨h1, fun hl => ?_⟩
        have hle : (addChildren v.call v.children acc).length < 15 := by
          have := congrArg List.length (h2 hl)
          simp only [List.length_map, List.length_append] at this
          omega
        rw [h2 hl, a3, a4 hle]
        simp [choices, hv, hc]
      · rename_i hc
        simp only [ne_eq, Decidable.not_not] at hc
        split
        · rename_i hlen
          refine ⟨numbered_snoc h _, fun hl => ?_⟩
          simp only [List.length_append] at hl hlen; omega
        · obtain ⟨h1, h2⟩ := ih _ (numbered_snoc h ⟨v.call, none⟩)
          refine ⟨h1, fun hl => ?_⟩
          rw [h2 hl]
          simp [choices, hv, hc]

/-- Fewer than 15 targets: exactly the choices are listed, in order. -/
theorem c34_step_targets (vs : List Variant) (h : (stepTargets vs []).length < 15) : (stepTargets vs []).map (·.2) = choices vs := by
  have := (stepTargets_ok vs [] rfl).2 h
  simpa using this

/-- Without calls inside comprehensions, the first fifteen choices are listed. -/
theorem c34_first_fifteen (vs : List Variant) (h : ∀ v ∈ vs, v.children = []) : (stepTargets vs []).map (·.2) = (choices vs).take 15 := by
  have key : ∀ (vs : List Variant) acc, (∀ v ∈ vs, v.children = []) → acc.length < 15 →
      (stepTargets vs acc).map (·.2) = (acc.map (·.2) ++ choices vs).take 15 := by
    intro vs
    induction vs with
    | nil =>
      intro acc _ hl
      simp [stepTargets, choices, List.take_of_length_le (show (acc.map (·.2)).length ≤ 15 by simp; omega)]
    | cons v vs ih =>
      intro acc h hl
      have hc := h v (by simp)
      have ih := fun acc => ih acc fun v hv => h v (by simp [hv])
      unfold stepTargets
      by_cases hv : v.visited = true
      · rw [if_pos hv, ih acc hl]
        simp [choices, hv]
      · rw [if_neg hv, if_neg (by simp [hc])]
        have hch : choices (v :: vs) = ⟨v.call, none⟩ :: choices vs := by simp [choices, hv, hc]
        simp only
        split
        · rename_i hlen
          simp only [List.length_append, List.length_cons, List.length_nil] at hlen
          rw [hch, List.take_append, List.take_of_length_le (by simp; omega)]
          have : 15 - (acc.map (·.2)).length = 1 := by simp; omega
          rw [this]; simp
        · rename_i hlen
          rw [ih _ (by omega), hch]; simp
  simpa using key vs [] h (by simp)

/-- In any case the listed ids are different and each steps into the call it was listed for. -/
theorem c34_step_into (vs : List Variant) (i : Nat) (hi : i < (stepTargets vs []).length) :
    (stepTargets vs [])[i].1 = i ∧ stepInto (stepTargets vs []) i = match (stepTargets vs [])[i].2 with
      | ⟨c, some p⟩ => some (p.offset, some c.offset)
      | ⟨c, none⟩ => some (c.offset, none) := by
  have hn := (stepTargets_ok vs [] rfl).1
  unfold Numbered at hn
  generalize stepTargets vs [] = l at hi hn ⊢
  have h1 : l[i].1 = i := by
    have : (l.map (·.1))[i]'(by simpa using hi) = (List.range l.length)[i]'(by simpa using hi) := by simp only [hn]
    simpa using this
  refine ⟨h1, ?_⟩
  have hok : Py.Dict.Ok l := by unfold Py.Dict.Ok; rw [hn]; exact List.nodup_range
  have hg : Py.Dict.get l i = some l[i].2 := by
    apply Py.Dict.get_of_mem hok
    have : (i, l[i].2) = l[i] := by rw [Prod.ext_iff]; exact ⟨h1.symm, rfl⟩
    rw [this]; exact List.getElem_mem hi
  unfold stepInto
  rw [hg]
  simp only
  cases h2 : l[i].2 with
  | mk c p => cases p <;> simp

/-- an id that was not listed is refused -/
theorem c34_step_unknown (vs : List Variant) (i : Nat) (hi : (stepTargets vs []).length ≤ i) : stepInto (stepTargets vs []) i = none := by
  have hn := (stepTargets_ok vs [] rfl).1
  unfold Numbered at hn
  have : Py.Dict.get (stepTargets vs []) i = none := by
    rw [Py.Dict.get_none_iff, hn, List.mem_range]; omega
  simp [stepInto, this]

def f1 : Call := { name := c!"f", offset := 10 }
def g1 : Call := { name := c!"g", offset := 20 }
def genexpr : Call := { name := c!"<genexpr>", offset := 30 }
example : stepTargets [{ call := f1, visited := true }, { call := g1 }, { call := genexpr, children := [f1, g1] }] [] =
    [(0, ⟨g1, none⟩), (1, ⟨f1, some genexpr⟩), (2, ⟨g1, some genexpr⟩)] := by decide

/-- The limit of 15 is not kept by calls inside comprehensions: the loop over the outer calls goes on. -/
theorem c34_limit_exceeded :
    (stepTargets [{ call := genexpr, children := List.replicate 15 f1 }, { call := genexpr, children := [g1] }, { call := genexpr, children := [g1] }] []).length = 17 := by
  decide

end Ids
