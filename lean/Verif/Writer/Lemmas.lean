import Verif.Writer.Model

namespace Writer

structure Inv (s : State) : Prop where
  fifo : s.pc ≠ .stoppedError → s.sent ++ s.queue = s.accepted
  pre : s.sent <+: s.accepted
  noExit : s.pc ≠ .stoppedExit → ∀ m ∈ s.sent, m.exit = false
  lastExit : s.pc = .stoppedExit → ∃ a m, s.sent = a ++ [m] ∧ m.exit = true ∧ ∀ x ∈ a, x.exit = false
  counts : ∀ m, s.accepted.count m + s.passed.count m ≤ s.asked.count m
  seen : s.pc = .sawEmpty ∨ s.pc = .stoppedEmpty → s.sent = s.accepted.take s.seenEmptyAt
  seenLe : s.seenEmptyAt ≤ s.accepted.length

theorem inv_start : Inv start := by
  constructor <;> simp [start]

theorem inv_step {s : State} (h : Inv s) (a : Action) : Inv (step s a) := by
  obtain ⟨h1, h2, h3, h4, h5, h6, h7⟩ := h
  cases a with
  | check m =>
    simp only [step]
    split
    · refine ⟨h1, h2, h3, h4, ?_, h6, h7⟩
      intro x; have := h5 x; simp only [List.count_append]; omega
    · refine ⟨h1, h2, h3, h4, ?_, h6, h7⟩
      intro x; have := h5 x
      simp only [List.count_append, List.count_cons, List.count_nil]; omega
  | put m =>
    simp only [step]
    split
    · rename_i hm
      refine ⟨?_, ?_, h3, h4, ?_, ?_, ?_⟩
      · intro hp
        have := h1 hp
        simp only at this ⊢
        rw [← this, List.append_assoc]
      · exact List.IsPrefix.trans h2 (List.prefix_append _ _)
      · intro x
        have := h5 x
        have hpos : x = m → 0 < s.passed.count x := by
          rintro rfl; exact List.count_pos_iff.2 hm
        simp only [List.count_append, List.count_erase, List.count_cons, List.count_nil] at *
        by_cases hx : x = m
        · have := hpos hx
          subst hx
          simp only [beq_self_eq_true, if_true]
          omega
        · have : (m == x) = false := by simpa using fun e => hx e.symm
          simp_all
      · intro hp
        have := h6 hp
        simp only at this ⊢
        rw [this, List.take_append_of_le_length h7]
      · simp only [List.length_append]; omega
    · exact ⟨h1, h2, h3, h4, h5, h6, h7⟩
  | setKill => exact ⟨h1, h2, h3, h4, h5, h6, h7⟩
  | send =>
    simp only [step]
    split
    · rename_i m q hpc hq
      have hf := h1 (by rw [hpc]; decide)
      rw [hq] at hf
      refine ⟨?_, ?_, ?_, ?_, h5, ?_, h7⟩
      · intro _; simpa using hf
      · refine ⟨q, ?_⟩; simpa using hf
      · intro hp
        have h3 := h3 (by rw [hpc]; decide)
        by_cases he : m.exit
        · simp [he] at hp
        · intro x hx
          simp only [List.mem_append, List.mem_singleton] at hx
          rcases hx with hx | rfl
          · exact h3 x hx
          · simpa using he
      · intro hp
        have h3 := h3 (by rw [hpc]; decide)
        by_cases he : m.exit
        · exact ⟨s.sent, m, rfl, he, h3⟩
        · simp [he] at hp
      · intro hp
        by_cases he : m.exit <;> simp [he] at hp
    · exact ⟨h1, h2, h3, h4, h5, h6, h7⟩
  | sendFails =>
    simp only [step]
    split
    · rename_i m q hpc hq
      refine ⟨by simp, h2, fun _ => h3 (by rw [hpc]; decide), by simp, h5, by simp, h7⟩
    · exact ⟨h1, h2, h3, h4, h5, h6, h7⟩
  | getEmpty =>
    simp only [step]
    split
    · rename_i hpc hq
      have hf := h1 (by rw [hpc]; decide)
      rw [hq, List.append_nil] at hf
      refine ⟨fun _ => by simpa [hq] using hf, h2, fun _ => h3 (by rw [hpc]; decide), by simp, h5,
        ?_, by simp⟩
      intro _; simp [hf]
    · exact ⟨h1, h2, h3, h4, h5, h6, h7⟩
  | readKill =>
    simp only [step]
    split
    · rename_i hpc
      have hf := h1 (by rw [hpc]; decide)
      refine ⟨fun _ => hf, h2, fun _ => h3 (by rw [hpc]; decide), ?_, h5, ?_, h7⟩
      · intro hp; by_cases hk : s.kill <;> simp [hk] at hp
      · intro _; exact h6 (.inl hpc)
    · exact ⟨h1, h2, h3, h4, h5, h6, h7⟩

theorem inv_run {s : State} (h : Inv s) (as : List Action) : Inv (run s as) := by
  induction as generalizing s with
  | nil => exact h
  | cons a as ih => exact ih (inv_step h a)

theorem kill_step {s : State} (h : s.kill = true) (a : Action) : (step s a).kill = true := by
  cases a <;> simp only [step] <;> (try split) <;> simp_all

/-- With the flag set, what is accepted later was already past the test. -/
theorem killed_step {s : State} (h : s.kill = true) (a : Action) (m : Msg) :
    (step s a).accepted.count m + (step s a).passed.count m = s.accepted.count m + s.passed.count m := by
  cases a with
  | check x => simp [step, h]
  | put x =>
    simp only [step]
    split
    · rename_i hm
      have hpos : x = m → 0 < s.passed.count m := by
        rintro rfl; exact List.count_pos_iff.2 hm
      simp only [List.count_append, List.count_erase, List.count_cons, List.count_nil]
      by_cases hx : x = m
      · have := hpos hx
        subst hx
        simp only [beq_self_eq_true, if_true]
        omega
      · have h1 : (x == m) = false := by simpa using hx
        have h2 : (m == x) = false := by simpa using fun e => hx e.symm
        simp_all
    · rfl
  | setKill => simp [step]
  | send => simp only [step]; split <;> simp
  | sendFails => simp only [step]; split <;> simp
  | getEmpty => simp only [step]; split <;> simp
  | readKill => simp only [step]; split <;> simp

theorem killed_run {s : State} (h : s.kill = true) (as : List Action) (m : Msg) :
    (run s as).accepted.count m + (run s as).passed.count m = s.accepted.count m + s.passed.count m := by
  induction as generalizing s with
  | nil => rfl
  | cons a as ih =>
    rw [← killed_step h a m]
    exact ih (kill_step h a)

/-- The writer alone, with its turns. -/
theorem drain (s : State) (hpc : s.pc = .waiting) (pre : List Msg) (rest : List Msg)
    (hq : s.queue = pre ++ rest) (hne : ∀ m ∈ pre, m.exit = false) :
    (run s (List.replicate pre.length .send)).sent = s.sent ++ pre ∧
    (run s (List.replicate pre.length .send)).queue = rest ∧
    (run s (List.replicate pre.length .send)).pc = .waiting := by
  induction pre generalizing s with
  | nil => simp [run, hq, hpc]
  | cons m ms ih =>
    have hm : m.exit = false := hne m (by simp)
    have hs : step s .send = { s with queue := ms ++ rest, sent := s.sent ++ [m], pc := .waiting } := by
      simp only [step]
      rw [hpc, hq]
      simp [hm]
    have := ih (step s .send) (by rw [hs]) (by rw [hs]) (fun x hx => hne x (by simp [hx]))
    simp only [List.length_cons, List.replicate_succ, run, List.foldl_cons] at this ⊢
    rw [hs] at this ⊢
    simpa using this

end Writer
