import Verif.AnyThread.Model
/-! Property C06: a command for any thread runs at most once. -/

namespace AnyThread

/-- Inside the `with` block. -/
def inLock : Pc → Bool
  | .locked | .losing | .setting | .leaving => true
  | _ => false

/-- Won, and did not run the command yet. -/
def won : Pc → Bool
  | .leaving | .running => true
  | _ => false

structure Inv (s : State) : Prop where
  owner : ∀ t, inLock (s.pc t) = true ↔ s.owner = some t
  fresh : s.executed = false → s.runs = [] ∧ ∀ t, won (s.pc t) = false ∧ s.pc t ≠ .done ∧ s.pc t ≠ .losing
  old : s.executed = true → (∀ t, s.pc t ≠ .setting) ∧
    ((s.runs = [] ∧ ∃ w, won (s.pc w) = true ∧ ∀ t, won (s.pc t) = true → t = w) ∨
     ((∃ w, s.runs = [w]) ∧ ∀ t, won (s.pc t) = false))

theorem inv_step {s : State} (h : Inv s) (t : Nat) : Inv (step s t) := by
  obtain ⟨h1, h2, h3⟩ := h
  have huniq : ∀ u v, inLock (s.pc u) = true → inLock (s.pc v) = true → u = v := by
    intro u v hu hv
    have a := (h1 u).1 hu
    have b := (h1 v).1 hv
    rw [a] at b; exact Option.some.inj b
  have hown := h1 t
  unfold step
  split <;> rename_i hpc
  · -- idle
    split
    · rename_i ho
      refine ⟨?_, ?_, ?_⟩
      · intro u
        by_cases hu : u = t
        · simp [setPc, hu, inLock]
        · have := h1 u
          simp only [setPc, hu, if_false]
          rw [this, ho]
          simp [Ne.symm hu]
      · intro he
        refine ⟨(h2 he).1, fun u => ?_⟩
        by_cases hu : u = t
        · simp [setPc, hu, won]
        · simpa [setPc, hu] using (h2 he).2 u
      · intro he
        obtain ⟨a, b⟩ := h3 he
        refine ⟨fun u => ?_, ?_⟩
        · by_cases hu : u = t
          · simp [setPc, hu]
          · simpa [setPc, hu] using a u
        · have hw : ∀ u, won (setPc s t .locked u) = won (s.pc u) := by
            intro u
            by_cases hu : u = t
            · simp [setPc, hu, won, hpc]
            · simp [setPc, hu]
          simp only [hw]
          exact b
    · exact ⟨h1, h2, h3⟩
  · -- locked
    refine ⟨?_, ?_, ?_⟩
    · intro u
      by_cases hu : u = t
      · subst hu
        have := h1 u
        rw [hpc] at this
        rw [← this]
        by_cases he : s.executed <;> simp [setPc, inLock, he]
      · simpa [setPc, hu] using h1 u
    · intro he
      simp only at he
      refine ⟨(h2 he).1, fun u => ?_⟩
      by_cases hu : u = t
      · simp [setPc, hu, won, he]
      · simpa [setPc, hu] using (h2 he).2 u
    · intro he
      simp only at he
      obtain ⟨a, b⟩ := h3 he
      refine ⟨fun u => ?_, ?_⟩
      · by_cases hu : u = t
        · simp [setPc, hu, he]
        · simpa [setPc, hu] using a u
      · have hw : ∀ u, won (setPc s t (if s.executed then .losing else .setting) u) = won (s.pc u) := by
          intro u
          by_cases hu : u = t
          · simp [setPc, hu, won, hpc, he]
          · simp [setPc, hu]
        simp only [hw]
        exact b
  · -- losing
    have he : s.executed = true := by
      cases h : s.executed with
      | true => rfl
      | false => exact absurd hpc ((h2 h).2 t).2.2
    refine ⟨?_, ?_, ?_⟩
    · intro u
      by_cases hu : u = t
      · simp [setPc, hu, inLock]
      · simp only [setPc, hu, if_false]
        constructor
        · intro h
          exact absurd (huniq u t h (by simp [hpc, inLock])) hu
        · intro h; cases h
    · intro h; simp [he] at h
    · intro _
      obtain ⟨a, b⟩ := h3 he
      refine ⟨fun u => ?_, ?_⟩
      · by_cases hu : u = t
        · simp [setPc, hu]
        · simpa [setPc, hu] using a u
      · have hw : ∀ u, won (setPc s t .done u) = won (s.pc u) := by
          intro u
          by_cases hu : u = t
          · simp [setPc, hu, won, hpc]
          · simp [setPc, hu]
        simp only [hw]
        exact b
  · -- setting
    have he : s.executed = false := by
      cases h : s.executed with
      | false => rfl
      | true => exact absurd hpc ((h3 h).1 t)
    obtain ⟨hr, hf⟩ := h2 he
    refine ⟨?_, by simp, ?_⟩
    · intro u
      by_cases hu : u = t
      · subst hu
        have := h1 u
        rw [hpc] at this
        rw [← this]
        simp [setPc, inLock]
      · simpa [setPc, hu] using h1 u
    · intro _
      refine ⟨fun u => ?_, .inl ⟨hr, t, by simp [setPc, won], fun u hu => ?_⟩⟩
      · by_cases hu : u = t
        · simp [setPc, hu]
        · simp only [setPc, hu, if_false]
          intro hs
          exact hu (huniq u t (by simp [hs, inLock]) (by simp [hpc, inLock]))
      · by_cases hu' : u = t
        · exact hu'
        · simp only [setPc, hu', if_false] at hu
          rw [(hf u).1] at hu; cases hu
  · -- leaving
    have he : s.executed = true := by
      cases h : s.executed with
      | true => rfl
      | false => have := ((h2 h).2 t).1; simp [hpc, won] at this
    refine ⟨?_, ?_, ?_⟩
    · intro u
      by_cases hu : u = t
      · simp [setPc, hu, inLock]
      · simp only [setPc, hu, if_false]
        constructor
        · intro h
          exact absurd (huniq u t h (by simp [hpc, inLock])) hu
        · intro h; cases h
    · intro h; simp [he] at h
    · intro _
      obtain ⟨a, b⟩ := h3 he
      refine ⟨fun u => ?_, ?_⟩
      · by_cases hu : u = t
        · simp [setPc, hu]
        · simpa [setPc, hu] using a u
      · have hw : ∀ u, won (setPc s t .running u) = won (s.pc u) := by
          intro u
          by_cases hu : u = t
          · simp [setPc, hu, won, hpc]
          · simp [setPc, hu]
        simp only [hw]
        exact b
  · -- running
    have hwt : won (s.pc t) = true := by simp [hpc, won]
    have he : s.executed = true := by
      cases h : s.executed with
      | true => rfl
      | false => have := ((h2 h).2 t).1; simp [hpc, won] at this
    refine ⟨?_, ?_, ?_⟩
    · intro u
      by_cases hu : u = t
      · subst hu
        have := h1 u
        rw [hpc] at this
        simp only [setPc, if_true]
        rw [← this]
        simp [inLock]
      · simpa [setPc, hu] using h1 u
    · intro h; simp [he] at h
    · intro _
      obtain ⟨a, b⟩ := h3 he
      refine ⟨fun u => ?_, ?_⟩
      · by_cases hu : u = t
        · simp [setPc, hu]
        · simpa [setPc, hu] using a u
      · rcases b with ⟨hr, w, _, hw⟩ | ⟨_, hn⟩
        · refine .inr ⟨⟨t, by simp [hr]⟩, fun u => ?_⟩
          by_cases hu : u = t
          · simp [setPc, hu, won]
          · simp only [setPc, hu, if_false]
            cases hwu : won (s.pc u) with
            | false => rfl
            | true => exact absurd ((hw u hwu).trans (hw t hwt).symm) hu
        · rw [hn t] at hwt; cases hwt
  · exact ⟨h1, h2, h3⟩

theorem inv_run {s : State} (h : Inv s) (ts : List Nat) : Inv (run s ts) := by
  induction ts generalizing s with
  | nil => exact h
  | cons t ts ih => exact ih (inv_step h t)

theorem inv_start : Inv start := by
  constructor <;> simp [start, inLock, won]

/-- **C06, at most once.** For every schedule of any number of threads, the command runs at most
once. -/
theorem c06_at_most_once (ts : List Nat) : (run start ts).runs.length ≤ 1 := by
  have h := inv_run inv_start ts
  cases he : (run start ts).executed with
  | false => simp [(h.fresh he).1]
  | true =>
    rcases (h.old he).2 with ⟨hr, _⟩ | ⟨⟨w, hr⟩, _⟩ <;> simp [hr]

/-- **C06, exactly once.** When every attempt that was started has returned, and at least one was
started, the command has run exactly once. -/
theorem c06_exactly_once (ts : List Nat)
    (hall : ∀ t, (run start ts).pc t = .idle ∨ (run start ts).pc t = .done)
    (hsome : ∃ t, (run start ts).pc t = .done) : (run start ts).runs.length = 1 := by
  have h := inv_run inv_start ts
  obtain ⟨t, ht⟩ := hsome
  cases he : (run start ts).executed with
  | false => exact absurd ht ((h.fresh he).2 t).2.1
  | true =>
    rcases (h.old he).2 with ⟨_, w, hw, _⟩ | ⟨⟨w, hr⟩, _⟩
    · rcases hall w with h' | h' <;> simp [h', won] at hw
    · simp [hr]

/-- Non-vacuity: two threads race; both attempts finish. -/
example :
    let ts := [1, 2, 1, 2, 1, 1, 2, 2, 2, 1]
    (∀ t, (run start ts).pc t = .idle ∨ (run start ts).pc t = .done) ∧
    (run start ts).pc 1 = .done ∧ (run start ts).pc 2 = .done ∧ (run start ts).runs = [1] := by
  refine ⟨?_, by decide, by decide, by decide⟩
  intro t
  by_cases h1 : t = 1
  · subst h1; right; decide
  · by_cases h2 : t = 2
    · subst h2; right; decide
    · left
      simp [run, step, setPc, start, h1, h2]

end AnyThread
