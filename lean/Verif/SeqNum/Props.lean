import Verif.SeqNum.Model
/-! Property C05: sequence numbers. A schedule is the list of threads in the order in which they
perform their accesses. -/

namespace SeqNum

structure Inv (s : State) : Prop where
  even : s.next % 2 = 0
  loaded : ∀ t v, s.pc t = .loaded v → v % 2 = 0
  stored : ∀ t, s.pc t = .stored → 0 < s.next
  given : ∀ n ∈ s.given, n % 2 = 0 ∧ 0 < n

theorem inv_step {s : State} (h : Inv s) (t : Nat) : Inv (step s t) := by
  obtain ⟨h1, h2, h3, h4⟩ := h
  unfold step
  split
  · refine ⟨h1, ?_, ?_, h4⟩
    · intro u v hu
      simp only at hu
      split at hu
      · cases hu; exact h1
      · exact h2 u v hu
    · intro u hu
      simp only at hu
      split at hu
      · cases hu
      · exact h3 u hu
  · rename_i v hv
    refine ⟨?_, ?_, ?_, h4⟩
    · have := h2 t v hv; simp only; omega
    · intro u w hu
      simp only at hu
      split at hu
      · cases hu
      · exact h2 u w hu
    · intro u _; simp
  · rename_i hst
    refine ⟨h1, ?_, ?_, ?_⟩
    · intro u w hu
      simp only at hu
      split at hu
      · cases hu
      · exact h2 u w hu
    · intro u hu
      simp only at hu
      split at hu
      · cases hu
      · exact h3 u hu
    · intro n hn
      simp only [List.mem_append, List.mem_singleton] at hn
      rcases hn with hn | rfl
      · exact h4 n hn
      · exact ⟨h1, h3 t hst⟩

theorem inv_run {s : State} (h : Inv s) (ts : List Nat) : Inv (run s ts) := by
  induction ts generalizing s with
  | nil => exact h
  | cons t ts ih => exact ih (inv_step h t)

/-- **C05, parity.** In every execution every generated number is positive and even, so it never
collides with 0 ("generate one") nor with a client that uses odd numbers. -/
theorem c05_even_positive (ts : List Nat) : ∀ n ∈ (run start ts).given, n % 2 = 0 ∧ 0 < n :=
  (inv_run (by constructor <;> simp [start]) ts).given

theorem run_append (s : State) (a b : List Nat) : run s (a ++ b) = run (run s a) b := by
  simp [run, List.foldl_append]

theorem atomic_one (s : State) (t : Nat) (h : ∀ u, s.pc u = .idle) :
    (run s [t, t, t]).next = s.next + 2 ∧ (run s [t, t, t]).given = s.given ++ [s.next + 2] ∧
    ∀ u, (run s [t, t, t]).pc u = .idle := by
  refine ⟨?_, ?_, ?_⟩
  · simp [run, step, h t]
  · simp [run, step, h t]
  · intro u
    simp only [run, step, h t, List.foldl_cons, List.foldl_nil, if_true]
    split
    · rfl
    · rename_i hu; simp [hu, h u]

/-- **C05, uniqueness when creations do not overlap** (`_partial`: the full property asks for every
schedule and is false, see `c05_race`). When each thread completes the creation of a message before
another one starts, the numbers given are 2, 4, 6, ... in order of creation, hence all different. -/
theorem c05_unique_partial (creators : List Nat) :
    (run start (creators.flatMap (fun t => [t, t, t]))).given =
      (List.range creators.length).map (fun i => 2 * (i + 1)) := by
  have key : ∀ (ts : List Nat) (s : State), (∀ u, s.pc u = .idle) →
      (run s (ts.flatMap (fun t => [t, t, t]))).given =
        s.given ++ (List.range ts.length).map (fun i => s.next + 2 * (i + 1)) := by
    intro ts
    induction ts with
    | nil => intro s _; simp [run]
    | cons t ts ih =>
      intro s hs
      obtain ⟨h1, h2, h3⟩ := atomic_one s t hs
      rw [List.flatMap_cons, run_append, ih _ h3, h1, h2, List.length_cons, List.range_succ_eq_map]
      simp only [List.map_cons, List.map_map, List.append_assoc, List.singleton_append]
      congr 2
      apply List.map_congr_left
      intro i _
      simp only [Function.comp, Nat.succ_eq_add_one]
      omega
  have := key creators start (by simp [start])
  simpa [start] using this

/-- The numbers of `c05_unique_partial` are pairwise different. -/
theorem c05_unique_nodup_partial (creators : List Nat) :
    (run start (creators.flatMap (fun t => [t, t, t]))).given.Nodup := by
  rw [c05_unique_partial, List.nodup_iff_pairwise_ne, List.pairwise_map]
  exact (List.nodup_iff_pairwise_ne.1 List.nodup_range).imp (fun h e => h (by omega))

example : (run start ([7, 3, 7].flatMap (fun t => [t, t, t]))).given = [2, 4, 6] := by decide

/-- **C05 is false in general**: two threads creating a message at the same time can both get 2. -/
theorem c05_race : ∃ ts, ¬ (run start ts).given.Nodup :=
  ⟨[1, 2, 1, 2, 1, 2], by decide⟩

/-- Even when the increment itself is not interrupted the second read can be: both get 4. -/
theorem c05_race_second_read : (run start [1, 1, 2, 2, 1, 2]).given = [4, 4] := by decide

end SeqNum
