import Verif.Monitor.Pause
/-!
Concrete histories: that the hypotheses of the theorems can be met, and what goes wrong where they are not.
-/

namespace Monitor

open Py

instance (s : State) (c : Code) (l : Nat) : Decidable (Breaks s c l) := by unfold Breaks; infer_instance
instance (s : State) (c : Code) : Decidable (BreaksFn s c) := by unfold BreaksFn; infer_instance
instance (E : Env) (c : Code) : Decidable (Visible E c) := by unfold Visible; infer_instance
instance (E : Env) : Decidable (Distinct E) := by unfold Distinct; infer_instance
instance (E : Env) (c : Code) (a : Action) : Decidable (Plain E c a) := by unfold Plain; split <;> infer_instance
instance (E : Env) (s : State) (c : Code) (t : Nat) : Decidable (UpToDate E s c t) := by unfold UpToDate; split <;> infer_instance

/-- `Calm`, as a computation -/
def calm (E : Env) (c : Code) : State → List Action → Bool
  | _, [] => true
  | s, a :: as =>
    (match a, s.queue with
      | .work, .restart :: _ => E.tids.all (fun t => decide ((s.stack t).head? = some c → UpToDate E s c t))
      | _, _ => true) &&
    match step E s a with
    | some s' => calm E c s' as
    | none => true

theorem calm_sound {E : Env} {c : Code} (hd : Distinct E) (acts : List Action) (s : State) (b : Base E s) (h : calm E c s acts = true) :
    Calm E c s acts := by
  induction acts generalizing s with
  | nil => trivial
  | cons a as ih =>
    simp only [calm, Bool.and_eq_true] at h
    constructor
    · intro ha hq t rest ht
      subst ha
      have h1 := h.1
      split at h1
      · simp only [List.all_eq_true, decide_eq_true_eq] at h1
        exact h1 t (b.tids t (by simp [ht])) (by simp [ht])
      · rename_i hn
        cases hs : s.queue with
        | nil => simp [hs] at hq
        | cons o r => rw [hs] at hq; simp at hq; subst hq; exact (hn r rfl hs).elim
    · intro s' hs'
      rw [hs'] at h
      exact ih s' (base_step hd b a hs') h.2

/-- `Undisturbed`, as a computation -/
def undisturbed (E : Env) (t : Nat) : State → List Action → Bool
  | _, [] => true
  | s, a :: as =>
    (match a with
      | .handle u => s.pausing u || s.stepping
      | .begin (.pause u) => u != t
      | .begin _ => false
      | .resume u _ => u != t
      | _ => true) &&
    match step E s a with
    | some s' => undisturbed E t s' as
    | none => true

theorem undisturbed_sound {E : Env} {t : Nat} (acts : List Action) (s : State) (h : undisturbed E t s acts = true) :
    Undisturbed E t s acts := by
  induction acts generalizing s with
  | nil => trivial
  | cons a as ih =>
    simp only [undisturbed, Bool.and_eq_true] at h
    refine ⟨?_, ?_, ?_, ?_⟩
    · rintro u rfl; simpa using h.1
    · rintro cmd rfl
      cases cmd <;> simp at h
      exact ⟨_, h.1, rfl⟩
    · rintro c rfl; simp at h
    · intro s' hs'; rw [hs'] at h; exact ih s' h.2

instance (t : Nat) (a : Action) : Decidable (Still t a) :=
  match a with
  | .call u c => if h : t = u then isFalse (by subst h; exact fun hs => (hs.1 c).1 rfl)
      else isTrue ⟨fun d => ⟨by intro e; cases e; exact h rfl, by simp⟩, rfl⟩
  | .resume u c => if h : t = u then isFalse (by subst h; exact fun hs => (hs.1 c).2 rfl)
      else isTrue ⟨fun d => ⟨by simp, by intro e; cases e; exact h rfl⟩, rfl⟩
  | .begin _ => isFalse (fun hs => by cases hs.2)
  | .work | .ret _ | .yield _ | .run _ _ | .handle _ | .stepping _ | .enable _ => isTrue ⟨fun d => ⟨by simp, by simp⟩, rfl⟩

theorem found {o : Option State} {p : State → Bool} (h : o.any p = true) : ∃ s, o = some s ∧ p s = true := by
  cases o with
  | none => cases h
  | some s => exact ⟨s, rfl, h⟩

namespace Example

/-- a function with lines 1 and 2, its copy in another file, and another function -/
def f : Code := ⟨0, 0, 0, [1, 2]⟩
def copy : Code := ⟨1, 0, 0, [1, 2]⟩
def g : Code := ⟨0, 1, 1, [7]⟩

/-- thread 9 is not in `threading._active` -/
def E : Env := ⟨[f, g], [0, 1, 9], fun _ => false, fun _ => false, fun t => t != 9⟩

def E2 : Env := { E with prog := [f, copy] }

/-- processing a command of `n` steps -/
def process (cmd : Cmd) (n : Nat) : List Action := .begin cmd :: List.replicate n .work

def handler (t n : Nat) : List Action := List.replicate n (.handle t)

/-- a breakpoint at line 2 of file 0 is set while there are `n` frames -/
def setBreak (n : Nat) : List Action := process (.add 0 [(2, 5)]) (11 + n)

/-- a breakpoint is set while thread 0 runs the function -/
def early : List Action := [.call 0 f, .run 0 1] ++ setBreak 1

end Example

open Example

/-- the hypotheses of `c56_line`, `c47` and `c48_on` are met: the breakpoint is set while the function runs, and is hit, and then hit again
in a new call by another thread -/
theorem c56_example : Distinct E ∧ f ∈ E.prog ∧ Visible E f ∧ (∀ a ∈ early, Plain E f a) ∧ Calm E f start early ∧
    (∃ s, run E start early = some s ∧ s.queue = [] ∧ Breaks s f 2 ∧ s.stack 0 = [f]) ∧
    (run E start (early ++ [.run 0 2] ++ handler 0 2 ++ [.call 1 f] ++ handler 1 2 ++ [.run 1 2] ++ handler 1 2)).map (·.stops) =
      some [.line 1 f 2, .line 0 f 2] := by
  refine ⟨by decide, by decide, by decide, by decide, calm_sound (by decide) _ _ (base_start _) (by decide +kernel), ?_, by decide +kernel⟩
  obtain ⟨s, h, hp⟩ := found (o := run E start early) (p := fun (s : State) => decide (s.queue = [] ∧ Breaks s f 2 ∧ s.stack 0 = [f])) (by decide +kernel)
  exact ⟨s, h, by simpa using hp⟩

/-- the hypotheses of `c56_function` are met -/
example : (run E start (process (.functions [(1, 5)]) 8 ++ [.call 0 g] ++ handler 0 6)).map (·.stops) = some [.function 0 g] := by
  decide +kernel

/-- A function that exists twice, in two files: the information cached for one is used for the other, so the breakpoint of the file
whose function is seen second is not shown, and not hit. -/
theorem c47_equal_code : ∃ acts s i, run E2 start acts = some s ∧ f ∈ E2.prog ∧ Visible E2 f ∧ s.queue = [] ∧ s.cache f.key = some i ∧
    i.mtime = s.mtime ∧ Breaks s f 2 ∧ i.bps = [] ∧ s.stack 0 = [f] ∧ s.pc 0 = .idle ∧
    ∃ s', step E2 s (.run 0 2) = some s' ∧ s'.pc 0 = .idle ∧ s'.stops = [] := by
  let acts : List Action := setBreak 0 ++ [.call 0 copy] ++ handler 0 6 ++ [.ret 0, .call 0 f] ++ handler 0 2
  obtain ⟨s, h, hp⟩ := found (o := run E2 start acts) (p := fun (s : State) => decide (s.queue = [] ∧ (s.cache f.key).isSome ∧
    (s.cache f.key).all (fun (i : Info) => i.mtime == s.mtime && i.bps == []) ∧ Breaks s f 2 ∧ s.stack 0 = [f] ∧ s.pc 0 = .idle ∧
    (step E2 s (.run 0 2)).any (fun (s' : State) => decide (s'.pc 0 = .idle ∧ s'.stops = [])))) (by decide +kernel)
  simp only [decide_eq_true_eq] at hp
  obtain ⟨h1, h2, h3, h4, h5, h6, h7⟩ := hp
  obtain ⟨i, hi⟩ := Option.isSome_iff_exists.1 h2
  rw [hi] at h3
  simp at h3
  obtain ⟨s', hs', hp'⟩ := found h7
  simp at hp'
  exact ⟨acts, s, i, h, by decide, by decide, h1, hi, h3.1, h4, h3.2, h5, h6, s', hs', hp'⟩

/-- what goes wrong in the next three: the line with the breakpoint is executed and nothing happens -/
def Missed (acts : List Action) (t : Nat) : Prop :=
  ∃ s s', run E start acts = some s ∧ s.queue = [] ∧ Breaks s f 2 ∧ s.stack t = [f] ∧ s.pc t = .idle ∧ step E s (.run t 2) = some s' ∧
    s'.pc t = .idle ∧ s'.stops = []

theorem missed (acts : List Action) (t : Nat) (h : (run E start acts).any (fun s => decide (s.queue = [] ∧ Breaks s f 2 ∧ s.stack t = [f] ∧
    s.pc t = .idle ∧ (step E s (.run t 2)).any (fun (s' : State) => decide (s'.pc t = .idle ∧ s'.stops = [])))) = true) : Missed acts t := by
  obtain ⟨s, hs, hp⟩ := found h
  simp only [decide_eq_true_eq] at hp
  obtain ⟨h1, h2, h3, h4, h5⟩ := hp
  obtain ⟨s', hs', hp'⟩ := found h5
  simp at hp'
  exact ⟨s, s', hs, h1, h2, h3, h4, hs', hp'⟩

/-- A generator that is suspended while the breakpoint is set is resumed, and executes the line without a stop. (The history is calm, and
plain but for the resumption.) -/
theorem c56_generator : ∃ pre, (∀ a ∈ pre, Plain E f a) ∧ Calm E f start (pre ++ [.resume 0 f]) ∧ Missed (pre ++ [.resume 0 f]) 0 :=
  ⟨[.call 0 f, .run 0 1, .yield 0] ++ setBreak 0, by decide, calm_sound (by decide) _ _ (base_start _) (by decide +kernel),
    missed _ _ (by decide +kernel)⟩

/-- A thread that `threading` does not know runs the function while the breakpoint is set. (The history is calm, and plain but for
the call in that thread.) -/
theorem c56_unknown_thread : ∃ post, (∀ a ∈ post, Plain E f a) ∧ Calm E f start (.call 9 f :: post) ∧ Missed (.call 9 f :: post) 9 :=
  ⟨[.run 9 1] ++ setBreak 1, by decide, calm_sound (by decide) _ _ (base_start _) (by decide +kernel), missed _ _ (by decide +kernel)⟩

/-- A handler that has read the breakpoints before they were changed switches off the event after the events have been restarted: when
the line is executed again, after the command has been processed, there is no stop. (The history is plain, but not calm.) -/
theorem c56_stale : ∃ acts, (∀ a ∈ acts, Plain E f a) ∧ Missed acts 0 :=
  ⟨process (.add 3 [(1, 5)]) 11 ++ process (.add 0 [(1, 5)]) 11 ++ [.call 0 f] ++ handler 0 6 ++ process (.remove 0 1) 5 ++ [.run 0 2] ++
    handler 0 5 ++ setBreak 1 ++ [.handle 0], by decide, missed _ _ (by decide +kernel)⟩

/-- the hypotheses of `c57` are met: two threads run, both are asked to pause, both stop -/
theorem c57_example : ∃ s1, (∀ a ∈ List.replicate 4 Action.work, Still 0 a) ∧ E.known 0 = true ∧
    run E start ([.call 0 f, .call 1 g] ++ [.begin (.pause 0)] ++ List.replicate 4 .work ++ [.work]) = some s1 ∧ s1.queue = [] ∧
    Undisturbed E 0 s1 ([.begin (.pause 1)] ++ List.replicate 5 .work ++ [.run 1 7] ++ handler 1 2 ++ [.call 0 g] ++ handler 0 2) ∧
    (run E s1 ([.begin (.pause 1)] ++ List.replicate 5 .work ++ [.run 1 7] ++ handler 1 2 ++ [.call 0 g] ++ handler 0 2 ++ [.run 0 7] ++
      handler 0 2)).map (·.stops) = some [.pause 0 g 7, .pause 1 g 7] := by
  obtain ⟨s, h, hp⟩ := found (o := run E start ([.call 0 f, .call 1 g] ++ [.begin (.pause 0)] ++ List.replicate 4 .work ++ [.work]))
    (p := fun (s : State) => decide (s.queue = [] ∧
      undisturbed E 0 s ([.begin (.pause 1)] ++ List.replicate 5 .work ++ [.run 1 7] ++ handler 1 2 ++ [.call 0 g] ++ handler 0 2) = true ∧
      (run E s ([.begin (.pause 1)] ++ List.replicate 5 .work ++ [.run 1 7] ++ handler 1 2 ++ [.call 0 g] ++ handler 0 2 ++ [.run 0 7] ++
      handler 0 2)).map (·.stops) = some [.pause 0 g 7, .pause 1 g 7])) (by decide +kernel)
  simp only [decide_eq_true_eq] at hp
  exact ⟨s, by decide, by decide, h, hp.1, undisturbed_sound _ _ hp.2.1, hp.2.2⟩

/-- Another thread, not asked to pause, executes the lines first and switches the events off: the thread that is to pause executes all the lines of
its function without a stop. -/
theorem c57_other_thread : ∃ s s', run E start ([.call 0 f, .call 1 f] ++ [.begin (.pause 0)] ++ List.replicate 5 .work ++
      [.run 1 1] ++ handler 1 2 ++ [.run 1 2] ++ handler 1 2) = some s ∧ s.queue = [] ∧ s.pausing 0 = true ∧
    run E s [.run 0 1, .run 0 2] = some s' ∧ s'.pausing 0 = true ∧ s'.pc 0 = .idle ∧ s'.stops = [] := by
  obtain ⟨s, h, hp⟩ := found (o := run E start ([Action.call 0 f, .call 1 f] ++ [.begin (.pause 0)] ++ List.replicate 5 .work ++
      [.run 1 1] ++ handler 1 2 ++ [.run 1 2] ++ handler 1 2)) (p := fun (s : State) => decide (s.queue = [] ∧ s.pausing 0 = true ∧
      (run E s [.run 0 1, .run 0 2]).any (fun (s' : State) => decide (s'.pausing 0 = true ∧ s'.pc 0 = .idle ∧ s'.stops = [])))) (by decide +kernel)
  simp only [decide_eq_true_eq] at hp
  obtain ⟨s', hs', hp'⟩ := found hp.2.2
  simp at hp'
  exact ⟨s, s', h, hp.1, hp.2.1, hs', hp'⟩

/-- events are switched off in the ordinary case: `c48_line` and `c48_start` are about something -/
example : (run E start ([.call 0 f] ++ setBreak 1 ++ [.call 0 g] ++ handler 0 6)).map (fun s => s.startOff g) = some true := by
  decide +kernel

end Monitor
