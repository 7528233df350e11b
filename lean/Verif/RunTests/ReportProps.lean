import Verif.RunTests.Report
/-!
# C77, C78: what the client is told of the tests
-/
namespace RunTests

/-! ## Specification of C78 -/

/-- What happens in a test: an error or a failure in it, or a subtest of it ends. -/
inductive Happening where
  | error (text : String)
  | failure (text : String)
  | subtest (sub : String) (err : Option String)

/-- A part of a run: a test from its start to its end, or the set-up of a class or a module fails. -/
inductive Part where
  | test (name : String) (hs : List Happening) (skipped : Bool)
  | setUpFails (name : String) (text : String)

/-- What `unittest` tells the result object about it. -/
def Happening.call (name : String) : Happening → Call
  | .error e => .addError name e false
  | .failure e => .addFailure name e
  | .subtest s err => .addSubTest name s err

/-- What `unittest` tells the result object about a part of a run. -/
def Part.calls : Part → List Call
  | .test name hs skipped => .startTest name :: hs.map (Happening.call name) ++ [.stopTest name skipped]
  | .setUpFails name e => [.addError name e true]

/-- The texts of the errors in a test. -/
def errorsOf (hs : List Happening) : List String := hs.filterMap fun | .error e => some e | _ => none

/-- The texts of the failures in a test. -/
def failuresOf (hs : List Happening) : List String := hs.filterMap fun | .failure e => some e | _ => none

/-- A result for each subtest which failed. -/
def subtestsOf (name : String) (hs : List Happening) : List Note :=
  hs.filterMap fun | .subtest s (some e) => some (.result (name ++ " " ++ s) .error [e]) | _ => none

/-- The condition of a test: skipped; an error if there was one; a failure if there was one and no
error; else fine. -/
def condOf (hs : List Happening) (skipped : Bool) : Cond :=
  if skipped then .skip
  else if errorsOf hs ≠ [] then .error
  else if failuresOf hs ≠ [] then .fail
  else .ok

/-- What the client should be told of a part of a run. -/
def Part.notes : Part → List Note
  | .test name hs skipped =>
    .start name :: subtestsOf name hs ++
      [.result name (condOf hs skipped) (if skipped then [] else errorsOf hs ++ failuresOf hs)]
  | .setUpFails name e => [.result name .error [e]]

/-! ## C78 -/

theorem calls_append (r : Result) (a b : List Call) : r.calls (a ++ b) = (r.calls a).calls b := by
  simp [Result.calls]

theorem calls_in_test (name : String) (hs : List Happening) (es fs : List String) (ns : List Note) :
    (⟨some (es, fs), ns⟩ : Result).calls (hs.map (Happening.call name)) =
      ⟨some (es ++ errorsOf hs, fs ++ failuresOf hs), ns ++ subtestsOf name hs⟩ := by
  induction hs generalizing es fs ns with
  | nil => simp [Result.calls, errorsOf, failuresOf, subtestsOf]
  | cons h hs ih =>
    have e : (⟨some (es, fs), ns⟩ : Result).calls ((h :: hs).map (Happening.call name)) =
      ((⟨some (es, fs), ns⟩ : Result).call (h.call name)).calls (hs.map (Happening.call name)) := rfl
    rw [e]
    rcases h with t | t | ⟨s, err⟩
    · simp only [Happening.call, Result.call, Bool.false_eq_true, if_false]; rw [ih]
      simp [errorsOf, failuresOf, subtestsOf]
    · simp only [Happening.call, Result.call]; rw [ih]; simp [errorsOf, failuresOf, subtestsOf]
    · cases err with
      | none => simp only [Happening.call, Result.call]; rw [ih]; simp [errorsOf, failuresOf, subtestsOf]
      | some t =>
        simp only [Happening.call, Result.call]; rw [ih]; simp [errorsOf, failuresOf, subtestsOf, reportCond]

theorem part_notes (r : Result) (p : Part) : (r.calls p.calls).notes = r.notes ++ p.notes := by
  cases p with
  | setUpFails name e =>
    simp only [Part.calls, Result.calls, List.foldl_cons, List.foldl_nil, Result.call, Part.notes]
    cases r.stacks <;> simp [reportCond]
  | test name hs skipped =>
    simp only [Part.calls, List.cons_append]
    have e : r.calls (.startTest name :: (hs.map (Happening.call name) ++ [.stopTest name skipped])) =
      ((⟨some ([], []), r.notes ++ [.start name]⟩ : Result).calls (hs.map (Happening.call name))).call (.stopTest name skipped) := by
      show (r.call (.startTest name)).calls _ = _
      rw [calls_append]; rfl
    rw [e, calls_in_test]
    simp only [Result.call, List.nil_append, Part.notes, condOf]
    cases skipped
    · by_cases h1 : errorsOf hs = [] <;> by_cases h2 : failuresOf hs = [] <;> simp [h1, h2, reportCond]
    · simp

/-- **C78.** For every run of tests the client is told: of each test once that it starts and once how
it ended, after its failed subtests, in the order of the run; `error` if there was an error in it,
`fail` if there were only failures, with all their texts, and `ok` if there was neither; and of each
set-up which failed once. -/
theorem c78_told (ps : List Part) :
    (Result.new.calls (ps.flatMap Part.calls)).notes = ps.flatMap Part.notes := by
  have : ∀ (r : Result), (r.calls (ps.flatMap Part.calls)).notes = r.notes ++ ps.flatMap Part.notes := by
    induction ps with
    | nil => intro r; simp [Result.calls]
    | cons p ps ih => intro r; rw [List.flatMap_cons, calls_append, ih, part_notes]; simp
  simpa [Result.new] using this Result.new

/-- **C78.** A test is said to be fine exactly if it was not skipped and there was no error and no
failure in it (not counting its subtests). -/
theorem c78_ok_iff (hs : List Happening) (skipped : Bool) :
    condOf hs skipped = .ok ↔ skipped = false ∧ (∀ e, .error e ∉ hs) ∧ (∀ e, .failure e ∉ hs) := by
  have h1 : errorsOf hs = [] ↔ ∀ e, .error e ∉ hs := by
    simp only [errorsOf, List.filterMap_eq_nil_iff]
    constructor
    · intro h e he; simpa using h _ he
    · intro h a ha; cases a with
      | error e => exact absurd ha (h e)
      | _ => rfl
  have h2 : failuresOf hs = [] ↔ ∀ e, .failure e ∉ hs := by
    simp only [failuresOf, List.filterMap_eq_nil_iff]
    constructor
    · intro h e he; simpa using h _ he
    · intro h a ha; cases a with
      | failure e => exact absurd ha (h e)
      | _ => rfl
  rw [← h1, ← h2]
  unfold condOf
  cases skipped
  · by_cases a : errorsOf hs = [] <;> by_cases b : failuresOf hs = [] <;> simp [a, b]
  · simp

/-- A run with an error in one test and a failure in another. -/
theorem c78_example :
    (Result.new.calls ((([.test "A.t" [.failure "f", .error "e"] false, .setUpFails "B" "s", .test "C.t" [] false] :
      List Part)).flatMap Part.calls)).notes =
    [.start "A.t", .result "A.t" .error ["e", "f"], .result "B" .error ["s"], .start "C.t", .result "C.t" .ok []] := by
  decide

/-- A test of which a subtest failed is said to be fine, after the subtest was told as an error. -/
theorem c78_subtest_witness :
    (Result.new.calls (Part.calls (.test "A.t" [.subtest "(i=1)" (some "e")] false))).notes =
      [.start "A.t", .result ("A.t" ++ " " ++ "(i=1)") .error ["e"], .result "A.t" .ok []] := by
  decide

/-- A test which failed and was then skipped (in `tearDown`) is said to be skipped. -/
theorem c78_skip_hides_error_witness :
    (Result.new.calls (Part.calls (.test "A.t" [.error "e"] true))).notes = [.start "A.t", .result "A.t" .skip []] := by
  decide

/-- An error told outside a test, as Django does when it fails to set up a test, is passed on before
the first test, but not after it. -/
theorem c78_loose_error_witness :
    (Result.new.calls [.addError "A.t" "e" false]).notes = [.result "A.t" .error ["e"]] ∧
    (Result.new.calls (Part.calls (.test "A.t" [] false) ++ [.addError "A.u" "e" false] ++
      Part.calls (.test "A.v" [] false))).notes =
      [.start "A.t", .result "A.t" .ok [], .start "A.v", .result "A.v" .ok []] := by
  decide

/-! ## C77 -/

/-- The notifications among the entries of a queue. -/
def notesOf (l : List Item) : List Note := l.filterMap fun | .note n => some n | .kill => none

/-- What the thread holds. -/
def CommAt.held : CommAt → List Note
  | .draining c _ => c
  | .sending c _ => c
  | _ => []

/-- The entries taken from the queue hold the kill, if it was found. -/
def CommAt.killed : CommAt → Bool
  | .draining _ k => k
  | .sending _ k => k
  | .finished => true
  | .waiting => false

theorem notesOf_append (a b : List Item) : notesOf (a ++ b) = notesOf a ++ notesOf b := by simp [notesOf]

/-- Some first entries were taken: their notifications were sent or are held. -/
def CommInv (s : Comm) : Prop :=
  ∃ taken, s.put = taken ++ s.queue ∧ notesOf taken = s.sent.flatMap (·.2) ++ s.at_.held ∧
    (s.at_.killed = true → .kill ∈ taken)

theorem commInv_step (s : Comm) (a : CommAct) (h : CommInv s) : CommInv (s.step a) := by
  obtain ⟨taken, h1, h2, h3⟩ := h
  cases a with
  | put i => exact ⟨taken, by simp [Comm.step, h1], h2, h3⟩
  | step ok =>
    simp only [Comm.step]
    split <;> rename_i ha
    · split
      · exact ⟨taken, h1, h2, h3⟩
      · rename_i n q e
        exact ⟨taken ++ [.note n], by simp [h1, e], by simp [notesOf_append, h2, ha, CommAt.held]; simp [notesOf], by simp [CommAt.killed]⟩
      · rename_i q e
        exact ⟨taken ++ [.kill], by simp [h1, e], by simp [notesOf_append, h2, ha, CommAt.held]; simp [notesOf], by simp⟩
    · rename_i cmds k
      split
      · exact ⟨taken, h1, by simp [h2, ha, CommAt.held], by simpa [ha, CommAt.killed] using h3⟩
      · rename_i n q e
        refine ⟨taken ++ [.note n], by simp [h1, e], by simp [notesOf_append, h2, ha, CommAt.held]; simp [notesOf], ?_⟩
        intro hk; simp [CommAt.killed] at hk; simp [h3 (by simp [ha, CommAt.killed, hk])]
      · rename_i q e
        exact ⟨taken ++ [.kill], by simp [h1, e], by simp [notesOf_append, h2, ha, CommAt.held]; simp [notesOf], by simp⟩
    · rename_i cmds k
      refine ⟨taken, h1, ?_, ?_⟩
      · have : (if k then CommAt.finished else .waiting).held = [] := by cases k <;> rfl
        show notesOf taken = (if cmds = [] then s.sent else s.sent ++ [(ok, cmds)]).flatMap (·.2) ++
          (if k then CommAt.finished else .waiting).held
        rw [this, h2, ha]
        by_cases hc : cmds = [] <;> simp [hc, CommAt.held]
      · cases k
        · simp [CommAt.killed]
        · intro _; exact h3 (by simp [ha, CommAt.killed])
    · exact ⟨taken, h1, h2, h3⟩

theorem commInv_steps (s : Comm) (as : List CommAct) (h : CommInv s) : CommInv (s.steps as) := by
  induction as generalizing s with
  | nil => exact h
  | cons a as ih => exact ih _ (commInv_step s a h)

theorem comm_inv (as : List CommAct) : CommInv (Comm.init.steps as) :=
  commInv_steps _ _ ⟨[], rfl, by simp [notesOf, Comm.init, CommAt.held], by simp [Comm.init, CommAt.killed]⟩

/-- **C77.** At any time, in any order of the steps, what was sent is, in order and without
repetition, a first part of what was to be told. -/
theorem c77_in_order (as : List CommAct) :
    (Comm.init.steps as).sent.flatMap (·.2) <+: notesOf (Comm.init.steps as).put := by
  obtain ⟨taken, h1, h2, _⟩ := comm_inv as
  rw [h1, notesOf_append, h2]
  exact ⟨_, by rw [List.append_assoc]⟩

/-- **C77.** When the thread has ended, everything put before the request to end was sent. -/
theorem c77_all_sent (as : List CommAct) (fin : (Comm.init.steps as).at_ = .finished) (before after : List Item)
    (h : (Comm.init.steps as).put = before ++ .kill :: after) (first : Item.kill ∉ before) :
    notesOf before <+: (Comm.init.steps as).sent.flatMap (·.2) := by
  obtain ⟨taken, h1, h2, h3⟩ := comm_inv as
  rw [fin] at h2 h3
  simp only [CommAt.held, List.append_nil] at h2
  have hk := h3 rfl
  rw [← h2]
  rw [h] at h1
  obtain ⟨x, y, e⟩ := List.append_of_mem hk
  have hb : before <+: taken := by
    rcases List.append_eq_append_iff.1 h1 with ⟨a', ha, _⟩ | ⟨c', hc, _⟩
    · exact ⟨a', ha.symm⟩
    · exfalso; apply first; rw [hc]; simp [hk]
  obtain ⟨z, rfl⟩ := hb
  rw [notesOf_append]
  exact ⟨_, rfl⟩

/-- **C77.** When nothing is put after the request to end, the thread has ended, and no call failed,
the client got everything, in order. -/
theorem c77_all_told (as : List CommAct) (fin : (Comm.init.steps as).at_ = .finished) (before : List Item)
    (h : (Comm.init.steps as).put = before ++ [.kill]) (first : Item.kill ∉ before)
    (fine : ∀ e ∈ (Comm.init.steps as).sent, e.1 = true) :
    ((Comm.init.steps as).sent.filter (·.1)).flatMap (·.2) = notesOf before := by
  rw [List.filter_eq_self.2 fine]
  obtain ⟨x, hx⟩ := c77_all_sent as fin before [] h first
  obtain ⟨y, hy⟩ := c77_in_order as
  rw [h, notesOf_append] at hy
  have : notesOf [Item.kill] = [] := rfl
  rw [this, List.append_nil, ← hx, List.append_assoc] at hy
  have := List.append_cancel_left (hy.trans (List.append_nil _).symm)
  have : x = [] := (List.append_eq_nil_iff.1 this).1
  rw [← hx, this, List.append_nil]

/-- A run of the thread: two notifications in one batch, a third, then the end. -/
theorem c77_example :
    let as : List CommAct := [.put (.note (.start "a")), .put (.note (.start "b")), .step true, .step true, .step true,
      .put (.note (.start "c")), .step true, .step true, .put .kill, .step true, .step true, .step true]
    (Comm.init.steps as).at_ = .finished ∧
    (Comm.init.steps as).sent = [(true, [.start "a", .start "b"]), (true, [.start "c"])] ∧
    (Comm.init.steps as).put = [.note (.start "a"), .note (.start "b"), .note (.start "c")] ++ [.kill] := by
  decide

end RunTests
