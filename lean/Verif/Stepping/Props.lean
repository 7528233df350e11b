import Verif.Stepping.Model
/-!
**C46.** After a stepping-state update the debugger believes some thread is stepping exactly when a live tracked thread is
stepping (or suspended in its wait loop).
-/

namespace Stepping

/-! ### Specification -/

/-- the user's threads that count: stepping, or suspended and waiting for the client -/
def Steps (i : Info) : Prop := (i.state = .run ∧ i.stepCmd = true) ∨ (i.state = .suspend ∧ i.inWait = true)

/-- the thread is running and has not been reported as ended -/
def Live (i : Info) : Prop := i.killed = false ∧ i.thread = .alive

/-- every thread that assigned to a field has updated the registry, and no update is going on -/
def Quiet (s : State) : Prop := (∀ t, s.dirty t = false) ∧ (match s.upd with | .idle => True | _ => False)

/-- the entries were registered by threads that were running -/
def RegisteredAlive (as : List Action) : Prop := ∀ i thread, Action.register i thread ∈ as → thread = .alive

/-! ### Proof -/

theorem steps_iff (i : Info) : isStepping i = true ↔ Steps i := by
  unfold isStepping Steps
  split
  · simp_all
  · split <;> simp_all

/-- belief and truth agree unless a thread has still to update -/
def Agree (s : State) (set : List Nat) (i : Nat) : Prop := (∃ t, s.dirty t = true) ∨ (i ∈ set ↔ isStepping (s.info i) = true)

/-- an entry whose thread may still be running, or has been collected -/
def Kept (i : Info) : Prop := i.killed = false ∧ (i.thread = .alive ∨ i.thread = .collected)

theorem related_iff (i : Info) : related i ≠ .none ↔ Kept i := by
  unfold related Kept
  cases h : i.killed <;> cases h' : i.thread <;> simp

structure Inv (s : State) : Prop where
  sub : ∀ i ∈ s.all, i ∈ s.registered
  limbo : ∀ i ∈ s.registered, (s.info i).thread ≠ .limbo
  rest : match s.upd with
    | .idle => (∀ i ∈ s.stepping, i ∈ s.all) ∧ (∀ i ∈ s.all, Agree s s.stepping i) ∧
        (∀ i ∈ s.registered, Live (s.info i) → i ∈ s.all) ∧ (s.ended = false → ∀ i ∈ s.all, Kept (s.info i))
    | .filter todo newAll => (∀ i ∈ todo, i ∈ s.registered) ∧ (∀ i ∈ newAll, i ∈ s.registered) ∧
        ((∃ t, s.dirty t = true) ∨ s.touched = []) ∧ (s.ended = false → ∀ i ∈ newAll, Kept (s.info i)) ∧
        (∀ i ∈ s.registered, Live (s.info i) → i ∈ todo ∨ i ∈ newAll)
    | .steps todo newStep => (∀ i ∈ newStep, i ∈ s.all) ∧ (∀ i ∈ todo, i ∈ s.all) ∧ (∀ i ∈ s.all, i ∉ todo → Agree s newStep i) ∧
        (∀ i ∈ newStep, i ∉ todo) ∧ ((∃ t, s.dirty t = true) ∨ s.touched = []) ∧
        (∀ i ∈ s.registered, Live (s.info i) → i ∈ s.all) ∧ (s.ended = false → ∀ i ∈ s.all, Kept (s.info i))

theorem inv_start : Inv start := by
  constructor <;> simp [start]

/-- a change of one entry that keeps it as it is for `isStepping` -/
theorem inv_set (s : State) (h : Inv s) (i : Nat) (x : Info) (ended : Bool) (hl : (s.info i).thread ≠ .limbo → x.thread ≠ .limbo)
    (hs : isStepping x = isStepping (s.info i)) (hlive : (s.info i).thread ≠ .limbo → Live x → Live (s.info i))
    (hk : ended = false → s.ended = false ∧ (Kept (s.info i) → Kept x)) : Inv { setInfo s i x with ended := ended } := by
  obtain ⟨h1, h2, h3⟩ := h
  have hi : ∀ j, (setInfo s i x).info j = if j = i then x else s.info j := fun _ => rfl
  have e1 : ∀ j, isStepping ((setInfo s i x).info j) = isStepping (s.info j) := by
    intro j
    rw [hi]
    split
    · rename_i h; rw [h, hs]
    · rfl
  have e2 : ∀ j ∈ s.registered, Live ((setInfo s i x).info j) → Live (s.info j) := by
    intro j hj
    rw [hi]
    split
    · rename_i h; subst h; exact hlive (h2 _ hj)
    · exact id
  have e3 : ended = false → ∀ j, Kept (s.info j) → Kept ((setInfo s i x).info j) := by
    intro he j
    rw [hi]
    split
    · rename_i h; subst h; exact (hk he).2
    · exact id
  refine ⟨h1, ?_, ?_⟩
  · intro j hj
    have := h2 j hj
    show ((setInfo s i x).info j).thread ≠ _
    rw [hi]
    split
    · rename_i h; subst h; exact hl this
    · exact this
  · show (match s.upd with | .idle => _ | .filter todo newAll => _ | .steps todo newStep => _)
    cases hu : s.upd with
    | idle =>
      rw [hu] at h3
      obtain ⟨p1, p2, p3, p4⟩ := h3
      refine ⟨p1, ?_, fun j hj hl => p3 j hj (e2 j hj hl), fun he j hj => e3 he j (p4 (hk he).1 j hj)⟩
      intro j hj
      have := p2 j hj
      unfold Agree at *
      show _ ∨ (_ ↔ isStepping ((setInfo s i x).info j) = true)
      rw [e1]
      exact this
    | filter todo newAll =>
      rw [hu] at h3
      obtain ⟨p1, p2, p3, p4, p5⟩ := h3
      exact ⟨p1, p2, p3, fun he j hj => e3 he j (p4 (hk he).1 j hj), fun j hj hl => p5 j hj (e2 j hj hl)⟩
    | steps todo newStep =>
      rw [hu] at h3
      obtain ⟨p1, p2, p3, p4, p5, p6, p7⟩ := h3
      refine ⟨p1, p2, ?_, p4, p5, fun j hj hl => p6 j hj (e2 j hj hl), fun he j hj => e3 he j (p7 (hk he).1 j hj)⟩
      intro j hj hn
      have := p3 j hj hn
      unfold Agree at *
      show _ ∨ (_ ↔ isStepping ((setInfo s i x).info j) = true)
      rw [e1]
      exact this

theorem inv_step (s s' : State) (a : Action) (ha : ∀ i thread, a = .register i thread → thread = .alive) (h : Inv s)
    (hs : step s a = some s') : Inv s' := by
  obtain ⟨h1, h2, h3⟩ := id h
  cases a with
  | register i thread =>
    have := ha i thread rfl
    subst this
    simp only [step] at hs
    cases hu : s.upd with
    | idle =>
      rw [hu] at hs h3
      simp only at hs
      split at hs
      · cases hs
      · rename_i hreg
        simp only [Option.some.injEq] at hs
        subst hs
        obtain ⟨p1, p2, p3, p4⟩ := h3
        have hni : i ∉ s.registered := fun h => hreg (.inl h)
        have hna : i ∉ s.all := fun h => hni (h1 i h)
        have hinfo : ∀ j, (setInfo s i (newInfo .alive)).info j = if j = i then newInfo .alive else s.info j := fun _ => rfl
        have hns : isStepping (newInfo .alive) = false := rfl
        simp only [hinfo, if_true, hns, Bool.false_eq_true, if_false]
        constructor
        · simp only [setInfo, List.mem_cons]
          grind
        · simp only [setInfo, List.mem_cons, newInfo]
          grind
        · simp only [setInfo, hu, List.mem_cons]
          refine ⟨by grind, ?_, by grind, ?_⟩
          · intro j hj
            unfold Agree
            simp only
            by_cases hji : j = i
            · subst hji
              right
              simp only [if_true, hns]
              constructor
              · intro hm; exact absurd (p1 j hm) hna
              · intro h; cases h
            · have := p2 j (by grind)
              unfold Agree at this
              simp only [if_neg hji]
              exact this
          · intro he j hj
            by_cases hji : j = i
            · subst hji
              simp [Kept, newInfo]
            · simp only [if_neg hji]
              exact p4 he j (by grind)
    | _ => rw [hu] at hs; cases hs
  | remove i =>
    simp only [step] at hs
    cases hu : s.upd with
    | idle =>
      rw [hu] at hs h3
      simp only [Option.some.injEq] at hs
      subst hs
      obtain ⟨p1, p2, p3, p4⟩ := h3
      constructor
      · simp only [List.mem_filter]; grind
      · simp only [List.mem_filter]; grind
      · simp only [hu, List.mem_filter]
        refine ⟨by grind, ?_, by grind, by grind⟩
        intro j hj
        have := p2 j hj.1
        unfold Agree at *
        simp only [List.mem_filter]
        grind
    | _ => rw [hu] at hs; cases hs
  | assign t i state stepCmd inWait =>
    simp only [step, Option.some.injEq] at hs
    subst hs
    have hd : ∃ u, (if u = t then true else s.dirty u) = true := ⟨t, by simp⟩
    have hi : ∀ j, ((setInfo s i { s.info i with state := state, stepCmd := stepCmd, inWait := inWait }).info j).thread = (s.info j).thread ∧
        ((setInfo s i { s.info i with state := state, stepCmd := stepCmd, inWait := inWait }).info j).killed = (s.info j).killed := by
      intro j
      simp only [setInfo]
      split
      · rename_i h; subst h; exact ⟨rfl, rfl⟩
      · exact ⟨rfl, rfl⟩
    refine ⟨h1, fun j hj => by rw [(hi j).1]; exact h2 j hj, ?_⟩
    show (match s.upd with | .idle => _ | .filter todo newAll => _ | .steps todo newStep => _)
    cases hu : s.upd with
    | idle =>
      rw [hu] at h3
      obtain ⟨p1, p2, p3, p4⟩ := h3
      refine ⟨p1, fun j _ => .inl hd, ?_, ?_⟩
      · intro j hj hl
        unfold Live at hl
        rw [(hi j).1, (hi j).2] at hl
        exact p3 j hj hl
      · intro he j hj
        unfold Kept
        rw [(hi j).1, (hi j).2]
        exact p4 he j hj
    | filter todo newAll =>
      rw [hu] at h3
      obtain ⟨p1, p2, p3, p4, p5⟩ := h3
      refine ⟨p1, p2, .inl hd, ?_, ?_⟩
      · intro he j hj
        unfold Kept
        rw [(hi j).1, (hi j).2]
        exact p4 he j hj
      · intro j hj hl
        unfold Live at hl
        rw [(hi j).1, (hi j).2] at hl
        exact p5 j hj hl
    | steps todo newStep =>
      rw [hu] at h3
      obtain ⟨p1, p2, p3, p4, p5, p6, p7⟩ := h3
      refine ⟨p1, p2, fun j _ _ => .inl hd, p4, .inl hd, ?_, ?_⟩
      · intro j hj hl
        unfold Live at hl
        rw [(hi j).1, (hi j).2] at hl
        exact p6 j hj hl
      · intro he j hj
        unfold Kept
        rw [(hi j).1, (hi j).2]
        exact p7 he j hj
  | begin t =>
    simp only [step] at hs
    cases hu : s.upd with
    | idle =>
      rw [hu] at hs h3
      simp only [Option.some.injEq] at hs
      subst hs
      obtain ⟨p1, p2, p3, p4⟩ := h3
      exact ⟨h1, h2, h1, by simp, .inr rfl, by simp, fun j hj hl => .inl (p3 j hj hl)⟩
    | _ => rw [hu] at hs; cases hs
  | check i =>
    simp only [step] at hs
    cases hu : s.upd with
    | filter todo newAll =>
      rw [hu] at hs h3
      simp only at hs
      split at hs
      · rename_i hit
        simp only [Option.some.injEq] at hs
        subst hs
        obtain ⟨p1, p2, p3, p4, p5⟩ := h3
        refine ⟨h1, h2, ?_, ?_, p3, ?_, ?_⟩
        · simp only [List.mem_filter]; grind
        · intro j hj
          split at hj
          · rcases List.mem_cons.1 hj with rfl | hj
            · exact p1 _ hit
            · exact p2 j hj
          · exact p2 j hj
        · intro he j hj
          split at hj
          · rename_i hr
            rcases List.mem_cons.1 hj with rfl | hj
            · exact (related_iff _).1 hr
            · exact p4 he j hj
          · exact p4 he j hj
        · intro j hj hl
          by_cases hji : j = i
          · subst hji
            right
            rw [if_pos ((related_iff _).2 ⟨hl.1, .inl hl.2⟩)]
            simp
          · rcases p5 j hj hl with h | h
            · left; simp [List.mem_filter, h, hji]
            · right
              split
              · exact List.mem_cons_of_mem _ h
              · exact h
      · cases hs
    | _ => rw [hu] at hs; cases hs
  | checked =>
    simp only [step] at hs
    cases hu : s.upd with
    | filter todo newAll =>
      cases todo with
      | cons a l => rw [hu] at hs; cases hs
      | nil =>
        rw [hu] at hs h3
        simp only [Option.some.injEq] at hs
        subst hs
        obtain ⟨p1, p2, p3, p4, p5⟩ := h3
        exact ⟨p2, h2, by simp, fun i hi => hi, fun i hi hn => absurd hi hn, by simp, p3,
          fun j hj hl => (p5 j hj hl).resolve_left (by simp), p4⟩
    | _ => rw [hu] at hs; cases hs
  | read i b =>
    simp only [step] at hs
    cases hu : s.upd with
    | steps todo newStep =>
      rw [hu] at hs h3
      simp only at hs
      split at hs
      · rename_i hit
        simp only [Option.some.injEq] at hs
        subst hs
        obtain ⟨p1, p2, p3, p4, p5, p6, p7⟩ := h3
        refine ⟨h1, h2, ?_, ?_, ?_, ?_, p5, p6, p7⟩
        · intro j hj
          split at hj
          · rcases List.mem_cons.1 hj with rfl | hj
            · exact p2 _ hit.1
            · exact p1 j hj
          · exact p1 j hj
        · intro j hj
          exact p2 j (List.mem_filter.1 hj).1
        · intro j hj hn
          by_cases hd : ∃ t, s.dirty t = true
          · exact .inl hd
          · right
            have ht : s.touched = [] := p5.resolve_left hd
            have hb : b = isStepping (s.info i) := by
              rcases hit.2 with h | h
              · rw [ht] at h; cases h
              · exact h
            by_cases hji : j = i
            · subst hji
              show (j ∈ if b = true then j :: newStep else newStep) ↔ isStepping (s.info j) = true
              rw [← hb]
              have hnn : j ∉ newStep := fun h => p4 j h hit.1
              cases b <;> simp [hnn]
            · have hnt : j ∉ todo := by
                intro h
                exact hn (List.mem_filter.2 ⟨h, by simpa using hji⟩)
              have := (p3 j hj hnt).resolve_left hd
              show (j ∈ if b = true then i :: newStep else newStep) ↔ isStepping (s.info j) = true
              rw [← this]
              cases b <;> simp [hji]
        · intro j hj hm
          have hm := List.mem_filter.1 hm
          have hji : j ≠ i := by simpa using hm.2
          split at hj
          · rcases List.mem_cons.1 hj with rfl | hj
            · exact hji rfl
            · exact p4 j hj hm.1
          · exact p4 j hj hm.1
      · cases hs
    | _ => rw [hu] at hs; cases hs
  | finish =>
    simp only [step] at hs
    cases hu : s.upd with
    | steps todo newStep =>
      cases todo with
      | cons a l => rw [hu] at hs; cases hs
      | nil =>
        rw [hu] at hs h3
        simp only [Option.some.injEq] at hs
        subst hs
        obtain ⟨p1, p2, p3, p4, p5, p6, p7⟩ := h3
        exact ⟨h1, h2, p1, fun j hj => p3 j hj (by simp), p6, p7⟩
    | _ => rw [hu] at hs; cases hs
  | started i =>
    simp only [step] at hs
    split at hs
    · rename_i hl
      simp only [Option.some.injEq] at hs
      subst hs
      exact inv_set s h i _ s.ended (by simp) rfl (fun h => absurd hl h) (fun he => ⟨he, fun hk => ⟨hk.1, .inl rfl⟩⟩)
    · cases hs
  | ends i =>
    simp only [step] at hs
    split at hs
    · simp only [Option.some.injEq] at hs
      subst hs
      exact inv_set s h i _ true (by simp) rfl (fun _ h => by cases h.2) (by simp)
    · cases hs
  | collect i =>
    simp only [step] at hs
    split at hs
    · simp only [Option.some.injEq] at hs
      subst hs
      exact inv_set s h i _ true (by simp) rfl (fun _ h => by cases h.2) (by simp)
    · cases hs
  | kill i =>
    simp only [step, Option.some.injEq] at hs
    subst hs
    exact inv_set s h i _ true id rfl (fun _ h => by cases h.1) (by simp)

theorem inv_run (as : List Action) (s s' : State) (ha : RegisteredAlive as) (h : Inv s) (hr : run s as = some s') : Inv s' := by
  induction as generalizing s with
  | nil => cases hr; exact h
  | cons a as ih =>
    obtain ⟨s1, h1, h2⟩ := Option.bind_eq_some_iff.1 hr
    exact ih s1 (fun i t hm => ha i t (List.mem_cons_of_mem _ hm)) (inv_step s s1 a (fun i t e => ha i t (by simp [e])) h h1) h2

/-- **C46.** In every history, when all updates are done: if a registered thread that is running is stepping, the debugger knows
that some thread is stepping. -/
theorem c46_not_missed (as : List Action) (s : State) (hr : run start as = some s) (ha : RegisteredAlive as) (hq : Quiet s)
    (i : Nat) (hi : i ∈ s.registered) (hl : Live (s.info i)) (hs : Steps (s.info i)) : anyStepping s = true := by
  obtain ⟨_, _, h3⟩ := inv_run as start s ha inv_start hr
  obtain ⟨hd, hu⟩ := hq
  cases hu' : s.upd with
  | idle =>
    rw [hu'] at h3
    obtain ⟨_, p2, p3, _⟩ := h3
    have := (p2 i (p3 i hi hl)).resolve_left (by rintro ⟨t, ht⟩; rw [hd t] at ht; cases ht)
    have hm := this.2 ((steps_iff _).2 hs)
    unfold anyStepping
    cases hst : s.stepping with
    | nil => rw [hst] at hm; cases hm
    | cons => rfl
  | _ => rw [hu'] at hu; exact hu.elim

/-- **C46.** In every history, when all updates are done and no thread ended since the last of them began: if the debugger believes
that some thread is stepping, then one that is registered is, and it has not been reported as ended; it is running, or the thread
object no longer exists. -/
theorem c46_not_invented (as : List Action) (s : State) (hr : run start as = some s) (ha : RegisteredAlive as) (hq : Quiet s)
    (he : s.ended = false) (hany : anyStepping s = true) :
    ∃ i ∈ s.registered, Steps (s.info i) ∧ (s.info i).killed = false ∧ ((s.info i).thread = .alive ∨ (s.info i).thread = .collected) := by
  obtain ⟨h1, _, h3⟩ := inv_run as start s ha inv_start hr
  obtain ⟨hd, hu⟩ := hq
  cases hu' : s.upd with
  | idle =>
    rw [hu'] at h3
    obtain ⟨p1, p2, _, p4⟩ := h3
    unfold anyStepping at hany
    cases hst : s.stepping with
    | nil => rw [hst] at hany; cases hany
    | cons i l =>
      have hm : i ∈ s.stepping := by rw [hst]; simp
      have hall := p1 i hm
      have := (p2 i hall).resolve_left (by rintro ⟨t, ht⟩; rw [hd t] at ht; cases ht)
      exact ⟨i, h1 i hall, (steps_iff _).1 (this.1 hm), p4 he i hall⟩
  | _ => rw [hu'] at hu; exact hu.elim

/-! ### Witnesses -/

/-- thread 1 assigns and updates alone; `i` is its only entry -/
def updateOne (i : Nat) (b : Bool) : List Action := [.begin 1, .check i, .checked, .read i b, .finish]

/-- A thread that ended in the middle of a step without being reported, and whose object was collected, counts as stepping after
every later update: `_get_related_thread` returns `False`, which is not `None`. -/
theorem c46_collected :
    (run start ([.register 7 .alive, .assign 1 7 .run true false, .ends 7, .collect 7] ++ updateOne 7 true ++ updateOne 7 true)).map
      (fun s => (anyStepping s, s.registered.map fun i => (s.info i).thread)) = some (true, [.collected]) := by decide

/-- A thread registered before it is in `threading._active` (all threads are suspended while it starts) is dropped by the first
update. After it has started and steps, the debugger does not know, whatever the number of updates. -/
theorem c46_limbo :
    (run start [.register 7 .limbo, .begin 1, .check 7, .checked, .finish, .started 7, .assign 1 7 .run true false, .begin 1, .checked, .finish]).map
      (fun s => (anyStepping s, decide (7 ∈ s.registered), (s.info 7).thread, isStepping (s.info 7))) = some (false, true, .alive, true) := by decide

/-- A thread asked to suspend that has not yet reached its wait loop does not count, although the comment in `_is_stepping` says
that it is there for this case. -/
theorem c46_suspending (i : Info) (h : i.state = .suspend) (hw : i.inWait = false) : isStepping i = false := by
  simp [isStepping, h, hw]

/-- An update for the entry 1 wakes the thread that comes last in the iteration over the set, here that of the entry 2. -/
theorem c46_wrong_thread_woken : woken 1 [1, 2] [1, 2] = 2 := by decide

/-- The thread the update is called for is woken only if it comes last. -/
theorem c46_woken_iff (info : Nat) (order1 order2 : List Nat) (l : List Nat) (x : Nat) (h : order2 = l ++ [x]) :
    woken info order1 order2 = info ↔ x = info := by
  subst h
  simp [woken]

/-! ### Cases -/

/-- two threads, one assigns while the other updates -/
example : (run start [.register 1 .alive, .register 2 .alive, .assign 1 1 .run true false, .begin 1, .check 2, .check 1, .checked,
      .assign 2 2 .suspend false true, .read 1 true, .read 2 false, .finish, .begin 2, .check 1, .check 2, .checked, .read 2 true, .read 1 true,
      .finish]).map (fun s => (s.stepping, decide (s.dirty 1 || s.dirty 2), s.ended)) = some ([1, 2], false, false) := by decide

example : (run start ([.register 7 .alive, .assign 1 7 .run true false] ++ updateOne 7 true ++ [.assign 1 7 .suspend true false] ++
    updateOne 7 false)).map (fun s => (anyStepping s, s.registered)) = some (false, [7]) := by decide

end Stepping
