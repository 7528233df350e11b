import Verif.MonThread.Spec
/-!
C114: with `sys.monitoring`, the events of a thread are looked at as those of that thread.
-/

namespace MonThread

theorem walk_mem {l : List Frame} {b : Frame × Bool} (h : walk l = some b) :
    b.1 ∈ l ∧ (b.2 = true → Known b.1 ∨ b.1.kind = .isAlive) := by
  induction l with
  | nil => cases h
  | cons f rest ih =>
    unfold walk at h
    split at h
    · cases h
    · cases h
    · rename_i hk; cases h; exact ⟨List.mem_cons_self .., fun _ => .inl (.inl hk)⟩
    · rename_i hk; cases h; exact ⟨List.mem_cons_self .., fun _ => .inr hk⟩
    · rename_i hk; cases h; exact ⟨List.mem_cons_self .., fun _ => .inl (.inr (.inl hk))⟩
    · rename_i hk; cases h; exact ⟨List.mem_cons_self .., fun _ => .inl (.inr (.inr hk))⟩
    · exact ⟨List.mem_cons_of_mem _ (ih h).1, (ih h).2⟩
    · exact ⟨List.mem_cons_of_mem _ (ih h).1, (ih h).2⟩
    · exact ⟨List.mem_cons_of_mem _ (ih h).1, (ih h).2⟩
    · split at h
      · cases h; exact ⟨List.mem_cons_self .., fun h => by cases h⟩
      · exact ⟨List.mem_cons_of_mem _ (ih h).1, (ih h).2⟩

theorem walk_plain {above : List Frame} (ha : ∀ x ∈ above, Plain x) {l : List Frame} (hl : l ≠ []) :
    walk (above ++ l) = walk l := by
  induction above with
  | nil => rfl
  | cons x above ih =>
    have ih := ih fun y hy => ha y (List.mem_cons_of_mem _ hy)
    have hx := ha x (List.mem_cons_self ..)
    have hne : above ++ l ≠ [] := by simp [hl]
    rw [List.cons_append, walk]
    rcases hx with h | h | h | h <;> rw [h] <;> simp [hne, ih]

/-- What is kept for a thread is of that thread. -/
structure Good (o : Th) (acts : List Act) (s : St) : Prop where
  boot : ∀ b, s.boot = some b → b.2 = true → ∀ e, (.event e ∈ acts ∨ .start e ∈ acts) →
    e.loc b.1.id = none ∨ e.loc b.1.id = some o
  info : ∀ i, s.info = some i → i.thread = o

theorem getInfo_good {helper : Th → Bool} {o : Th} {acts : List Act} {s : St} {e : Event} (hst : Steady o acts)
    (he : .event e ∈ acts ∨ .start e ∈ acts) (h : Good o acts s) : Good o acts (getInfo helper s e) := by
  have hb : Good o acts (bootstrap s e) := by
    unfold bootstrap
    split
    · exact h
    · refine ⟨?_, h.info⟩
      intro b hb hin e' he'
      obtain ⟨hm, hk⟩ := walk_mem hb
      exact (hst e he).2 e' he' b.1 hm (hk hin)
  unfold getInfo
  split
  · exact h
  · dsimp only
    split
    · exact hb
    · rename_i b hbb
      split
      · exact hb
      · rename_i t ht
        refine ⟨hb.boot, ?_⟩
        rintro i ⟨⟩
        have hown := (hst e he).1
        unfold threadOf at ht
        show t = o
        have hact : ∀ t, e.active = some t → t = o := by
          intro t h'
          rcases hown.active with h | h
          · rw [h] at h'; cases h'
          · rw [h] at h'; cases h'; rfl
        split at ht
        · rename_i x hx
          cases ht
          split at hx
          · rename_i hin
            rcases hb.boot b hbb hin e he with h | h
            · rw [h] at hx; cases hx
            · rw [h] at hx; cases hx; rfl
          · cases hx
            cases ha : e.active with
            | none => exact hown.dummy ha
            | some a => exact hact a ha
        · exact hact t ht

theorem run_good {helper : Th → Bool} {o : Th} {all acts : List Act} {s : St} (hst : Steady o all) (hsub : ∀ a ∈ acts, a ∈ all)
    (h : Good o all s) : Good o all (acts.foldl (step helper) s) := by
  induction acts generalizing s with
  | nil => exact h
  | cons a acts ih =>
    refine ih (fun x hx => hsub x (List.mem_cons_of_mem _ hx)) ?_
    have ha := hsub a (List.mem_cons_self ..)
    have hmap : ∀ {s : St} (g : Info → Info), (∀ i, (g i).thread = i.thread) → Good o all s →
        Good o all { s with info := s.info.map g } := by
      intro s g hg h
      refine ⟨h.boot, ?_⟩
      intro i hi
      cases hs : s.info with
      | none => rw [hs] at hi; cases hi
      | some j =>
        rw [hs] at hi
        cases hi
        rw [hg]
        exact h.info j hs
    cases a with
    | event e => exact getInfo_good hst (.inl ha) h
    | start e => exact hmap _ (fun _ => rfl) (getInfo_good hst (.inr ha) h)
    | stop => exact hmap _ (fun _ => rfl) h

/-- **C114.** Whatever happened in a thread, what is kept for it is for the thread's own object. -/
theorem c114_own {helper : Th → Bool} {o : Th} {acts : List Act} (hst : Steady o acts) (i : Info)
    (hi : (run helper acts).info = some i) : i.thread = o :=
  (run_good hst (fun _ h => h) ⟨(by intro b hb; cases hb), (by intro i hi; cases hi)⟩).info i hi

/-- What is kept is kept: the thread of a `ThreadInfo` never changes. -/
theorem c114_kept {helper : Th → Bool} (acts more : List Act) (i : Info) (hi : (run helper acts).info = some i) :
    ∃ j, (run helper (acts ++ more)).info = some j ∧ j.thread = i.thread := by
  unfold run at *
  rw [List.foldl_append]
  generalize acts.foldl (step helper) .init = s at *
  induction more generalizing s i with
  | nil => exact ⟨i, hi, rfl⟩
  | cons a more ih =>
    have : ∃ j, (step helper s a).info = some j ∧ j.thread = i.thread := by
      cases a with
      | event e => exact ⟨i, by simp only [step, getInfo, hi], rfl⟩
      | start e => exact ⟨{ i with trace := true }, by simp only [step, getInfo, hi]; rfl, rfl⟩
      | stop => exact ⟨{ i with trace := false }, by simp only [step, hi]; rfl, rfl⟩
    obtain ⟨j, hj, hji⟩ := this
    obtain ⟨k, hk, hkj⟩ := ih j _ hj
    exact ⟨k, hk, hkj.trans hji⟩

/-- The flag before any `start_monitoring` or `stop_monitoring`. -/
theorem trace_events {helper : Th → Bool} {s : St} {acts : List Act} (hq : ∀ a ∈ acts, Quiet a)
    (h : ∀ i, s.info = some i → i.trace = !helper i.thread) :
    ∀ i, (acts.foldl (step helper) s).info = some i → i.trace = !helper i.thread := by
  induction acts generalizing s with
  | nil => exact h
  | cons a acts ih =>
    refine ih (fun x hx => hq x (List.mem_cons_of_mem _ hx)) ?_
    cases a with
    | start e => exact (hq _ (List.mem_cons_self ..)).elim
    | stop => exact (hq _ (List.mem_cons_self ..)).elim
    | event e =>
      show ∀ i, (getInfo helper s e).info = some i → _
      unfold getInfo
      split
      · exact h
      · dsimp only
        have hb : (bootstrap s e).info = s.info := by unfold bootstrap; split <;> rfl
        split
        · rw [hb]; exact h
        · split
          · rw [hb]; exact h
          · rintro i ⟨⟩; rfl

/-- A stop for the thread, or the end of a helper's own start, leaves the flag off until `start_monitoring`. -/
theorem trace_off {helper : Th → Bool} {s : St} {acts : List Act} {o : Th} (hq : ∀ a ∈ acts, ∀ e, a ≠ .start e)
    (hgood : ∀ i, s.info = some i → i.trace = false) (hnew : helper o = true ∨ s.info ≠ none)
    (hown : ∀ i, (acts.foldl (step helper) s).info = some i → i.thread = o) :
    ∀ i, (acts.foldl (step helper) s).info = some i → i.trace = false := by
  induction acts generalizing s with
  | nil => exact hgood
  | cons a acts ih =>
    have hq' : ∀ x ∈ acts, ∀ e, x ≠ .start e := fun x hx => hq x (List.mem_cons_of_mem _ hx)
    cases a with
    | start e => exact absurd rfl (hq _ (List.mem_cons_self ..) e)
    | stop =>
      refine ih hq' ?_ ?_ hown
      · intro i hi
        have hi : s.info.map (fun i => { i with trace := false }) = some i := hi
        cases hs : s.info with
        | none => rw [hs] at hi; cases hi
        | some j => rw [hs] at hi; cases hi; rfl
      · rcases hnew with h | h
        · exact .inl h
        · right
          show s.info.map _ ≠ none
          cases hs : s.info with
          | none => exact absurd hs h
          | some j => intro h; cases h
    | event e =>
      have hown' : ∀ i, (acts.foldl (step helper) (getInfo helper s e)).info = some i → i.thread = o := hown
      show ∀ i, (acts.foldl (step helper) (getInfo helper s e)).info = some i → _
      have hb : (bootstrap s e).info = s.info := by unfold bootstrap; split <;> rfl
      -- once there, the thread stays
      have keep : ∀ t j, (getInfo helper s e).info = some j → j.thread = t → t = o := by
        intro t j hj hjt
        obtain ⟨k, hk, hkj⟩ : ∃ k, (acts.foldl (step helper) (getInfo helper s e)).info = some k ∧ k.thread = j.thread := by
          clear ih hown hown' hq hq' hgood hnew
          generalize getInfo helper s e = s' at *
          induction acts generalizing s' j with
          | nil => exact ⟨j, hj, rfl⟩
          | cons a more ih =>
            have : ∃ k, (step helper s' a).info = some k ∧ k.thread = j.thread := by
              cases a with
              | event e => exact ⟨j, by simp only [step, getInfo, hj], rfl⟩
              | start e => exact ⟨{ j with trace := true }, by simp only [step, getInfo, hj]; rfl, rfl⟩
              | stop => exact ⟨{ j with trace := false }, by simp only [step, hj]; rfl, rfl⟩
            obtain ⟨k, hk, hkj⟩ := this
            obtain ⟨l, hl, hlk⟩ := ih k (hkj.trans hjt) _ hk
            exact ⟨l, hl, hlk.trans hkj⟩
        rw [← hjt, ← hkj]
        exact hown' k hk
      refine ih hq' ?_ ?_ hown'
      · intro i hi
        have hio := keep i.thread i hi rfl
        revert hi
        unfold getInfo
        split
        · rename_i j hj; intro hi; exact hgood i hi
        · rename_i hnone
          dsimp only
          split
          · rw [hb]; exact fun hi => hgood i hi
          · split
            · rw [hb]; exact fun hi => hgood i hi
            · rename_i t _
              rintro ⟨⟩
              rcases hnew with h | h
              · have hio : t = o := hio
                show (!helper t) = false
                rw [hio, h]
                rfl
              · exact absurd hnone h
      · rcases hnew with h | h
        · exact .inl h
        · right
          unfold getInfo
          split
          · exact h
          · rename_i hn; exact absurd hn h

theorem steady_snoc {o : Th} {acts : List Act} {e : Event} (h : Steady o (acts ++ [.event e])) : Steady o acts := by
  intro x hx
  have hin : ∀ y, (.event y ∈ acts ∨ .start y ∈ acts) → (Act.event y ∈ acts ++ [.event e] ∨ Act.start y ∈ acts ++ [.event e]) := by
    intro y hy
    rcases hy with h | h
    · exact .inl (List.mem_append_left _ h)
    · exact .inr (List.mem_append_left _ h)
  exact ⟨(h x (hin x hx)).1, fun e' he' => (h x (hin x hx)).2 e' (hin e' he')⟩

/-- **C114**, the debugger's own threads: no event of theirs is looked at, whatever happened before (`start_monitoring` is not called in
them). -/
theorem c114_helper {helper alive : Th → Bool} {o : Th} {acts : List Act} {e : Event} (ho : helper o = true)
    (hst : Steady o (acts ++ [.event e])) (hns : ∀ x, .start x ∉ acts) :
    looks helper alive (run helper acts) e = false := by
  have hrun : run helper (acts ++ [.event e]) = getInfo helper (run helper acts) e := by
    unfold run; rw [List.foldl_append]; rfl
  have hoff := trace_off (helper := helper) (s := .init) (acts := acts ++ [Act.event e]) (o := o)
    (by
      intro a ha x hx
      subst hx
      rcases List.mem_append.mp ha with h | h
      · exact hns x h
      · simp at h)
    (by intro i hi; cases hi) (.inl ho) (fun i hi => c114_own hst i hi)
  unfold looks
  rw [← hrun]
  split
  · rfl
  · rename_i i hi
    rw [hoff i hi]
    rfl

theorem found {helper : Th → Bool} {s : St} {e : Event} (hu : Under e) (hs : s.boot = none) (hi : s.info = none) :
    (getInfo helper s e).info ≠ none := by
  unfold getInfo
  rw [hi]
  dsimp only
  unfold bootstrap
  rw [hs]
  dsimp only
  rcases hu with ⟨above, f, below, hst, ha, hk, hl⟩ | ⟨above, f, hst, ha, hk⟩
  · have hw : walk e.stack = some (f, true) := by
      rw [hst, walk_plain ha (by simp)]
      rcases hk with h | h | h <;> simp [walk, h]
    rw [hw]
    dsimp only
    have : threadOf e (f, true) ≠ none := by
      unfold threadOf
      dsimp only
      rw [if_pos rfl]
      cases hloc : e.loc f.id with
      | none =>
        rcases hl with h | h
        · exact absurd hloc h
        · exact h
      | some t => intro h; cases h
    cases ht : threadOf e (f, true) with
    | none => exact absurd ht this
    | some t => intro h; cases h
  · have hw : walk e.stack = some (f, false) := by
      rw [hst, walk_plain ha (by simp), walk, hk]; rfl
    rw [hw]
    dsimp only
    have : threadOf e (f, false) ≠ none := by
      unfold threadOf
      intro h
      cases h
    cases ht : threadOf e (f, false) with
    | none => exact absurd ht this
    | some t => intro h; cases h

/-- A bootstrap frame that was found before: it is still one of the frames outside of the event's. -/
def Nested (acts : List Act) (e : Event) : Prop :=
  ∀ b, ∀ x, (.event x ∈ acts ∨ .start x ∈ acts) → walk x.stack = some b → b.2 = true → (e.loc b.1.id ≠ none ∨ e.active ≠ none)

theorem boot_from {helper : Th → Bool} {all acts : List Act} {s : St} (hsub : ∀ a ∈ acts, a ∈ all)
    (h : ∀ b, s.boot = some b → ∃ x, (.event x ∈ all ∨ .start x ∈ all) ∧ walk x.stack = some b) :
    ∀ b, (acts.foldl (step helper) s).boot = some b → ∃ x, (.event x ∈ all ∨ .start x ∈ all) ∧ walk x.stack = some b := by
  induction acts generalizing s with
  | nil => exact h
  | cons a acts ih =>
    refine ih (fun x hx => hsub x (List.mem_cons_of_mem _ hx)) ?_
    have hget : ∀ e, (.event e ∈ all ∨ .start e ∈ all) → ∀ b, (getInfo helper s e).boot = some b →
        ∃ x, (.event x ∈ all ∨ .start x ∈ all) ∧ walk x.stack = some b := by
      intro e he
      have hb : ∀ b, (bootstrap s e).boot = some b → ∃ x, (.event x ∈ all ∨ .start x ∈ all) ∧ walk x.stack = some b := by
        unfold bootstrap
        split
        · exact h
        · intro b hb; exact ⟨e, he, hb⟩
      unfold getInfo
      split
      · exact h
      · dsimp only
        split
        · exact hb
        · split
          · exact hb
          · exact hb
    cases a with
    | event e => exact hget e (.inl (hsub _ (List.mem_cons_self ..)))
    | start e => exact hget e (.inr (hsub _ (List.mem_cons_self ..)))
    | stop => exact h

theorem info_there {helper : Th → Bool} {acts : List Act} {e : Event} (hu : Under e) (hn : Nested acts e) :
    (getInfo helper (run helper acts) e).info ≠ none := by
  cases hi : (run helper acts).info with
  | some i => unfold getInfo; rw [hi]; dsimp only; rw [hi]; intro h; cases h
  | none =>
    cases hb : (run helper acts).boot with
    | none => exact found hu hb hi
    | some b =>
      obtain ⟨x, hx, hw⟩ := boot_from (helper := helper) (s := .init) (fun _ h => h) (by intro b hb; cases hb) b hb
      unfold getInfo bootstrap
      rw [hi, hb]
      dsimp only
      rw [hb]
      dsimp only
      have : threadOf e b ≠ none := by
        unfold threadOf
        cases hin : b.2 with
        | false => intro h; cases h
        | true =>
          rw [if_pos rfl]
          cases hloc : e.loc b.1.id with
          | none =>
            rcases hn b x hx hw hin with h | h
            · exact absurd hloc h
            · exact h
          | some t => intro h; cases h
      cases ht : threadOf e b with
      | none => exact absurd ht this
      | some t => intro h; cases h

/-- **C114**, the threads of the program: an event in code entered from a frame from which the thread is known, or from nowhere, is
looked at while the thread lives, unless monitoring was stopped in the thread. -/
theorem c114_program {helper alive : Th → Bool} {o : Th} {acts : List Act} {e : Event} (ho : helper o = false)
    (halive : alive o = true) (hst : Steady o (acts ++ [.event e])) (hq : ∀ a ∈ acts, Quiet a) (hu : Under e) (hn : Nested acts e) :
    looks helper alive (run helper acts) e = true := by
  have hrun : run helper (acts ++ [.event e]) = getInfo helper (run helper acts) e := by
    unfold run; rw [List.foldl_append]; rfl
  have htr := trace_events (helper := helper) (s := .init) (acts := acts ++ [Act.event e])
    (by
      intro a ha
      rcases List.mem_append.mp ha with h | h
      · exact hq a h
      · rw [List.mem_singleton.mp h]; trivial) (by intro i hi; cases hi)
  have hne := info_there (helper := helper) hu hn
  unfold looks
  rw [← hrun] at hne ⊢
  split
  · rename_i h; exact absurd h hne
  · rename_i i hi
    rw [htr i hi, c114_own hst i hi, ho, halive]
    rfl

/-- **C114**, a thread in which monitoring was stopped: after `stop_monitoring`, once the thread is known, no event is looked at
until `start_monitoring`. -/
theorem c114_stopped {helper alive : Th → Bool} {o : Th} {p q : List Act} {e : Event} (hst : Steady o (p ++ .stop :: q ++ [.event e]))
    (hk : (run helper p).info ≠ none) (hns : ∀ x, .start x ∉ q) :
    looks helper alive (run helper (p ++ .stop :: q)) e = false := by
  have hrun : run helper (p ++ .stop :: q ++ [.event e]) = getInfo helper (run helper (p ++ .stop :: q)) e := by
    unfold run; rw [List.foldl_append]; rfl
  have hsplit : run helper (p ++ .stop :: q ++ [.event e]) = (q ++ [Act.event e]).foldl (step helper) (step helper (run helper p) .stop) := by
    unfold run; simp [List.foldl_append]
  have hoff := trace_off (helper := helper) (s := step helper (run helper p) .stop) (acts := q ++ [Act.event e]) (o := o)
    (by
      intro a ha x hx
      subst hx
      rcases List.mem_append.mp ha with h | h
      · exact hns x h
      · simp at h)
    (by
      intro i hi
      have hi : (run helper p).info.map (fun i => { i with trace := false }) = some i := hi
      cases hs : (run helper p).info with
      | none => rw [hs] at hi; cases hi
      | some j => rw [hs] at hi; cases hi; rfl)
    (.inr (by
      show (run helper p).info.map _ ≠ none
      cases hs : (run helper p).info with
      | none => exact absurd hs hk
      | some j => intro h; cases h))
    (fun i hi => c114_own hst i (by rw [hsplit]; exact hi))
  unfold looks
  rw [← hrun, hsplit]
  split
  · rfl
  · rename_i i hi
    rw [hoff i hi]
    rfl

/-- **C114**, a thread in which monitoring was started: until it is stopped, events are looked at while the thread lives. -/
theorem c114_started {helper alive : Th → Bool} {o : Th} {p q : List Act} {x e : Event} (hst : Steady o (p ++ .start x :: q ++ [.event e]))
    (hk : (run helper (p ++ [.start x])).info ≠ none) (halive : alive o = true) (hq : ∀ a ∈ q, Quiet a) :
    looks helper alive (run helper (p ++ .start x :: q)) e = true := by
  have hrun : run helper (p ++ .start x :: q ++ [.event e]) = getInfo helper (run helper (p ++ .start x :: q)) e := by
    unfold run; rw [List.foldl_append]; rfl
  have hsplit : run helper (p ++ .start x :: q ++ [.event e]) = (q ++ [Act.event e]).foldl (step helper) (run helper (p ++ [Act.start x])) := by
    unfold run; simp [List.foldl_append]
  have hon : ∀ i, (run helper (p ++ [.start x])).info = some i → i.trace = true := by
    intro i hi
    have hi : (step helper (run helper p) (.start x)).info = some i := by
      have : run helper (p ++ [.start x]) = step helper (run helper p) (.start x) := by unfold run; simp [List.foldl_append]
      rw [← this]; exact hi
    have hi : (getInfo helper (run helper p) x).info.map (fun i => { i with trace := true }) = some i := hi
    cases hs : (getInfo helper (run helper p) x).info with
    | none => rw [hs] at hi; cases hi
    | some j => rw [hs] at hi; cases hi; rfl
  have key : ∀ (acts : List Act) (s : St), (∀ a ∈ acts, Quiet a) → s.info ≠ none → (acts.foldl (step helper) s).info = s.info := by
    intro acts
    induction acts with
    | nil => intro s _ _; rfl
    | cons a acts ih =>
      intro s hq hs
      have hstep : (step helper s a).info = s.info := by
        cases a with
        | event e =>
          show (getInfo helper s e).info = s.info
          unfold getInfo
          split
          · rfl
          · rename_i h; exact absurd h hs
        | start e => exact (hq _ (List.mem_cons_self ..)).elim
        | stop => exact (hq _ (List.mem_cons_self ..)).elim
      rw [List.foldl_cons, ih _ (fun y hy => hq y (List.mem_cons_of_mem _ hy)) (by rw [hstep]; exact hs), hstep]
  have hfin : (run helper (p ++ .start x :: q ++ [.event e])).info = (run helper (p ++ [.start x])).info := by
    rw [hsplit]
    apply key _ _ _ hk
    intro a ha
    rcases List.mem_append.mp ha with h | h
    · exact hq a h
    · rw [List.mem_singleton.mp h]; trivial
  unfold looks
  rw [← hrun]
  split
  · rename_i h; rw [hfin] at h; exact absurd h hk
  · rename_i i hi
    rw [c114_own hst i hi, halive]
    rw [hfin] at hi
    rw [hon i hi]
    rfl

/-- `c114_started` where `start_monitoring` is called in code entered from a frame from which the thread is known, or from nowhere. -/
theorem c114_started_under {helper alive : Th → Bool} {o : Th} {p q : List Act} {x e : Event}
    (hst : Steady o (p ++ .start x :: q ++ [.event e])) (hu : Under x) (hn : Nested p x) (halive : alive o = true)
    (hq : ∀ a ∈ q, Quiet a) : looks helper alive (run helper (p ++ .start x :: q)) e = true := by
  refine c114_started hst ?_ halive hq
  have hne := info_there (helper := helper) hu hn
  have : run helper (p ++ [Act.start x]) = step helper (run helper p) (.start x) := by unfold run; simp [List.foldl_append]
  rw [this]
  show (getInfo helper (run helper p) x).info.map _ ≠ none
  cases hs : (getInfo helper (run helper p) x).info with
  | none => exact absurd hs hne
  | some j => intro h; cases h

/-- **C114**, a thread that still starts: nothing is kept for it, and nothing is looked at. -/
theorem c114_early {helper alive : Th → Bool} {above : List Frame} {f : Frame} {below : List Frame} {e : Event}
    (hst : e.stack = above ++ f :: below) (ha : ∀ x ∈ above, Plain x) (hf : f.kind = .boot ∨ f.kind = .runMain) :
    getInfo helper .init e = .init ∧ looks helper alive .init e = false := by
  have hw : walk e.stack = none := by
    rw [hst, walk_plain ha (by simp)]
    rcases hf with h | h <;> simp [walk, h]
  have : getInfo helper .init e = .init := by
    unfold getInfo bootstrap
    simp only [St.init, hw]
  refine ⟨this, ?_⟩
  unfold looks
  rw [this]
  rfl

/-! ### Examples and witnesses -/

/-- A thread of `threading`, started by the patched `start_new_thread`: in its bootstrap, then in its code. -/
def early : Event := ⟨[⟨1, .boot⟩, ⟨0, .call⟩], fun i => if i = 0 then some 5 else none, none, 5⟩
def later : Event := ⟨[⟨4, .user⟩, ⟨3, .threading⟩, ⟨2, .inner⟩, ⟨1, .boot⟩, ⟨0, .call⟩],
  fun i => if i = 0 ∨ i = 2 then some 5 else none, some 5, 5⟩

/-- The hypotheses of `c114_program` hold for it. -/
theorem c114_example : looks (fun _ => false) (fun _ => true) (run (fun _ => false) [.event early, .event early]) later = true ∧
    (run (fun _ => false) [.event early, .event early]).info = none := by
  have hst : Steady 5 ([.event early, .event early] ++ [.event later]) := by
    have hcases : ∀ x, (Act.event x ∈ [.event early, .event early] ++ [.event later] ∨
        Act.start x ∈ [.event early, .event early] ++ [.event later]) → x = early ∨ x = later := by
      intro x hx
      simp at hx
      exact hx
    intro x hx
    refine ⟨?_, ?_⟩
    · rcases hcases x hx with rfl | rfl
      · refine ⟨?_, .inl rfl, fun _ => rfl, ?_⟩ <;> intro f hf <;> simp [early] at hf <;> rcases hf with rfl | rfl <;> simp [early, Known]
      · refine ⟨?_, .inr rfl, fun h => (by cases h), ?_⟩ <;> intro f hf <;> simp [later] at hf <;>
          rcases hf with rfl | rfl | rfl | rfl | rfl <;> simp [later, Known]
    · intro y hy f _ _
      rcases hcases y hy with rfl | rfl
      · simp only [early]; split <;> simp
      · simp only [later]; split <;> simp
  refine ⟨c114_program (o := 5) rfl rfl hst (by intro a ha; simp at ha; rw [ha]; trivial) ?_ ?_, rfl⟩
  · refine .inl ⟨[⟨4, .user⟩, ⟨3, .threading⟩], ⟨2, .inner⟩, [⟨1, .boot⟩, ⟨0, .call⟩], rfl, ?_, .inl rfl, .inl (by simp [later])⟩
    intro x hx
    simp at hx
    rcases hx with rfl | rfl
    · exact .inl rfl
    · exact .inr (.inl rfl)
  · intro b x hx hw hin
    exact .inr (by simp [later])

/-- The first event of the thread `1` after the debugger was attached is in `is_alive()` of the thread `7`, which it watches. -/
def watching : Event := ⟨[⟨2, .isAlive⟩, ⟨1, .user⟩, ⟨0, .user⟩], fun i => if i = 2 then some 7 else none, some 1, 1⟩
def after : Event := ⟨[⟨3, .user⟩, ⟨1, .user⟩, ⟨0, .user⟩], fun i => if i = 2 then some 7 else none, some 1, 1⟩

/-- The thread `1` is taken to be the thread `7` from then on, and once `7` has ended no event of `1` is looked at any more. -/
theorem c114_is_alive_witness : (run (fun _ => false) [.event watching]).info = some ⟨7, true⟩ ∧
    looks (fun _ => false) (fun t => t != 7) (run (fun _ => false) [.event watching]) after = false ∧
    looks (fun _ => false) (fun t => t != 7) (run (fun _ => false) []) after = true := by decide

/-- A thread whose outermost frame is another function of `threading`, `pydevd` or `pydev_monkey` is never known. -/
theorem c114_outermost_witness (e : Event) (h : e.stack = [⟨1, .user⟩, ⟨0, .threading⟩]) (helper alive : Th → Bool) :
    looks helper alive .init e = false := by
  unfold looks getInfo bootstrap
  simp only [St.init, h, walk]
  rfl

end MonThread
