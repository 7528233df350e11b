import Verif.HideThreads.Model
/-!
C115: the program does not see the debugger's threads, and sees all of its own.
-/

namespace HideThreads

/-- The threads there are: started, not ended. -/
def existing (s : St) : List Th := s.active ++ s.limbo

/-- The proviso: while the first helper is being made no other is begun. -/
def Alone (s : St) : Act → Prop
  | .begin _ _ => s.pickP = true ∨ ∀ c, s.pc c = .idle
  | _ => True

/-- Every step of a history meets it. -/
def Orderly (k : Config) : St → List Act → Prop
  | _, [] => True
  | s, a :: acts => Alone s a ∧ Orderly k (step k s a) acts

/-- Nothing is replaced yet. -/
def Fresh (s : St) : Prop := s.flag = false ∧ s.enumP = false ∧ s.countP = false

/-- Where the thread that makes the first helper is. -/
def FirstAt (s : St) (c : Nat) (t : Th) : Prop :=
  ((s.pc c = .check t ∨ s.pc c = .setFlag t) ∧ Fresh s) ∨
  ((s.pc c = .names t ∨ s.pc c = .enum t) ∧ s.flag = true ∧ s.enumP = false ∧ s.countP = false) ∨
  (s.pc c = .count t ∧ s.flag = true ∧ s.enumP = true ∧ s.countP = false) ∨
  (s.pc c = .pick t ∧ s.flag = true ∧ s.enumP = true ∧ s.countP = true)

structure Inv (k : Config) (s : St) : Prop where
  marked : ∀ t ∈ s.marked, k.helper t = true
  helpers : ∀ t ∈ existing s, k.helper t = true → t ∈ s.marked
  before : s.pickP = false → s.marked = [] ∧ (((∀ c, s.pc c = .idle) ∧ Fresh s) ∨
    ∃ c t, k.helper t = true ∧ (∀ c', c' ≠ c → s.pc c' = .idle) ∧ FirstAt s c t)
  after : s.pickP = true → (s.flag = true ∧ s.enumP = true ∧ s.countP = true) ∧
    ∀ c, s.pc c = .idle ∨ ∃ t, k.helper t = true ∧ (s.pc c = .check t ∨ s.pc c = .attrs t)

theorem inv_init {k : Config} {l : List Th} (hl : ∀ t ∈ l, k.helper t = false) : Inv k (.init l) := by
  refine ⟨?_, ?_, ?_, ?_⟩
  · intro t ht; cases ht
  · intro t ht hh
    have ht : t ∈ l ++ [] := ht
    rw [List.append_nil] at ht
    rw [hl t ht] at hh
    cases hh
  · intro _
    exact ⟨rfl, .inl ⟨fun _ => rfl, rfl, rfl, rfl⟩⟩
  · intro h; cases h

/-- Steps that only change the threads there are. -/
theorem inv_threads {k : Config} {s : St} {active limbo : List Th} (h : Inv k s)
    (hn : ∀ t ∈ active ++ limbo, t ∈ existing s ∨ (k.helper t = true → t ∈ s.marked)) :
    Inv k ⟨s.flag, s.enumP, s.countP, s.pickP, s.pc, s.marked, active, limbo⟩ := by
  refine ⟨h.marked, ?_, h.before, h.after⟩
  intro t ht hh
  rcases hn t ht with h' | h'
  · exact h.helpers t h' hh
  · exact h' hh

theorem inv_begin {k : Config} {s : St} {c : Nat} {t : Th} (h : Inv k s) (hi : s.pc c = .idle) (hk : k.helper t = true)
    (ha : s.pickP = true ∨ ∀ c, s.pc c = .idle) : Inv k (s.setPc c (.check t)) := by
  refine ⟨h.marked, h.helpers, ?_, ?_⟩
  · intro hp
    have hp : s.pickP = false := hp
    obtain ⟨hm, hcase⟩ := h.before hp
    refine ⟨hm, .inr ⟨c, t, hk, ?_, ?_⟩⟩
    · intro c' hc'
      simp only [St.setPc, if_neg hc']
      rcases ha with ha | ha
      · rw [hp] at ha; cases ha
      · exact ha c'
    · refine .inl ⟨.inl (by simp [St.setPc]), ?_⟩
      rcases hcase with ⟨_, hf⟩ | ⟨c0, t0, _, _, hf⟩
      · exact hf
      · rcases ha with ha | ha
        · rw [hp] at ha; cases ha
        · have := ha c0
          unfold FirstAt at hf
          rw [this] at hf
          simp at hf
  · intro hp
    obtain ⟨hf, hpc⟩ := h.after hp
    refine ⟨hf, ?_⟩
    intro c'
    by_cases hc : c' = c
    · right; exact ⟨t, hk, .inl (by simp [St.setPc, hc])⟩
    · simp only [St.setPc, if_neg hc]; exact hpc c'

theorem inv_advance {k : Config} (hs : k.supported = true) (ha : k.apply = true) {s : St} {c : Nat} (h : Inv k s) :
    Inv k (advance k s c) := by
  cases hp : s.pickP with
  | true =>
    obtain ⟨⟨hf, he, hc⟩, hpc⟩ := h.after hp
    unfold advance
    rcases hpc c with hi | ⟨t, ht, hi | hi⟩
    · rw [hi]; exact h
    · rw [hi]
      dsimp only
      rw [hf]
      simp only [Bool.not_true, Bool.and_false]
      refine ⟨h.marked, h.helpers, fun hp' => ?_, fun _ => ⟨⟨hf, he, hc⟩, ?_⟩⟩
      · have hp' : s.pickP = false := hp'
        rw [hp] at hp'; cases hp'
      · intro c'
        by_cases hcc : c' = c
        · right; exact ⟨t, ht, .inr (by simp [St.setPc, hcc])⟩
        · simp only [St.setPc, if_neg hcc]; exact hpc c'
    · rw [hi]
      dsimp only
      refine ⟨?_, ?_, fun hp' => ?_, fun _ => ⟨⟨hf, he, hc⟩, ?_⟩⟩
      · intro x hx
        rcases List.mem_cons.mp hx with rfl | hx
        · exact ht
        · exact h.marked x hx
      · intro x hx hh
        exact List.mem_cons_of_mem _ (h.helpers x hx hh)
      · have hp' : s.pickP = false := hp'
        rw [hp] at hp'; cases hp'
      · intro c'
        by_cases hcc : c' = c
        · left; simp [St.setPc, hcc]
        · simp only [St.setPc, if_neg hcc]; exact hpc c'
  | false =>
    obtain ⟨hm, hcase⟩ := h.before hp
    rcases hcase with ⟨hidle, _⟩ | ⟨c0, t, ht, hoth, hfirst⟩
    · unfold advance; rw [hidle c]; exact h
    · by_cases hcc : c = c0
      · subst hcc
        have key : ∀ (flag enumP countP : Bool) (p : Pc),
            FirstAt ⟨flag, enumP, countP, false, fun x => if x = c then p else s.pc x, s.marked, s.active, s.limbo⟩ c t →
            Inv k ⟨flag, enumP, countP, false, fun x => if x = c then p else s.pc x, s.marked, s.active, s.limbo⟩ := by
          intro flag enumP countP p hfa
          refine ⟨h.marked, h.helpers, fun _ => ⟨hm, .inr ⟨c, t, ht, ?_, hfa⟩⟩, fun hp' => by cases hp'⟩
          intro c' hc'
          show (if c' = c then p else s.pc c') = _
          rw [if_neg hc']
          exact hoth c' hc'
        unfold advance
        rcases hfirst with ⟨hpc, hf, he, hco⟩ | ⟨hpc, hf, he, hco⟩ | ⟨hpc, hf, he, hco⟩ | ⟨hpc, hf, he, hco⟩
        · rcases hpc with hpc | hpc
          · rw [hpc]
            simp only [ha, hf, Bool.not_false, Bool.and_self, if_true, St.setPc, he, hco, hp]
            exact key _ _ _ _ (.inl ⟨.inr (by simp), rfl, rfl, rfl⟩)
          · rw [hpc]
            simp only [St.setPc, he, hco, hp]
            exact key _ _ _ _ (.inr (.inl ⟨.inl (by simp), rfl, rfl, rfl⟩))
        · rcases hpc with hpc | hpc
          · rw [hpc]
            simp only [hs, he, Bool.not_false, Bool.and_self, if_true, St.setPc, hf, hco, hp]
            exact key _ _ _ _ (.inr (.inl ⟨.inr (by simp), rfl, rfl, rfl⟩))
          · rw [hpc]
            simp only [St.setPc, hf, hco, hp]
            exact key _ _ _ _ (.inr (.inr (.inl ⟨by simp, rfl, rfl, rfl⟩)))
        · rw [hpc]
          simp only [St.setPc, hf, he, hp]
          exact key _ _ _ _ (.inr (.inr (.inr ⟨by simp, rfl, rfl, rfl⟩)))
        · rw [hpc]
          refine ⟨h.marked, h.helpers, fun hp' => (by cases hp'), fun _ => ⟨⟨hf, he, hco⟩, ?_⟩⟩
          intro c'
          by_cases hc' : c' = c
          · right; exact ⟨t, ht, .inr (by simp [St.setPc, hc'])⟩
          · left; simp only [St.setPc, if_neg hc']; exact hoth c' hc'
      · unfold advance; rw [hoth c hcc]; exact h

theorem inv_step {k : Config} (hs : k.supported = true) (ha : k.apply = true) {s : St} {a : Act} (h : Inv k s) (hal : Alone s a) :
    Inv k (step k s a) := by
  cases a with
  | begin c t =>
    simp only [step]
    split
    · rename_i hc; exact inv_begin h hc.1 hc.2.1 hal
    · exact h
  | adv c => exact inv_advance hs ha h
  | start t =>
    simp only [step]
    split
    · rename_i hc
      refine inv_threads h ?_
      intro x hx
      rw [← List.append_assoc] at hx
      rcases List.mem_append.mp hx with hx | hx
      · exact .inl hx
      · rw [List.mem_singleton.mp hx]; exact .inr hc.2.2
    · exact h
  | activate t =>
    simp only [step]
    split
    · rename_i hc
      refine inv_threads h ?_
      intro x hx
      left
      rcases List.mem_append.mp hx with hx | hx
      · rcases List.mem_append.mp hx with hx | hx
        · exact List.mem_append_left _ hx
        · rw [List.mem_singleton.mp hx]; exact List.mem_append_right _ hc
      · exact List.mem_append_right _ (List.mem_filter.mp hx).1
    · exact h
  | finish t =>
    refine inv_threads h ?_
    intro x hx
    left
    rcases List.mem_append.mp hx with hx | hx
    · exact List.mem_append_left _ (List.mem_filter.mp hx).1
    · exact List.mem_append_right _ hx

theorem inv_run {k : Config} (hs : k.supported = true) (ha : k.apply = true) {s : St} {acts : List Act} (h : Inv k s)
    (ho : Orderly k s acts) : Inv k (acts.foldl (step k) s) := by
  induction acts generalizing s with
  | nil => exact h
  | cons a acts ih => exact ih (inv_step hs ha h ho.1) ho.2

theorem inv_no_helper {k : Config} {s : St} (h : Inv k s) (hp : s.pickP = false) : ∀ t ∈ existing s, k.helper t = false := by
  intro t ht
  cases hh : k.helper t with
  | false => rfl
  | true =>
    have := h.helpers t ht hh
    rw [(h.before hp).1] at this
    cases this

theorem inv_enumerate {k : Config} {s : St} (h : Inv k s) : enumerate s = (existing s).filter fun t => !k.helper t := by
  have hmk : ∀ t ∈ existing s, (!s.marked.contains t) = !k.helper t := by
    intro t ht
    cases hh : k.helper t with
    | true => simpa using h.helpers t ht hh
    | false =>
      have : t ∉ s.marked := fun hm => by rw [h.marked t hm] at hh; cases hh
      simpa using this
  unfold enumerate
  dsimp only
  split
  · exact List.filter_congr hmk
  · rename_i he
    have hp : s.pickP = false := by
      cases hp : s.pickP with
      | false => rfl
      | true => exact absurd (h.after hp).1.2.1 he
    have := inv_no_helper h hp
    rw [List.filter_eq_self.mpr (fun t ht => by rw [this t ht]; rfl)]
    rfl

/-- **C115.** In every history in which no helper is begun while the first is being made, `threading.enumerate()` gives the
threads of the program, all of them and in order, and none of the debugger's. -/
theorem c115_enumerate {k : Config} (hs : k.supported = true) (ha : k.apply = true) {l : List Th} (hl : ∀ t ∈ l, k.helper t = false)
    {acts : List Act} (ho : Orderly k (.init l) acts) :
    enumerate (run k l acts) = (existing (run k l acts)).filter fun t => !k.helper t :=
  inv_enumerate (inv_run hs ha (inv_init hl) ho)

/-- `threading.active_count()` is the number of them. -/
theorem c115_count {k : Config} (hs : k.supported = true) (ha : k.apply = true) {l : List Th} (hl : ∀ t ∈ l, k.helper t = false)
    {acts : List Act} (ho : Orderly k (.init l) acts) :
    activeCount (run k l acts) = ((existing (run k l acts)).filter fun t => !k.helper t).length := by
  have h := inv_run hs ha (inv_init hl) ho
  have h : Inv k (run k l acts) := h
  unfold activeCount
  split
  · rw [inv_enumerate h]
  · rename_i hc
    have hp : (run k l acts).pickP = false := by
      cases hp : (run k l acts).pickP with
      | false => rfl
      | true => exact absurd (h.after hp).1.2.2 hc
    have := inv_no_helper h hp
    rw [List.filter_eq_self.mpr (fun t ht => by rw [this t ht]; rfl)]
    exact List.length_append.symm

/-- At the end of the process a thread of the debugger that is to be waited for is still found. -/
theorem c115_shutdown {k : Config} (hs : k.supported = true) (ha : k.apply = true) {l : List Th} (hl : ∀ t ∈ l, k.helper t = false)
    {acts : List Act} (ho : Orderly k (.init l) acts) (waits : Th → Bool) :
    (pickSome waits (run k l acts) = none ↔ ∀ t ∈ existing (run k l acts), waits t = false) ∧
    ∀ t, pickSome waits (run k l acts) = some t → t ∈ existing (run k l acts) ∧ waits t = true := by
  have h : Inv k (run k l acts) := inv_run hs ha (inv_init hl) ho
  have heq : pickSome waits (run k l acts) = (existing (run k l acts)).find? waits := by
    unfold pickSome
    split
    · rfl
    · rename_i hp
      have hp : (run k l acts).pickP = false := by simpa using hp
      have := inv_no_helper h hp
      rw [inv_enumerate h, List.filter_eq_self.mpr (fun t ht => by rw [this t ht]; rfl)]
  rw [heq]
  refine ⟨?_, fun t ht => ⟨List.mem_of_find?_eq_some ht, List.find?_some ht⟩⟩
  rw [List.find?_eq_none]
  simp

/-- The threads of the program are those it started and that have not ended, whatever the debugger does: making helpers neither adds to
them nor takes from them. -/
theorem c115_untouched (k : Config) (s : St) (c : Nat) (t : Th) :
    existing (step k s (.begin c t)) = existing s ∧ existing (step k s (.adv c)) = existing s := by
  constructor
  · simp only [step]; split <;> rfl
  · show existing (advance k s c) = existing s
    unfold advance
    split <;> rfl

/-- The debugger itself, with what it saved, sees all. -/
theorem c115_saved (s : St) (t : Th) : t ∈ savedEnumerate s ↔ t ∈ s.active ∨ t ∈ s.limbo := by
  unfold savedEnumerate
  exact List.mem_append

/-! ### Examples and witnesses -/

/-- Threads from 10 on are the debugger's. -/
def cfg : Config := ⟨true, true, fun t => decide (10 ≤ t)⟩

/-- The main thread 0 starts 1, makes the helper 10 and starts it; a second helper, 11, is being made. -/
def hist : List Act := [.start 1, .activate 1, .begin 0 10, .adv 0, .adv 0, .adv 0, .adv 0, .adv 0, .adv 0, .adv 0,
  .start 10, .activate 10, .start 2, .begin 0 11, .adv 0]

theorem c115_example : Orderly cfg (.init [0]) hist ∧ existing (run cfg [0] hist) = [0, 1, 10, 2] ∧
    enumerate (run cfg [0] hist) = [0, 1, 2] ∧ activeCount (run cfg [0] hist) = 3 ∧
    pickSome (fun t => t = 10) (run cfg [0] hist) = some 10 := by
  refine ⟨?_, by decide, by decide, by decide, by decide⟩
  unfold hist Orderly
  refine ⟨trivial, trivial, ?_⟩
  refine ⟨.inr fun c => rfl, ?_⟩
  refine ⟨trivial, trivial, trivial, trivial, trivial, trivial, trivial, trivial, trivial, trivial, ?_⟩
  exact ⟨.inl (by decide), trivial, trivial⟩

/-- Without the proviso: while the thread 0 is about to replace `enumerate` for the first helper, the thread 1 makes and starts a second
one, which the program sees. -/
theorem c115_overlap_witness : enumerate (run cfg [0, 1] [.begin 0 10, .adv 0, .adv 0, .begin 1 11, .adv 1, .adv 1, .start 11]) = [0, 1, 11] := by
  decide

/-- On a Python whose `enumerate` has other names, the helpers are seen. -/
theorem c115_unsupported_witness : enumerate (run ⟨false, true, cfg.helper⟩ [0] [.begin 0 10, .adv 0, .adv 0, .adv 0, .adv 0, .start 10]) = [0, 10] := by
  decide

end HideThreads
