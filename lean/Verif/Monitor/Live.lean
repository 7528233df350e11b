import Verif.Monitor.Lemmas
/-!
The events that the breakpoints of a function `c` need are on, at every point of a history where no breakpoint is being added.
-/

namespace Monitor

open Py

/-- the information shows the breakpoints of `c` -/
def Covers (s : State) (c : Code) (i : Info) : Prop :=
  i.skip = false ∧ i.filtered = false ∧ (∀ l, Breaks s c l → (Dict.get i.bps l).isSome) ∧ (BreaksFn s c → i.fn.isSome)

def PcCov (s : State) (c : Code) : Pc → Prop
  | .breaks _ _ bs => ∀ l, Breaks s c l → (Dict.get bs l).isSome
  | .fns _ _ bs fn => (∀ l, Breaks s c l → (Dict.get bs l).isSome) ∧ (BreaksFn s c → fn.isSome)
  | .ready _ i => Covers s c i
  | _ => True

/-- `c` has a breakpoint -/
def Some' (s : State) (c : Code) : Prop := (∃ l, Breaks s c l) ∨ BreaksFn s c

structure Good (c : Code) (s : State) : Prop where
  act : Some' s c → s.active = true
  line : ∀ l, Breaks s c l → s.lineOff c l = false
  st : Some' s c → s.startOff c = false
  cache : ∀ i, s.cache c.key = some i → i.mtime = s.mtime → Covers s c i
  pc : ∀ t rest, s.stack t = c :: rest → PcCov s c (s.pc t)

/-- the handler of a start event is running -/
def StartPc : Pc → Prop
  | .lookup .start | .miss .start | .mtimed .start _ | .breaks .start _ _ | .fns .start _ _ _ | .ready .start _ => True
  | _ => False

/-- line events are on for the frames of `c`, or will be -/
def Frames (E : Env) (c : Code) (s : State) : Prop :=
  ∀ t, c ∈ s.stack t → (∃ l, Breaks s c l) → s.lineOn c = true ∨ (∃ u, E.known u = true ∧ .trace u c ∈ s.queue) ∨
    (∃ rest, s.stack t = c :: rest ∧ c ∉ rest ∧ StartPc (s.pc t))

theorem covers_mono {s s' : State} {c : Code} {i : Info} (h : Covers s c i) (hB : ∀ l, Breaks s' c l → Breaks s c l)
    (hF : BreaksFn s' c → BreaksFn s c) : Covers s' c i :=
  ⟨h.1, h.2.1, fun l hl => h.2.2.1 l (hB l hl), fun hf => h.2.2.2 (hF hf)⟩

theorem pcCov_mono {s s' : State} {c : Code} {p : Pc} (h : PcCov s c p) (hB : ∀ l, Breaks s' c l → Breaks s c l)
    (hF : BreaksFn s' c → BreaksFn s c) : PcCov s' c p := by
  cases p <;> simp only [PcCov] at h ⊢
  · exact fun l hl => h l (hB l hl)
  · exact ⟨fun l hl => h.1 l (hB l hl), fun hf => h.2 (hF hf)⟩
  · exact covers_mono h hB hF

theorem good_of {s s' : State} {c : Code} (g : Good c s) (hB : ∀ l, Breaks s' c l → Breaks s c l) (hF : BreaksFn s' c → BreaksFn s c)
    (hact : Some' s' c → s.active = true → s'.active = true)
    (hlo : ∀ l, Breaks s' c l → s.lineOff c l = false → s'.lineOff c l = false)
    (hso : Some' s' c → s.startOff c = false → s'.startOff c = false)
    (hcache : ∀ i, s'.cache c.key = some i → i.mtime = s'.mtime → Covers s c i)
    (hpc : ∀ t rest, s'.stack t = c :: rest → PcCov s c (s'.pc t)) : Good c s' := by
  have hS : Some' s' c → Some' s c := by
    rintro (⟨l, h⟩ | h)
    · exact .inl ⟨l, hB l h⟩
    · exact .inr (hF h)
  exact ⟨fun h => hact h (g.act (hS h)), fun l h => hlo l h (g.line l (hB l h)), fun h => hso h (g.st (hS h)),
    fun i hi hm => covers_mono (hcache i hi hm) hB hF, fun t rest h => pcCov_mono (hpc t rest h) hB hF⟩

theorem breaks_congr {s s' : State} {c : Code} (h : s'.breaks = s.breaks) (l : Nat) : Breaks s' c l ↔ Breaks s c l := by
  simp [Breaks, fileBps, h]

theorem breaksFn_congr {s s' : State} {c : Code} (h : s'.fnBreaks = s.fnBreaks) : BreaksFn s' c ↔ BreaksFn s c := by
  simp [BreaksFn, h]

theorem get_own (c : Code) (bs : Bps) (l : Nat) : Dict.get (own c bs) l = if l ∈ c.lines then Dict.get bs l else none := by
  induction bs with
  | nil => simp [own, Dict.get_nil]
  | cons e bs ih =>
    simp only [own, List.filter_cons] at ih ⊢
    split
    · rename_i h
      rw [Dict.get_cons, ih, Dict.get_cons]
      simp only [List.contains_eq_mem, decide_eq_true_eq] at h
      by_cases he : e.1 = l
      · subst he; simp [h]
      · simp [he]
    · rename_i h
      rw [ih, Dict.get_cons]
      simp only [List.contains_eq_mem, decide_eq_true_eq] at h
      by_cases he : e.1 = l
      · subst he; simp [h]
      · simp [he]

theorem covers_build {E : Env} {s : State} {c : Code} (hv : Visible E c) (m : Nat) (bs : Bps) (fn : Option Nat)
    (h1 : ∀ l, Breaks s c l → (Dict.get bs l).isSome) (h2 : BreaksFn s c → fn.isSome) : Covers s c (build E c m bs fn) := by
  have : build E c m bs fn = ⟨m, false, false, own c bs, fn⟩ := by simp [build, hv.1, hv.2]
  rw [this]
  refine ⟨rfl, rfl, ?_, h2⟩
  intro l hl
  simp only [get_own, hl.1, if_true]
  exact h1 l hl

theorem bps_ne {s : State} {c : Code} {i : Info} (h : Covers s c i) {l : Nat} (hl : Breaks s c l) : i.bps ≠ [] := by
  intro he
  have := h.2.2.1 l hl
  simp [he, Dict.get_nil] at this

theorem hasBreaks_of {s : State} {c : Code} (h : Some' s c) : hasBreaks s = true := by
  simp only [hasBreaks, Bool.or_eq_true, Bool.not_eq_true', List.isEmpty_eq_false_iff, List.any_eq_true]
  rcases h with ⟨l, -, h⟩ | h
  · right
    simp only [fileBps] at h
    cases hg : Dict.get s.breaks c.file with
    | none => simp [hg, Dict.get_nil] at h
    | some bs =>
      refine ⟨_, Dict.mem_of_get hg, ?_⟩
      intro he
      simp only [hg, Option.getD_some] at h
      simp only at he
      simp [he, Dict.get_nil] at h
  · left
    intro he
    simp [BreaksFn, he, Dict.get_nil] at h

/-! The handlers. -/

theorem good_startDone {c : Code} {s : State} (g : Good c s) (t : Nat) (d : Code) (i : Info) (hi : d = c → Covers s c i) :
    Good c (startDone s t d i) := by
  obtain ⟨g1, g2, g3, g4, g5, g6, g7, g8, g9, g10⟩ := startDone_fields s t d i
  refine good_of g (fun l => (breaks_congr g2 l).1) (breaksFn_congr g3).1 (by rw [g9]; exact fun _ => id) (by rw [g10]; exact fun _ _ => id) ?_
    (by rw [g4, g1]; exact g.cache) (by rw [g5, g7]; exact g.pc)
  intro hS' hoff
  have hS : Some' s c := by
    rcases hS' with ⟨l, h⟩ | h
    · exact .inl ⟨l, (breaks_congr g2 l).1 h⟩
    · exact .inr ((breaksFn_congr g3).1 h)
  rw [startDone_startOff]
  split
  · rename_i h
    obtain ⟨rfl, h⟩ := h
    have hcv := hi rfl
    rcases h with h | ⟨h1, h2, -⟩
    · rw [hcv.1] at h; cases h
    · rcases hS with ⟨l, h⟩ | h
      · exact absurd (.inl ⟨hcv.2.1, bps_ne hcv h⟩) h2
      · have := hcv.2.2.2 h; simp [h1] at this
  · exact hoff

theorem good_lineDone {c : Code} {s : State} (g : Good c s) (t : Nat) (d : Code) (l : Nat) (i : Info) (hi : d = c → Covers s c i) :
    Good c (lineDone s t d l i) := by
  obtain ⟨g1, g2, g3, g4, g5, g6, g7, g8, g9, g10, g11⟩ := lineDone_fields s t d l i
  refine good_of g (fun l => (breaks_congr g2 l).1) (breaksFn_congr g3).1 (by rw [g9]; exact fun _ => id) ?_ (by rw [g10]; exact fun _ => id)
    (by rw [g4, g1]; exact g.cache) (by rw [g5, g7]; exact g.pc)
  intro k hk' hoff
  have hk := (breaks_congr g2 k).1 hk'
  rw [lineDone_lineOff]
  split
  · rename_i h
    obtain ⟨rfl, rfl, h⟩ := h
    have hcv := hi rfl
    rcases h with (h | h) | ⟨h, -⟩
    · rw [hcv.1] at h; cases h
    · rw [hcv.2.1] at h; cases h
    · have := hcv.2.2.1 k hk; simp [h] at this
  · exact hoff

theorem good_setPc {c : Code} {s : State} (g : Good c s) (t : Nat) (p : Pc) (h : ∀ rest, s.stack t = c :: rest → PcCov s c p) :
    Good c (setPc s t p) := by
  refine good_of g (fun _ => id) id (fun _ => id) (fun _ _ => id) (fun _ => id) g.cache ?_
  intro u rest hu
  simp only [setPc]
  split
  · rename_i hut; subst hut; exact h rest hu
  · exact g.pc u rest hu

theorem good_setCache {c : Code} {s : State} (g : Good c s) (k : Key) (i : Info) (h : k = c.key → Covers s c i) :
    Good c (setCache s k i) := by
  refine good_of g (fun _ => id) id (fun _ => id) (fun _ _ => id) (fun _ => id) ?_ g.pc
  intro j hj hm
  simp only [setCache] at hj
  split at hj
  · rename_i hk; cases hj; exact h hk.symm
  · exact g.cache j hj hm

theorem good_handle {E : Env} {c : Code} {s s' : State} (hd : Distinct E) (hc : c ∈ E.prog) (hv : Visible E c) (b : Base E s)
    (g : Good c s) (t : Nat) (d : Code) (rest : List Code) (hs : s.stack t = d :: rest) (h : handle E s t d = some s') : Good c s' := by
  have hdp : d ∈ E.prog := b.mem t d (by simp [hs])
  have hkey : d.key = c.key → d = c := hd d hdp c hc
  have hdc : ∀ r, s.stack t = c :: r → d = c := by intro r h; rw [hs] at h; exact (List.cons.inj h).1
  have hp : d = c → PcCov s c (s.pc t) := fun h => g.pc t rest (by rw [hs, h])
  unfold handle at h
  split at h <;> rename_i hpc
  · cases h
  · split at h
    · rename_i i hi
      cases h
      refine good_setPc g t _ ?_
      intro r hr
      have := hdc r hr; subst this
      split
      · rename_i hm; exact g.cache i hi hm
      · trivial
    · cases h; exact good_setPc g t _ (fun _ _ => trivial)
  · cases h; exact good_setPc g t _ (fun _ _ => trivial)
  · split at h
    · rename_i hx
      cases h
      have hne : d ≠ c := by
        intro h; subst h
        rcases hx with h | h
        · rw [hv.1] at h; cases h
        · rw [hv.2] at h; cases h
      refine good_setPc (good_setCache g _ _ (fun hk => absurd (hkey hk) hne)) t _ ?_
      intro r hr; exact absurd (hdc r hr) hne
    · cases h
      refine good_setPc g t _ ?_
      intro r hr
      have := hdc r hr; subst this
      exact fun l hl => hl.2
  · rw [hpc] at hp
    cases h
    refine good_setPc g t _ ?_
    intro r hr
    have := hdc r hr; subst this
    exact ⟨hp rfl, fun hf => hf⟩
  · rename_i ev m bs fn
    rw [hpc] at hp
    cases h
    have hcv : d = c → Covers s c (build E d m bs fn) := by
      intro h; subst h
      exact covers_build hv _ _ _ (hp rfl).1 (hp rfl).2
    refine good_setPc (good_setCache g _ _ (fun hk => hcv (hkey hk))) t _ ?_
    intro r hr
    exact hcv (hdc r hr)
  · rw [hpc] at hp
    cases h
    exact good_setPc (good_startDone g t d _ hp) t _ (fun _ _ => trivial)
  · rw [hpc] at hp
    cases h
    exact good_setPc (good_lineDone g t d _ _ hp) t _ (fun _ _ => trivial)

/-- the frames: what a step of another kind leaves -/
theorem frames_of {E : Env} {c : Code} {s s' : State} (f : Frames E c s) (hB : ∀ l, Breaks s' c l → Breaks s c l)
    (hl : s.lineOn c = true → s'.lineOn c = true) (hq : ∀ u, (∃ l, Breaks s' c l) → .trace u c ∈ s.queue → .trace u c ∈ s'.queue ∨ s'.lineOn c = true ∨ E.known u = false)
    (ht : ∀ t, c ∈ s'.stack t → (∃ l, Breaks s' c l) → s'.lineOn c = true ∨
      (c ∈ s.stack t ∧ ∀ rest, s.stack t = c :: rest → c ∉ rest → StartPc (s.pc t) → s'.stack t = c :: rest ∧ StartPc (s'.pc t)) ∨
      ∃ rest, s'.stack t = c :: rest ∧ c ∉ rest ∧ StartPc (s'.pc t)) : Frames E c s' := by
  intro t hc hb
  rcases ht t hc hb with h | ⟨h, h'⟩ | h
  · exact .inl h
  · rcases f t h (by obtain ⟨l, hb⟩ := hb; exact ⟨l, hB l hb⟩) with h1 | ⟨u, hu, h1⟩ | ⟨rest, h1, h2, h3⟩
    · exact .inl (hl h1)
    · rcases hq u hb h1 with h2 | h2 | h2
      · exact .inr (.inl ⟨u, hu, h2⟩)
      · exact .inl h2
      · rw [hu] at h2; cases h2
    · obtain ⟨h4, h5⟩ := h' rest h1 h2 h3
      exact .inr (.inr ⟨rest, h4, h2, h5⟩)
  · exact .inr (.inr h)

theorem frames_handle {E : Env} {c : Code} {s s' : State} (g : Good c s) (f : Frames E c s)
    (t : Nat) (d : Code) (rest : List Code) (hs : s.stack t = d :: rest) (h : handle E s t d = some s') : Frames E c s' := by
  have key : ∀ s1 : State, s1.breaks = s.breaks → (s.lineOn c = true → s1.lineOn c = true) → s1.queue = s.queue → s1.stack = s.stack →
      s1.pc = s.pc → ∀ p, (StartPc (s.pc t) → d = c → (∃ l, Breaks s c l) → StartPc p ∨ s1.lineOn c = true) →
      Frames E c (setPc s1 t p) := by
    intro s1 e1 e2 e3 e4 e5 p hp
    refine frames_of f (fun l => (breaks_congr e1 l).1) e2 (fun u _ hu => .inl (by simpa [setPc, e3] using hu)) ?_
    intro u hu' hb'
    have hu : c ∈ s.stack u := by simpa [setPc, e4] using hu'
    have hb : ∃ l, Breaks s c l := by obtain ⟨l, hb⟩ := hb'; exact ⟨l, (breaks_congr e1 l).1 hb⟩
    by_cases hut : u = t
    · subst hut
      by_cases hx : StartPc (s.pc u) ∧ d = c
      · rcases hp hx.1 hx.2 hb with h | h
        · right; left
          refine ⟨hu, fun r hr _ _ => ⟨by simpa [setPc, e4] using hr, by simpa [setPc] using h⟩⟩
        · left; exact h
      · right; left
        refine ⟨hu, fun r hr _ hst => ?_⟩
        have hdc : d = c := by rw [hs] at hr; exact (List.cons.inj hr).1
        exact absurd ⟨hst, hdc⟩ hx
    · right; left
      exact ⟨hu, fun r hr _ hst => ⟨by simpa [setPc, e4] using hr, by simpa [setPc, hut, e5] using hst⟩⟩
  unfold handle at h
  split at h <;> rename_i hpc
  · cases h
  · split at h <;> cases h
    · refine key s rfl id rfl rfl rfl _ ?_
      intro h _ _; rw [hpc] at h; left
      cases ‹Ev› with
      | start => split <;> trivial
      | line l => exact absurd h (by simp [StartPc])
    · refine key s rfl id rfl rfl rfl _ ?_
      intro h _ _; rw [hpc] at h; left
      cases ‹Ev› with
      | start => trivial
      | line l => exact absurd h (by simp [StartPc])
  · cases h
    refine key s rfl id rfl rfl rfl _ ?_
    intro h _ _; rw [hpc] at h; left
    cases ‹Ev› with
    | start => trivial
    | line l => exact absurd h (by simp [StartPc])
  · split at h <;> cases h
    · refine key (setCache s _ _) rfl id rfl rfl rfl _ ?_
      intro h _ _; rw [hpc] at h; left
      cases ‹Ev› with
      | start => trivial
      | line l => exact absurd h (by simp [StartPc])
    · refine key s rfl id rfl rfl rfl _ ?_
      intro h _ _; rw [hpc] at h; left
      cases ‹Ev› with
      | start => trivial
      | line l => exact absurd h (by simp [StartPc])
  · cases h
    refine key s rfl id rfl rfl rfl _ ?_
    intro h _ _; rw [hpc] at h; left
    cases ‹Ev› with
    | start => trivial
    | line l => exact absurd h (by simp [StartPc])
  · cases h
    refine key (setCache s _ _) rfl id rfl rfl rfl _ ?_
    intro h _ _; rw [hpc] at h; left
    cases ‹Ev› with
    | start => trivial
    | line l => exact absurd h (by simp [StartPc])
  · rename_i i
    cases h
    obtain ⟨g1, g2, g3, g4, g5, g6, g7, g8, g9, g10⟩ := startDone_fields s t d i
    refine key _ g2 ?_ g8 g5 g7 _ ?_
    · intro hl
      rw [startDone_lineOn]; split
      · rfl
      · exact hl
    · rintro - rfl ⟨l, hb⟩
      right
      have hcv : Covers s d i := by have := g.pc t rest hs; rw [hpc] at this; exact this
      rw [startDone_lineOn, if_pos ⟨rfl, hcv.1, .inl ⟨hcv.2.1, bps_ne hcv hb⟩⟩]
  · rename_i l i
    cases h
    obtain ⟨g1, g2, g3, g4, g5, g6, g7, g8, g9, g10, g11⟩ := lineDone_fields s t d l i
    refine key _ g2 (by rw [g11]; exact id) g8 g5 g7 _ ?_
    intro h; rw [hpc] at h; exact absurd h (by simp [StartPc])

/-! The steps of the commands. -/

/-- The level that holds when these steps of a command are left: 3 that the events are on and the frames traced, 2 that the events
are on, 1 that the callbacks are registered. -/
inductive Plan : List Op → Nat → Prop
  | done : Plan [] 3
  | unset {q} (f l) : Plan q 3 → Plan (.unset f l :: q) 3
  | drop {q} (f) : Plan q 3 → Plan (.drop f :: q) 3
  | clear {q} : Plan q 3 → Plan (.clear :: q) 3
  | bump {q} : Plan q 3 → Plan (.bump :: q) 3
  | update {q} (r) : Plan q 3 → Plan (.update r :: q) 3
  | restart {q} : Plan q 3 → Plan (.restart :: q) 3
  | trace {q} (t c) : Plan q 3 → Plan (.trace t c :: q) 3
  | mark {q} (t) : Plan q 3 → Plan (.mark t :: q) 3
  | snapshotOf {q} (t) : Plan q 3 → Plan (.snapshotOf t :: q) 3
  | write {q} (f bs) : Plan q 0 → Plan (.write f bs :: q) 3
  | writeFn {q} (d) : Plan q 0 → Plan (.writeFn d :: q) 3
  | bump0 {q} : Plan q 0 → Plan (.bump :: q) 0
  | update0 {q} (r) : Plan q 0 → Plan (.update r :: q) 0
  | restart0 {q} : Plan q 0 → Plan (.restart :: q) 0
  | update1 {q} (r) : Plan q 1 → Plan (.update r :: q) 0
  | restart1 {q} : Plan q 2 → Plan (.restart :: q) 1
  | update2 {q} (r) : Plan q 2 → Plan (.update r :: q) 2
  | snapshot {q} : Plan q 3 → Plan (.snapshot :: q) 2

theorem plan_changed : Plan changed 0 :=
  .bump0 (.bump0 (.update1 _ (.restart1 (.update2 _ (.snapshot (.restart .done))))))

theorem plan_ops (cmd : Cmd) : Plan (ops cmd) 3 := by
  cases cmd with
  | add f bs => exact .write _ _ (.bump0 (.update0 _ (.restart0 plan_changed)))
  | remove f l => exact .unset _ _ (.bump (.update _ (.restart (.bump .done))))
  | removeFile f => exact .drop _ (.bump .done)
  | removeAll => exact .clear (.bump .done)
  | functions d => exact .writeFn _ plan_changed
  | pause t => exact .mark _ (.update _ (.snapshotOf _ (.restart .done)))

theorem plan_traces (s : State) (t : Nat) {q : List Op} (h : Plan q 3) : Plan (traces s t ++ q) 3 := by
  simp only [traces]
  induction s.stack t with
  | nil => exact h
  | cons c cs ih => exact .trace _ _ ih

theorem plan_flatMap (s : State) (ts : List Nat) {q : List Op} (h : Plan q 3) : Plan (ts.flatMap (traces s) ++ q) 3 := by
  induction ts with
  | nil => exact h
  | cons t ts ih => simp only [List.flatMap_cons, List.append_assoc]; exact plan_traces s t ih

def Holds (E : Env) (c : Code) (s : State) : Nat → Prop
  | 0 => True
  | 1 => Some' s c → s.active = true
  | 2 => Good c s
  | _ => Good c s ∧ Frames E c s

structure Inv (E : Env) (c : Code) (s : State) : Prop where
  base : Base E s
  known : ∀ t, c ∈ s.stack t → E.known t = true
  plan : ∃ n, Plan s.queue n ∧ Holds E c s n

/-- only the queue changes, and the callbacks, which stay registered if `c` has a breakpoint -/
theorem good_queue {c : Code} {s s' : State} (g : Good c s) (e1 : s'.breaks = s.breaks) (e2 : s'.fnBreaks = s.fnBreaks)
    (e3 : s'.cache = s.cache) (e4 : s'.mtime = s.mtime) (e5 : s'.stack = s.stack) (e6 : s'.pc = s.pc)
    (hact : Some' s c → s.active = true → s'.active = true) (hlo : ∀ l, s.lineOff c l = false → s'.lineOff c l = false)
    (hso : s.startOff c = false → s'.startOff c = false) : Good c s' := by
  refine good_of g (fun l => (breaks_congr e1 l).1) (breaksFn_congr e2).1 ?_ (fun l _ => hlo l) (fun _ => hso) (by rw [e3, e4]; exact g.cache)
    (by rw [e5, e6]; exact g.pc)
  intro h
  refine hact ?_
  rcases h with ⟨l, h⟩ | h
  · exact .inl ⟨l, (breaks_congr e1 l).1 h⟩
  · exact .inr ((breaksFn_congr e2).1 h)

/-- the queue loses its first step, which is no `trace` of `c` -/
theorem frames_queue {E : Env} {c : Code} {s s' : State} (f : Frames E c s) (hB : ∀ l, Breaks s' c l → Breaks s c l)
    (e1 : s'.lineOn = s.lineOn) (e2 : ∀ u, .trace u c ∈ s.queue → .trace u c ∈ s'.queue) (e3 : s'.stack = s.stack) (e4 : s'.pc = s.pc) :
    Frames E c s' := by
  refine frames_of f hB (by rw [e1]; exact id) (fun u _ h => .inl (e2 u h)) ?_
  intro t ht _
  rw [e3] at ht
  right; left
  exact ⟨ht, fun r hr _ hs => ⟨by rw [e3]; exact hr, by rw [e4]; exact hs⟩⟩

theorem good_shrink {c : Code} {s s' : State} (g : Good c s) (hB : ∀ l, Breaks s' c l → Breaks s c l) (e2 : s'.fnBreaks = s.fnBreaks)
    (e3 : s'.cache = s.cache) (e4 : s'.mtime = s.mtime) (e5 : s'.stack = s.stack) (e6 : s'.pc = s.pc)
    (e7 : s'.active = s.active) (e8 : s'.lineOff = s.lineOff) (e9 : s'.startOff = s.startOff) : Good c s' :=
  good_of g hB (breaksFn_congr e2).1 (by rw [e7]; exact fun _ => id) (by rw [e8]; exact fun _ _ => id) (by rw [e9]; exact fun _ => id)
    (by rw [e3, e4]; exact g.cache) (by rw [e5, e6]; exact g.pc)

theorem get_filter_ne (bs : Bps) (l k : Nat) (h : (Dict.get (bs.filter (fun e => e.1 != l)) k).isSome) : (Dict.get bs k).isSome := by
  have := Dict.get_erase bs l k
  simp only [Dict.erase] at this
  rw [this] at h
  split at h
  · simp at h
  · exact h

/-- events are restarted while no handler for `c` holds outdated breakpoints -/
theorem good_restart {E : Env} {c : Code} {s : State} {q : List Op} (hc : c ∈ E.prog) (hv : Visible E c) (b : Base E s)
    (hq : s.queue = .restart :: q) (hact : Some' s c → s.active = true)
    (hcalm : ∀ t rest, s.stack t = c :: rest → UpToDate E s c t) : Good c (exec E s .restart q) := by
  have hcv : ∀ m, Covers s c (build E c m (fileBps s c.file) (Dict.get s.fnBreaks c.name)) :=
    fun m => covers_build hv m _ _ (fun l hl => hl.2) id
  refine ⟨hact, fun _ _ => rfl, fun _ => rfl, ?_, ?_⟩
  · intro i hi hm
    rcases b.cacheOk _ _ hi hm with h | h
    · rw [hq] at h; simp [HeadBump] at h
    · rw [h c hc rfl]; exact hcv _
  · intro t rest ht
    have := hcalm t rest ht
    revert this
    simp only [exec, UpToDate]
    cases s.pc t with
    | breaks ev m bs => simp only; rintro rfl; exact fun l hl => hl.2
    | fns ev m bs fn => simp only; rintro ⟨rfl, rfl⟩; exact ⟨fun l hl => hl.2, id⟩
    | ready ev i => simp only; intro h; rw [h]; exact hcv _
    | _ => intro _; trivial

theorem inv_exec {E : Env} {c : Code} {s : State} (hd : Distinct E) (hc : c ∈ E.prog) (hv : Visible E c) (inv : Inv E c s)
    (op : Op) (q : List Op) (hq : s.queue = op :: q)
    (hcalm : op = .restart → ∀ t rest, s.stack t = c :: rest → UpToDate E s c t) : Inv E c (exec E s op q) := by
  refine ⟨base_exec hd inv.base op q hq, ?_, ?_⟩
  · have : (exec E s op q).stack = s.stack := by
      cases op <;> simp only [exec, updateEvents]
      exact (traceFrame_fields E s _ _).2.2.2.2.1
    rw [this]; exact inv.known
  · obtain ⟨n, hp, hh⟩ := inv.plan
    rw [hq] at hp
    have hmem : ∀ u, op ≠ .trace u c → .trace u c ∈ s.queue → .trace u c ∈ q := by
      intro u hne h
      rw [hq] at h
      rcases List.mem_cons.1 h with h | h
      · exact absurd h.symm hne
      · exact h
    have hupd : ∀ r, Some' s c → (updateEvents E r s).active = true := by
      intro r h; simp [updateEvents, hasBreaks_of h]
    cases hp with
    | unset f l hp =>
      have hB : ∀ k, Breaks (exec E s (.unset f l) q) c k → Breaks s c k := by
        rintro k ⟨h1, h2⟩
        refine ⟨h1, ?_⟩
        simp only [exec, fileBps, Dict.get_set] at h2
        split at h2
        · rename_i hf
          simp only [Option.getD_some] at h2
          rw [hf]; exact get_filter_ne _ l k h2
        · exact h2
      exact ⟨3, hp, good_shrink hh.1 hB rfl rfl rfl rfl rfl rfl rfl rfl, frames_queue hh.2 hB rfl (fun u => hmem u (by simp)) rfl rfl⟩
    | drop f hp =>
      have hB : ∀ k, Breaks (exec E s (.drop f) q) c k → Breaks s c k := by
        rintro k ⟨h1, h2⟩
        refine ⟨h1, ?_⟩
        simp only [exec, fileBps, Dict.get_erase] at h2
        split at h2
        · simp [Dict.get_nil] at h2
        · exact h2
      exact ⟨3, hp, good_shrink hh.1 hB rfl rfl rfl rfl rfl rfl rfl rfl, frames_queue hh.2 hB rfl (fun u => hmem u (by simp)) rfl rfl⟩
    | clear hp =>
      have hB : ∀ k, Breaks (exec E s .clear q) c k → Breaks s c k := by
        rintro k ⟨h1, h2⟩
        simp [exec, fileBps, Dict.get_nil] at h2
      exact ⟨3, hp, good_shrink hh.1 hB rfl rfl rfl rfl rfl rfl rfl rfl, frames_queue hh.2 hB rfl (fun u => hmem u (by simp)) rfl rfl⟩
    | bump hp =>
      refine ⟨3, hp, ?_, frames_queue hh.2 (fun _ => id) rfl (fun u => hmem u (by simp)) rfl rfl⟩
      refine good_of hh.1 (fun _ => id) id (fun _ => id) (fun _ _ => id) (fun _ => id) ?_ hh.1.pc
      intro i hi hm
      have := inv.base.cacheLe _ _ hi
      simp only [exec] at hm; omega
    | update r hp =>
      exact ⟨3, hp, good_queue hh.1 rfl rfl rfl rfl rfl rfl (fun h _ => hupd r h) (fun _ => id) id,
        frames_queue hh.2 (fun _ => id) rfl (fun u => hmem u (by simp)) rfl rfl⟩
    | restart hp =>
      exact ⟨3, hp, good_queue hh.1 rfl rfl rfl rfl rfl rfl (fun _ => id) (fun _ _ => rfl) (fun _ => rfl),
        frames_queue hh.2 (fun _ => id) rfl (fun u => hmem u (by simp)) rfl rfl⟩
    | trace t d hp =>
      have hw := inv.base.wf
      rw [hq] at hw
      have hdp : d ∈ E.prog := hw.2.1
      have hnb : ¬ HeadBump s.queue := by rw [hq]; simp [HeadBump]
      obtain ⟨g1, g2, g3, g4, g5, g6, g7, g8, g9, g10, g11⟩ := traceFrame_fields E s t d
      have hcov : d = c → Covers s c (infoNow E s d) := by
        rintro rfl
        rw [infoNow_eq inv.base d hc hnb]
        exact covers_build hv _ _ _ (fun l hl => hl.2) id
      refine ⟨3, hp, ?_, ?_⟩
      · have hg := good_setCache hh.1 d.key (infoNow E s d) (fun hk => hcov (hd d hdp c hc hk))
        exact good_queue hg g2 g3 g4 g1 g5 g7 (by intro _ h; exact g9 ▸ h) (by intro l h; exact congrFun (congrFun g11 c) l ▸ h)
          (by intro h; exact congrFun g10 c ▸ h)
      · refine frames_of hh.2 (fun l => (breaks_congr g2 l).1) ?_ ?_ ?_
        · intro h
          simp only [exec, traceFrame]
          repeat' split
          all_goals simp [lineEvents, setCache, h]
        · rintro u ⟨l, hb⟩ hu
          rw [hq] at hu
          rcases List.mem_cons.1 hu with h | h
          · obtain ⟨rfl, rfl⟩ := Op.trace.inj h
            right
            cases hk : E.known u with
            | false => right; rfl
            | true =>
              left
              have hcv := hcov rfl
              have hbp := bps_ne hcv ((breaks_congr g2 l).1 hb)
              simp only [exec, traceFrame, hcv.1, hk, hcv.2.1, Bool.false_eq_true, Bool.true_eq_false, if_false, ne_eq, hbp, not_false_eq_true,
                and_self, if_true, ite_self]
              simp [lineEvents]
          · left; exact h
        · intro u hu _
          have hu : c ∈ s.stack u := by rw [← g5]; exact hu
          right; left
          exact ⟨hu, fun r hr _ hs => ⟨by rw [← g5] at hr; exact hr, by rw [← g7] at hs; exact hs⟩⟩
    | mark t hp =>
      exact ⟨3, hp, good_queue hh.1 rfl rfl rfl rfl rfl rfl (fun _ => id) (fun _ => id) id,
        frames_queue hh.2 (fun _ => id) rfl (fun u => hmem u (by simp)) rfl rfl⟩
    | snapshotOf t hp =>
      exact ⟨3, plan_traces s t hp, good_queue hh.1 rfl rfl rfl rfl rfl rfl (fun _ => id) (fun _ => id) id,
        frames_queue hh.2 (fun _ => id) rfl (fun u h => List.mem_append_right _ (hmem u (by simp) h)) rfl rfl⟩
    | write f bs hp => exact ⟨0, hp, trivial⟩
    | writeFn d hp => exact ⟨0, hp, trivial⟩
    | bump0 hp => exact ⟨0, hp, trivial⟩
    | update0 r hp => exact ⟨0, hp, trivial⟩
    | restart0 hp => exact ⟨0, hp, trivial⟩
    | update1 r hp => exact ⟨1, hp, fun h => hupd r h⟩
    | restart1 hp => exact ⟨2, hp, good_restart hc hv inv.base hq hh (hcalm rfl)⟩
    | update2 r hp => exact ⟨2, hp, good_queue hh rfl rfl rfl rfl rfl rfl (fun h _ => hupd r h) (fun _ => id) id⟩
    | snapshot hp =>
      refine ⟨3, plan_flatMap s _ hp, good_queue hh rfl rfl rfl rfl rfl rfl (fun _ => id) (fun _ => id) id, ?_⟩
      intro t ht _
      have ht : c ∈ s.stack t := ht
      right; left
      refine ⟨t, inv.known t ht, List.mem_append_left _ ?_⟩
      have : t ∈ E.tids := inv.base.tids t (fun h => by rw [h] at ht; cases ht)
      exact List.mem_flatMap.2 ⟨t, this, List.mem_map.2 ⟨c, ht, rfl⟩⟩

/-- the frames of a thread that is not in a handler change -/
theorem good_setStack {c : Code} {s : State} (g : Good c s) (t : Nat) (cs : List Code) (w : List Code) (hi : s.pc t = .idle) :
    Good c { setStack s t cs with waiting := w } := by
  refine good_of g (fun _ => id) id (fun _ => id) (fun _ _ => id) (fun _ => id) g.cache ?_
  intro u rest hu
  simp only [setStack] at hu ⊢
  split at hu
  · rename_i h; subst h; rw [hi]; trivial
  · exact g.pc u rest hu

theorem frames_setStack {E : Env} {c : Code} {s : State} (f : Frames E c s) (t : Nat) (cs : List Code) (w : List Code) (hi : s.pc t = .idle)
    (hcs : c ∈ cs → c ∈ s.stack t) : Frames E c { setStack s t cs with waiting := w } := by
  refine frames_of f (fun _ => id) id (fun u _ => .inl) ?_
  intro u hu _
  simp only [setStack] at hu ⊢
  right; left
  split at hu
  · rename_i h; subst h
    exact ⟨hcs hu, fun r _ _ hs => by rw [hi] at hs; exact hs.elim⟩
  · rename_i h
    exact ⟨hu, fun r hr _ hs => ⟨by simpa [h] using hr, hs⟩⟩

theorem holds_mono {E : Env} {c : Code} {s s' : State} {n : Nat} (h : Holds E c s n) (h1 : (Some' s c → s.active = true) → Some' s' c → s'.active = true)
    (h2 : Good c s → Good c s') (h3 : Good c s → Frames E c s → Frames E c s') : Holds E c s' n := by
  match n, h with
  | 0, _ => trivial
  | 1, h => exact h1 h
  | 2, h => exact h2 h
  | _ + 3, h => exact ⟨h2 h.1, h3 h.1 h.2⟩

theorem inv_step {E : Env} {c : Code} {s s' : State} (hd : Distinct E) (hc : c ∈ E.prog) (hv : Visible E c) (inv : Inv E c s)
    (a : Action) (ha : Plain E c a)
    (hcalm : a = .work → s.queue.head? = some .restart → ∀ t rest, s.stack t = c :: rest → UpToDate E s c t)
    (h : step E s a = some s') : Inv E c s' := by
  have hb := base_step hd inv.base a h
  obtain ⟨n, hp, hh⟩ := inv.plan
  cases a with
  | begin cmd =>
    simp only [step] at h
    split at h
    · rename_i hq
      cases h
      rw [hq] at hp
      cases hp
      refine ⟨hb, inv.known, 3, plan_ops cmd, ?_⟩
      exact ⟨good_queue hh.1 rfl rfl rfl rfl rfl rfl (fun _ => id) (fun _ => id) id,
        frames_queue hh.2 (fun _ => id) rfl (fun u hu => by rw [hq] at hu; cases hu) rfl rfl⟩
    · cases h
  | work =>
    simp only [step] at h
    split at h
    · cases h
    · rename_i op q hq
      cases h
      refine inv_exec hd hc hv inv op q hq ?_
      intro hop; exact hcalm rfl (by rw [hq, hop]; rfl)
  | call t d =>
    simp only [step] at h
    split at h
    · rename_i hx
      have hk : ∀ u, c ∈ (setStack s t (d :: s.stack t)).stack u → E.known u = true := by
        intro u hu
        simp only [setStack] at hu
        split at hu
        · rename_i h; subst h
          rcases List.mem_cons.1 hu with h | h
          · exact ha h.symm
          · exact inv.known u h
        · exact inv.known u hu
      cases h
      split
      · rename_i hst
        rw [if_pos hst] at hb
        refine ⟨hb, hk, n, hp, ?_⟩
        refine holds_mono hh id (fun g => good_setPc (good_setStack g t _ s.waiting hx.1) t _ (fun _ _ => trivial)) ?_
        intro g f
        refine frames_of f (fun _ => id) id (fun u _ => .inl) ?_
        intro u hu hbr
        simp only [setPc, setStack] at hu ⊢
        by_cases hut : u = t
        · subst hut
          simp only [if_true] at hu ⊢
          by_cases hcs : c ∈ s.stack u
          · right; left
            exact ⟨hcs, fun r _ _ hs => by rw [hx.1] at hs; exact hs.elim⟩
          · right; right
            rcases List.mem_cons.1 hu with h | h
            · exact ⟨s.stack u, by rw [h], hcs, trivial⟩
            · exact absurd h hcs
        · simp only [hut, if_false] at hu ⊢
          right; left
          exact ⟨hu, fun r hr _ hs => ⟨hr, hs⟩⟩
      · rename_i hst
        rw [if_neg hst] at hb
        refine ⟨hb, hk, n, hp, ?_⟩
        refine holds_mono hh id (fun g => good_setStack g t _ s.waiting hx.1) ?_
        intro g f
        refine frames_of f (fun _ => id) id (fun u _ => .inl) ?_
        intro u hu hbr
        simp only [setStack] at hu ⊢
        by_cases hut : u = t
        · subst hut
          simp only [if_true] at hu ⊢
          rcases List.mem_cons.1 hu with h | h
          · have hS : Some' s c := .inl hbr
            exact absurd ⟨g.act hS, h ▸ g.st hS⟩ hst
          · right; left
            exact ⟨h, fun r _ _ hs => by rw [hx.1] at hs; exact hs.elim⟩
        · simp only [hut, if_false] at hu ⊢
          right; left
          exact ⟨hu, fun r hr _ hs => ⟨hr, hs⟩⟩
    · cases h
  | ret t =>
    simp only [step] at h
    split at h
    · cases h
    · rename_i d cs hs
      split at h
      · rename_i hi
        cases h
        refine ⟨hb, ?_, n, hp, ?_⟩
        · intro u hu
          simp only [setStack] at hu
          split at hu
          · rename_i h; subst h; exact inv.known u (by rw [hs]; exact List.mem_cons_of_mem _ hu)
          · exact inv.known u hu
        · exact holds_mono hh id (fun g => good_setStack g t _ s.waiting hi)
            (fun _ f => frames_setStack f t _ s.waiting hi (fun h => by rw [hs]; exact List.mem_cons_of_mem _ h))
      · cases h
  | yield t =>
    simp only [step] at h
    split at h
    · cases h
    · rename_i d cs hs
      split at h
      · rename_i hi
        cases h
        refine ⟨hb, ?_, n, hp, ?_⟩
        · intro u hu
          simp only [setStack] at hu
          split at hu
          · rename_i h; subst h; exact inv.known u (by rw [hs]; exact List.mem_cons_of_mem _ hu)
          · exact inv.known u hu
        · exact holds_mono hh id (fun g => good_setStack g t _ _ hi)
            (fun _ f => frames_setStack f t _ _ hi (fun h => by rw [hs]; exact List.mem_cons_of_mem _ h))
      · cases h
  | resume t d =>
    simp only [step] at h
    split at h
    · rename_i hx
      cases h
      have hmem : c ∈ d :: s.stack t → c ∈ s.stack t := by
        intro h
        rcases List.mem_cons.1 h with h | h
        · exact absurd h.symm ha
        · exact h
      refine ⟨hb, ?_, n, hp, ?_⟩
      · intro u hu
        simp only [setStack] at hu
        split at hu
        · rename_i h; subst h; exact inv.known u (hmem hu)
        · exact inv.known u hu
      · exact holds_mono hh id (fun g => good_setStack g t _ _ hx.1) (fun _ f => frames_setStack f t _ _ hx.1 hmem)
    · cases h
  | run t l =>
    simp only [step] at h
    split at h
    · cases h
    · rename_i d cs hs
      split at h
      · rename_i hx
        cases h
        split
        · rename_i hon
          rw [if_pos hon] at hb
          refine ⟨hb, inv.known, n, hp, ?_⟩
          refine holds_mono hh id (fun g => good_setPc g t _ (fun _ _ => trivial)) ?_
          intro g f
          refine frames_of f (fun _ => id) id (fun u _ => .inl) ?_
          intro u hu _
          right; left
          refine ⟨hu, fun r hr _ hst => ⟨hr, ?_⟩⟩
          simp only [setPc]
          split
          · rename_i h; subst h; rw [hx.1] at hst; exact hst.elim
          · exact hst
        · exact inv
      · cases h
  | handle t =>
    simp only [step] at h
    split at h
    · cases h
    · rename_i d cs hs
      have hstk : s'.stack = s.stack ∧ s'.queue = s.queue ∧ s'.active = s.active ∧ s'.breaks = s.breaks ∧ s'.fnBreaks = s.fnBreaks := by
        unfold handle at h
        repeat' split at h
        all_goals cases h
        all_goals first
          | exact ⟨rfl, rfl, rfl, rfl, rfl⟩
          | (obtain ⟨g1, g2, g3, g4, g5, g6, g7, g8, g9, _⟩ := startDone_fields s t d ‹Info›; exact ⟨g5, g8, g9, g2, g3⟩)
          | (obtain ⟨g1, g2, g3, g4, g5, g6, g7, g8, g9, _⟩ := lineDone_fields s t d ‹Nat› ‹Info›; exact ⟨g5, g8, g9, g2, g3⟩)
      refine ⟨hb, by rw [hstk.1]; exact inv.known, n, by rw [hstk.2.1]; exact hp, ?_⟩
      refine holds_mono hh ?_ (fun g => good_handle hd hc hv inv.base g t d cs hs h) (fun g f => frames_handle g f t d cs hs h)
      intro hact hS
      rw [hstk.2.2.1]
      refine hact ?_
      rcases hS with ⟨l, h⟩ | h
      · exact .inl ⟨l, (breaks_congr hstk.2.2.2.1 l).1 h⟩
      · exact .inr ((breaksFn_congr hstk.2.2.2.2).1 h)
  | stepping v =>
    cases h
    exact ⟨hb, inv.known, n, hp, holds_mono hh id (fun g => good_queue g rfl rfl rfl rfl rfl rfl (fun _ => id) (fun _ => id) id)
      (fun _ f => frames_queue f (fun _ => id) rfl (fun _ => id) rfl rfl)⟩
  | enable d =>
    cases h
    refine ⟨hb, inv.known, n, hp, holds_mono hh id (fun g => good_queue g rfl rfl rfl rfl rfl rfl (fun _ => id) (fun _ => id) id) ?_⟩
    intro _ f
    refine frames_of f (fun _ => id) (by intro h; simp [lineEvents, h]) (fun u _ => .inl) ?_
    intro u hu _
    exact .inr (.inl ⟨hu, fun r hr _ hs => ⟨hr, hs⟩⟩)

theorem inv_start (E : Env) (c : Code) : Inv E c start := by
  refine ⟨base_start E, by simp [start], 3, .done, ⟨?_, ?_, ?_, ?_, ?_⟩, ?_⟩
  · rintro (⟨l, -, h⟩ | h) <;> simp [start, fileBps, Dict.get_nil, BreaksFn] at h
  · intro l _; rfl
  · intro _; rfl
  · intro i hi; cases hi
  · intro t rest h; cases h
  · intro t h; cases h

theorem inv_run {E : Env} {c : Code} {s s' : State} (hd : Distinct E) (hc : c ∈ E.prog) (hv : Visible E c) (inv : Inv E c s)
    (acts : List Action) (ha : ∀ a ∈ acts, Plain E c a) (hcalm : Calm E c s acts) (h : run E s acts = some s') : Inv E c s' := by
  induction acts generalizing s with
  | nil => cases h; exact inv
  | cons a as ih =>
    simp only [run] at h
    split at h
    · rename_i s1 h1
      exact ih (inv_step hd hc hv inv a (ha a (by simp)) hcalm.1 h1) (fun b hb => ha b (by simp [hb])) (hcalm.2 s1 h1) h
    · cases h

end Monitor
