import Verif.TopLevel.Spec
import Verif.TryExcept.Props
/-! C103: exceptions which reach the entry point of a thread are reported. -/

namespace TopLevel
open Spec TryExcept

/-- A tracer which reports nothing. -/
def Dull (tr : Option Tr) : Prop := tr = none ∨ tr = some .first ∨ tr = some .other

theorem look_entry (ent : Fn) (h : Entry ent) (below : List Fn) : ∀ (above : List Fn) (force : Bool) (i : Nat),
    (∀ f ∈ above, Ordinary f) → ∃ found, look force i (above ++ ent :: below) = .at (i + above.length) true found := by
  intro above
  induction above with
  | nil =>
      intro force i _
      unfold Entry at h
      have n1 : c!"pydev_monkey" ≠ c!"threading" := by decide
      have n2 : c!"pydevd" ≠ c!"threading" := by decide
      have n3 : c!"pydevd" ≠ c!"pydev_monkey" := by decide
      have n4 : c!"_exec" ≠ c!"run" := by decide
      have n5 : c!"_exec" ≠ c!"main" := by decide
      have n6 : c!"_bootstrap_inner" ≠ c!"_bootstrap" := by decide
      have n7 : c!"_bootstrap_inner" ≠ c!"__bootstrap" := by decide
      have n8 : c!"__bootstrap_inner" ≠ c!"_bootstrap" := by decide
      have n9 : c!"__bootstrap_inner" ≠ c!"__bootstrap" := by decide
      simp only [List.nil_append, look, List.length_nil, Nat.add_zero]
      rcases h with ⟨h1, h2, h3⟩ | ⟨h1, h2⟩ | ⟨h1, h2⟩
      · refine ⟨true, ?_⟩
        rw [if_pos h1]
        rcases h2 with h2 | h2 <;> rw [h2] <;> simp [n6, n7, n8, n9, h3]
      · refine ⟨false, ?_⟩
        rw [h1, if_neg n1, if_pos rfl, if_pos h2]
      · refine ⟨false, ?_⟩
        rw [h1, if_neg n2, if_neg n3, if_pos rfl, h2]
        simp [n4, n5]
  | cons f above ih =>
      intro force i ho
      have hf := ho f List.mem_cons_self
      have hr : above ++ ent :: below ≠ [] := by simp
      obtain ⟨o1, o2, o3, o4⟩ := hf
      have key : ∃ found, look force (i + 1) (above ++ ent :: below) = .at (i + (above.length + 1)) true found := by
        obtain ⟨found, hx⟩ := ih force (i + 1) (fun g hg => ho g (List.mem_cons_of_mem _ hg))
        exact ⟨found, by rw [hx]; congr 1; omega⟩
      obtain ⟨found, hk⟩ := key
      refine ⟨found, ?_⟩
      simp only [List.cons_append, look, List.length_cons]
      by_cases e1 : stem f.file = c!"threading"
      · obtain ⟨a, b, c, d⟩ := o1 e1
        rw [if_pos e1, if_neg (by simp [c, d]), if_neg (by simp [a, b])]
        exact hk
      · rw [if_neg e1]
        by_cases e2 : stem f.file = c!"pydev_monkey"
        · rw [if_pos e2, if_neg (o2 e2)]
          exact hk
        · rw [if_neg e2]
          by_cases e3 : stem f.file = c!"pydevd"
          · obtain ⟨a, b, c⟩ := o3 e3
            rw [if_pos e3, if_neg (by simp [a, b]), if_neg c]
            exact hk
          · rw [if_neg e3, if_neg o4, if_neg hr]
            exact hk

/-- The stack: `d` frames above the entry point, which is watched. -/
structure Inv (ent : Fn) (d : Nat) (s : St) : Prop where
  glob : s.glob = some .thread
  stack : ∃ above below, s.stack = above ++ ⟨ent, some .only⟩ :: below ∧ above.length = d ∧
    ∀ f ∈ above, Ordinary f.fn ∧ Dull f.tr

theorem setTr_entry (above : List Frame) (x : Frame) (below : List Frame) (tr : Option Tr) :
    setTr (above ++ x :: below) above.length tr = above ++ { x with tr := tr } :: below := by
  unfold setTr
  induction above with
  | nil => rfl
  | cons a above ih => simp [ih]

theorem setTr_zero (x : Frame) (rest : List Frame) (tr : Option Tr) :
    setTr (x :: rest) 0 tr = { x with tr := tr } :: rest := rfl

theorem fixTop_entry {cfg : Cfg} {s : St} {ent : Fn} {tr : Option Tr} {above below : List Frame} (hk : cfg.known = true)
    (ht : cfg.traced = true) (he : Entry ent) (hs : s.stack = above ++ ⟨ent, tr⟩ :: below)
    (ho : ∀ f ∈ above, Ordinary f.fn) :
    fixTop cfg s = ({ s with stack := above ++ ⟨ent, some .only⟩ :: below },
      if above.length = 0 then .own else .thread) := by
  unfold fixTop
  obtain ⟨found, hl⟩ := look_entry ent he (below.map (·.fn)) (above.map (·.fn)) false 0 (by
    intro f hf
    obtain ⟨g, hg, rfl⟩ := List.mem_map.mp hf
    exact ho g hg)
  rw [hs, List.map_append, List.map_cons, hl]
  simp only [hk, ht, List.length_map, Nat.zero_add, tracerFor]
  simp only [Bool.not_true, Bool.and_false, Bool.false_eq_true, if_false, reduceCtorEq, and_false]
  rw [setTr_entry]
  split <;> rfl

/-- An event in a frame above the entry point. -/
theorem event_above {cfg : Cfg} {s : St} {ent : Fn} {d : Nat} (hk : cfg.known = true) (ht : cfg.traced = true)
    (he : Entry ent) (h : Inv ent (d + 1) s) (ev : Ev) :
    Inv ent (d + 1) (event cfg s ev) ∧ (event cfg s ev).reports = s.reports ∧
      (event cfg s ev).suspended = s.suspended := by
  obtain ⟨hg, above, below, hs, hlen, ho⟩ := h
  cases above with
  | nil => simp at hlen
  | cons f above =>
    have hf := ho f List.mem_cons_self
    unfold event
    rw [hg, if_neg (by simp), hs]
    simp only [List.cons_append]
    rcases hf.2 with e | e | e
    · rw [e, if_neg (by simp)]
      have : trace cfg s ev = s := by
        unfold trace; rw [hs]; simp only [List.cons_append]; rw [e]
      rw [this]
      exact ⟨⟨hg, _, _, hs, hlen, ho⟩, rfl, rfl⟩
    · rw [if_pos e, fixTop_entry hk ht he hs (fun f hf => (ho f hf).1), if_neg (by simp)]
      refine ⟨⟨rfl, { f with tr := some .other } :: above, below, ?_, hlen, ?_⟩, rfl, rfl⟩
      · simp [setTr_zero]
      · intro g hg'
        rcases List.mem_cons.mp hg' with rfl | hg'
        · exact ⟨hf.1, .inr (.inr rfl)⟩
        · exact ho g (List.mem_cons_of_mem _ hg')
    · rw [e, if_neg (by simp)]
      have : trace cfg s ev = s := by
        unfold trace; rw [hs]; simp only [List.cons_append]; rw [e]
      rw [this]
      exact ⟨⟨hg, _, _, hs, hlen, ho⟩, rfl, rfl⟩

/-- An event in the entry point. -/
theorem event_entry {cfg : Cfg} {s : St} {ent : Fn} (h : Inv ent 0 s) (ev : Ev) :
    event cfg s ev = match ev with
      | .exception _ e => if s.suspended then s else { s with suspended := true, reports := s.reports ++ [e] }
      | _ => s := by
  obtain ⟨hg, above, below, hs, hlen, ho⟩ := h
  cases above with
  | cons _ _ => simp at hlen
  | nil =>
    obtain ⟨g, st, su, re⟩ := s
    dsimp only at hg hs
    subst hg hs
    cases ev <;> rfl

theorem inv_entry {cfg : Cfg} {s : St} {ent : Fn} (h : Inv ent 0 s) (ev : Ev) : Inv ent 0 (event cfg s ev) := by
  rw [event_entry h]
  cases ev with
  | exception l e =>
    dsimp only
    split
    · exact h
    · exact ⟨h.glob, h.stack⟩
  | _ => exact h

theorem inv_drop {ent : Fn} {d : Nat} {s : St} (h : Inv ent (d + 1) s) :
    Inv ent d { s with stack := s.stack.drop 1 } := by
  obtain ⟨hg, above, below, hs, hlen, ho⟩ := h
  cases above with
  | nil => simp at hlen
  | cons f above =>
    exact ⟨hg, above, below, by simp [hs], by simpa using hlen, fun g hg' => ho g (List.mem_cons_of_mem _ hg')⟩

theorem inv_call {cfg : Cfg} {ent : Fn} {d : Nat} {s : St} (h : Inv ent d s) {f : Fn} (hf : Ordinary f) :
    Inv ent (d + 1) (call cfg s f) ∧ (call cfg s f).reports = s.reports ∧
      (call cfg s f).suspended = s.suspended := by
  obtain ⟨hg, above, below, hs, hlen, ho⟩ := h
  unfold call
  simp only [hg]
  refine ⟨⟨rfl, ⟨f, some .other⟩ :: above, below, by simp [setTr_zero, hs], by simp [hlen], ?_⟩, by simp⟩
  intro g hg'
  rcases List.mem_cons.mp hg' with rfl | hg'
  · exact ⟨hf, .inr (.inr rfl)⟩
  · exact ho g hg'

theorem inv_stop {ent : Fn} {d : Nat} {s : St} (hp : ent.plain = false) (h : Inv ent d s) :
    Inv ent d { s with stack := retrace s.stack } := by
  obtain ⟨hg, above, below, hs, hlen, ho⟩ := h
  cases above with
  | nil =>
    exact ⟨hg, [], below.map (fun f => if f.fn.plain then { f with tr := some .first } else f),
      by simp only [hs, retrace, List.nil_append], hlen, by simp⟩
  | cons f above =>
    refine ⟨hg, f :: above.map (fun f => if f.fn.plain then { f with tr := some .first } else f),
      below.map (fun f => if f.fn.plain then { f with tr := some .first } else f), ?_, ?_, ?_⟩
    · simp only [hs, retrace, List.cons_append, List.map_append, List.map_cons, hp]
      rfl
    · simpa using hlen
    · intro g hg'
      rcases List.mem_cons.mp hg' with rfl | hg'
      · exact ho g List.mem_cons_self
      · obtain ⟨k, hk, rfl⟩ := List.mem_map.mp hg'
        have := ho k (List.mem_cons_of_mem _ hk)
        split
        · exact ⟨this.1, .inr (.inl rfl)⟩
        · exact this

theorem run_watched {cfg : Cfg} {ent : Fn} (hk : cfg.known = true) (ht : cfg.traced = true) (he : Entry ent)
    (hp : ent.plain = false) : ∀ (acts : List Act) (d : Nat) (s : St), Inv ent d s → Inside d acts →
    Calls Ordinary acts →
    (run cfg s acts).reports =
      if s.suspended then s.reports else s.reports ++ ((arrivals d acts).take 1).map (·.2) := by
  intro acts
  induction acts with
  | nil => intro d s _ _ _; simp [run, arrivals]
  | cons a acts ih =>
    intro d s h hi hc
    have hc' : Calls Ordinary acts := fun f hf => hc f (List.mem_cons_of_mem _ hf)
    have hrun : run cfg s (a :: acts) = run cfg (step cfg s a) acts := rfl
    rw [hrun]
    cases a with
    | call f =>
      obtain ⟨h1, h2, h3⟩ := inv_call (cfg := cfg) h (hc f List.mem_cons_self)
      rw [show step cfg s (.call f) = call cfg s f from rfl, ih (d + 1) _ h1 hi hc', h2, h3]
      simp [arrivals]
    | line =>
      have hi' : Inside d acts := by cases d <;> exact hi
      have ha : arrivals d (.line :: acts) = arrivals d acts := by cases d with | zero => rfl | succ d => cases d <;> rfl
      rw [show step cfg s .line = event cfg s .other from rfl, ha]
      cases d with
      | zero => rw [event_entry h]; exact ih 0 s h hi' hc'
      | succ d =>
        obtain ⟨h1, h2, h3⟩ := event_above hk ht he h .other
        rw [ih _ _ h1 hi' hc', h2, h3]
    | raise l e =>
      have hi' : Inside d acts := by cases d <;> exact hi
      rw [show step cfg s (.raise l e) = event cfg s (.exception l e) from rfl]
      cases d with
      | zero =>
        rw [ih 0 _ (inv_entry h _) hi' hc', event_entry h]
        dsimp only
        by_cases hsus : s.suspended = true
        · simp [hsus]
        · simp [hsus, arrivals]
      | succ d =>
        obtain ⟨h1, h2, h3⟩ := event_above hk ht he h (.exception l e)
        rw [ih _ _ h1 hi' hc', h2, h3]
        rfl
    | ret l =>
      cases d with
      | zero => exact hi.elim
      | succ d =>
        obtain ⟨h1, h2, h3⟩ := event_above hk ht he h (.return_ l)
        have := ih d _ (inv_drop h1) hi hc'
        rw [show step cfg s (.ret l) =
          { event cfg s (.return_ l) with stack := (event cfg s (.return_ l)).stack.drop 1 } from rfl, this]
        dsimp only
        rw [h2, h3]
        rfl
    | leave l e b =>
      cases d with
      | zero => exact hi.elim
      | succ d =>
        obtain ⟨h1, h2, h3⟩ := event_above hk ht he h (.return_ l)
        have h4 := inv_drop h1
        have hstep : step cfg s (.leave l e b) =
          event cfg { event cfg s (.return_ l) with stack := (event cfg s (.return_ l)).stack.drop 1 } (.exception b e) :=
          rfl
        rw [hstep]
        cases d with
        | zero =>
          rw [ih 0 _ (inv_entry h4 _) hi hc', event_entry h4]
          dsimp only
          rw [h3]
          by_cases hsus : s.suspended = true
          · simp [hsus, h2]
          · simp [hsus, arrivals, h2]
        | succ d =>
          obtain ⟨k1, k2, k3⟩ := event_above hk ht he h4 (.exception b e)
          rw [ih _ _ k1 hi hc', k2, k3]
          dsimp only
          rw [h2, h3]
          rfl
    | stop =>
      have hi' : Inside d acts := by cases d <;> exact hi
      have ha : arrivals d (.stop :: acts) = arrivals d acts := by cases d with | zero => rfl | succ d => cases d <;> rfl
      rw [ha]
      exact ih d _ (inv_stop hp h) hi' hc'

/-- **C103.** A thread is run from an entry point `ent` (whatever is below it); tracing begins when the entry point
calls a first function. Whatever is called, raised, caught and stopped at, the first exception which reaches the entry
point is reported as uncaught, once, and no other exception is. -/
theorem c103_uncaught (cfg : Cfg) (ent f : Fn) (below : List Frame) (acts : List Act) (hk : cfg.known = true)
    (ht : cfg.traced = true) (he : Entry ent) (hp : ent.plain = false) (hf : Ordinary f) (hc : Calls Ordinary acts)
    (hi : Inside 1 acts) :
    (run cfg { stack := { fn := ent } :: below } (.call f :: acts)).reports =
      ((arrivals 1 acts).take 1).map (·.2) := by
  have hfix := fixTop_entry (cfg := cfg) (s := { stack := { fn := f } :: { fn := ent } :: below }) (ent := ent)
    (tr := none) (above := [{ fn := f }]) (below := below) hk ht he rfl (by simpa using hf)
  have hcall : call cfg { stack := { fn := ent } :: below } f =
      { glob := some .thread, stack := ⟨f, some .other⟩ :: ⟨ent, some .only⟩ :: below } := by
    unfold call
    dsimp only
    rw [hfix]
    rfl
  have hrun : run cfg { stack := { fn := ent } :: below } (.call f :: acts) =
      run cfg (call cfg { stack := { fn := ent } :: below } f) acts := rfl
  rw [hrun, hcall, run_watched hk ht he hp acts 1 _ ⟨rfl, [⟨f, some .other⟩], below, rfl, rfl, ?_⟩ hi hc]
  · simp
  · intro g hg
    simp at hg
    subst hg
    exact ⟨hf, .inr (.inr rfl)⟩

/-! ## A thread without an entry point -/

/-- The tracer of the outermost frame after the exceptions `seen`, latest first. -/
def tracerOf (seen : List (Nat × Nat)) : Tracer :=
  { raiseLines := seen.map (·.1), lastRaise := seen.head?.map (·.1), lastExc := seen.head?.map (·.2) }

structure Outer (f0 : Fn) (d : Nat) (seen : List (Nat × Nat)) (s : St) : Prop where
  glob : s.glob ≠ none
  quiet : s.suspended = false ∧ s.reports = []
  stack : ∃ above, s.stack = above ++ [⟨f0, some (.top (tracerOf seen))⟩] ∧ above.length = d ∧
    ∀ f ∈ above, f.tr = none ∨ f.tr = some .other

theorem outer_above {cfg : Cfg} {f0 : Fn} {d : Nat} {seen : List (Nat × Nat)} {s : St} (h : Outer f0 (d + 1) seen s)
    (ev : Ev) : event cfg s ev = s := by
  obtain ⟨hg, hq, above, hs, hlen, ho⟩ := h
  cases above with
  | nil => simp at hlen
  | cons f above =>
    unfold event
    rw [if_neg hg, hs]
    simp only [List.cons_append]
    have hf := ho f List.mem_cons_self
    rw [if_neg (by rcases hf with e | e <;> rw [e] <;> simp)]
    unfold trace
    rw [hs]
    simp only [List.cons_append]
    rcases hf with e | e <;> rw [e]

theorem outer_here {cfg : Cfg} {f0 : Fn} {seen : List (Nat × Nat)} {s : St} (h : Outer f0 0 seen s)
    (ev : Ev) : event cfg s ev =
      { s with
        stack := [⟨f0, some (.top (TryExcept.trace (cfg.infos f0) false (tracerOf seen) ev).1)⟩]
        reports := (TryExcept.trace (cfg.infos f0) false (tracerOf seen) ev).2.toList } := by
  obtain ⟨hg, ⟨hq1, hq2⟩, above, hs, hlen, ho⟩ := h
  cases above with
  | cons _ _ => simp at hlen
  | nil =>
    obtain ⟨g, st, su, re⟩ := s
    dsimp only at hg hs hq1 hq2
    subst hs hq1 hq2
    unfold event
    rw [if_neg hg]
    simp only [List.nil_append, trace]
    rw [if_neg (by simp)]
    simp [setTr_zero]

theorem outer_drop {f0 : Fn} {d : Nat} {seen : List (Nat × Nat)} {s : St} (h : Outer f0 (d + 1) seen s) :
    Outer f0 d seen { s with stack := s.stack.drop 1 } := by
  obtain ⟨hg, hq, above, hs, hlen, ho⟩ := h
  cases above with
  | nil => simp at hlen
  | cons f above =>
    exact ⟨hg, hq, above, by simp [hs], by simpa using hlen, fun g hg' => ho g (List.mem_cons_of_mem _ hg')⟩

theorem outer_raise {cfg : Cfg} {f0 : Fn} {seen : List (Nat × Nat)} {s : St} (h : Outer f0 0 seen s) (l e : Nat) :
    Outer f0 0 ((l, e) :: seen) (event cfg s (.exception l e)) := by
  rw [outer_here h]
  exact ⟨h.glob, ⟨h.quiet.1, rfl⟩, [], rfl, rfl, by simp⟩

theorem outer_line {cfg : Cfg} {f0 : Fn} {seen : List (Nat × Nat)} {s : St} (h : Outer f0 0 seen s) :
    Outer f0 0 seen (event cfg s .other) := by
  rw [outer_here h]
  exact ⟨h.glob, ⟨h.quiet.1, rfl⟩, [], rfl, rfl, by simp⟩

theorem outer_run {cfg : Cfg} {f0 : Fn} : ∀ (acts : List Act) (d : Nat) (seen : List (Nat × Nat)) (s : St),
    Outer f0 d seen s → Inside d acts → Undisturbed d acts → (s.glob = some .thread ∨ ∀ f, Act.call f ∉ acts) →
    Outer f0 (depth d acts) ((arrivals d acts).reverse ++ seen) (run cfg s acts) := by
  intro acts
  induction acts with
  | nil => intro d seen s h _ _ _; simpa [run, arrivals, depth] using h
  | cons a acts ih =>
    intro d seen s h hi hu hg
    have hrun : run cfg s (a :: acts) = run cfg (step cfg s a) acts := rfl
    have hg' : s.glob = some .thread ∨ ∀ f, Act.call f ∉ acts :=
      hg.imp id (fun h f hf => h f (List.mem_cons_of_mem _ hf))
    rw [hrun]
    cases a with
    | call f =>
      have hgl : s.glob = some .thread := hg.resolve_right (fun h => h f List.mem_cons_self)
      obtain ⟨_, hq, above, hs, hlen, ho⟩ := h
      have hstep : step cfg s (.call f) = { s with stack := ⟨f, some .other⟩ :: s.stack } := by
        simp only [step, call, hgl, setTr_zero]
      have := ih (d + 1) seen (step cfg s (.call f)) (by
        rw [hstep]
        refine ⟨by simp [hgl], hq, ⟨f, some .other⟩ :: above, by simp [hs], by simp [hlen], ?_⟩
        intro g hg'
        rcases List.mem_cons.mp hg' with rfl | hg'
        · exact .inr rfl
        · exact ho g hg') hi hu (.inl (by rw [hstep]; exact hgl))
      simpa [arrivals, depth] using this
    | line =>
      have hi' : Inside d acts := by cases d <;> exact hi
      have ha : arrivals d (.line :: acts) = arrivals d acts := by cases d with | zero => rfl | succ d => cases d <;> rfl
      rw [show step cfg s .line = event cfg s .other from rfl, ha]
      cases d with
      | zero =>
        exact ih 0 seen _ (outer_line h) hi' hu (by rw [outer_here h]; exact hg')
      | succ d => rw [outer_above h]; exact ih _ _ _ h hi' hu hg'
    | raise l e =>
      have hi' : Inside d acts := by cases d <;> exact hi
      rw [show step cfg s (.raise l e) = event cfg s (.exception l e) from rfl]
      cases d with
      | zero =>
        have := ih 0 _ _ (outer_raise (cfg := cfg) h l e) hi' hu (by rw [outer_here h]; exact hg')
        simpa [arrivals, depth] using this
      | succ d => rw [outer_above h]; exact ih _ _ _ h hi' hu hg'
    | ret l =>
      cases d with
      | zero => exact hi.elim
      | succ d =>
        have hstep : step cfg s (.ret l) = { s with stack := s.stack.drop 1 } := by
          simp only [step, outer_above h]
        rw [hstep]
        exact ih d seen _ (outer_drop h) hi hu hg'
    | leave l e b =>
      cases d with
      | zero => exact hi.elim
      | succ d =>
        have hstep : step cfg s (.leave l e b) = event cfg { s with stack := s.stack.drop 1 } (.exception b e) := by
          simp only [step, outer_above h]
        have h4 := outer_drop h
        rw [hstep]
        cases d with
        | zero =>
          have := ih 0 _ _ (outer_raise (cfg := cfg) h4 b e) hi hu (by rw [outer_here h4]; exact hg')
          simpa [arrivals, depth] using this
        | succ d =>
          rw [outer_above h4]
          exact ih _ _ _ h4 hi hu hg'
    | stop =>
      have hi' : Inside d acts := by cases d <;> exact hi
      have ha : arrivals d (.stop :: acts) = arrivals d acts := by cases d with | zero => rfl | succ d => cases d <;> rfl
      rw [ha]
      obtain ⟨hd, hu⟩ := hu
      subst hd
      have hstep : step cfg s .stop = s := by
        obtain ⟨_, _, above, hs, hlen, _⟩ := h
        cases above with
        | cons _ _ => simp at hlen
        | nil =>
          obtain ⟨g, st, su, re⟩ := s
          dsimp only at hs
          subst hs
          rfl
      rw [hstep]
      exact ih 0 seen s h hi' hu hg'

/-- What is reported when the frame is left at `line` after the exceptions `es`, in order: the last one, if by the
`try` statements of the function it is on its way out (C25). -/
def reportAt (infos : List Info) (line : Nat) (es : List (Nat × Nat)) : List Nat :=
  match es.getLast? with
  | none => []
  | some (lr, e) => if isUnhandled infos line lr (es.reverse.map (·.1)) then [e] else []

theorem outer_end {cfg : Cfg} {f0 : Fn} {es : List (Nat × Nat)} {s : St} (h : Outer f0 0 es.reverse s) (l : Nat) :
    (event cfg s (.return_ l)).reports = reportAt (cfg.infos f0) l es ∧ (event cfg s (.return_ l)).stack.length = 1 := by
  rw [outer_here h]
  refine ⟨?_, rfl⟩
  unfold reportAt tracerOf
  rw [← List.head?_reverse]
  cases hr : es.reverse with
  | nil => rfl
  | cons x rest =>
    obtain ⟨lr, e⟩ := x
    simp only [List.head?_cons, Option.map_some, TryExcept.trace, Bool.not_false, Bool.true_and]
    split <;> rfl

theorem run_append (cfg : Cfg) (s : St) (a b : List Act) : run cfg s (a ++ b) = run cfg (run cfg s a) b := by
  simp [run]

theorem look_user (f : Fn) (h : User f) (force : Bool) (i : Nat) : look force i [f] = .at i force false := by
  obtain ⟨h1, h2, h3, h4⟩ := h
  simp [look, h1, h2, h3, h4]

theorem look_user_call (g f : Fn) (hg : Ordinary g) (h : User f) (force : Bool) (i : Nat) :
    look force i [g, f] = .at (i + 1) force false := by
  obtain ⟨o1, o2, o3, o4⟩ := hg
  rw [look]
  by_cases e1 : stem g.file = c!"threading"
  · obtain ⟨a, b, c, d⟩ := o1 e1
    rw [if_pos e1, if_neg (by simp [c, d]), if_neg (by simp [a, b]), look_user f h]
  · rw [if_neg e1]
    by_cases e2 : stem g.file = c!"pydev_monkey"
    · rw [if_pos e2, if_neg (o2 e2), look_user f h]
    · rw [if_neg e2]
      by_cases e3 : stem g.file = c!"pydevd"
      · obtain ⟨a, b, c⟩ := o3 e3
        rw [if_pos e3, if_neg (by simp [a, b]), if_neg c, look_user f h]
      · rw [if_neg e3, if_neg o4, if_neg (by simp), look_user f h]

/-- **C103, without an entry point.** A thread whose outermost frame is a function `f0` of the program. When the frame
is left, the last exception that was seen in it is reported if, by the `try` statements, it is on its way out. The
provisos: either `f0` calls nothing, or it makes a call before an exception is seen in it; and the thread is not
stopped while other frames are above `f0` (see the witnesses below). -/
theorem c103_outermost (cfg : Cfg) (f0 : Fn) (acts : List Act) (k l : Nat) (last : Act)
    (hk : cfg.known = true) (ht : cfg.traced = true) (hf : User f0) (hi : Inside 0 acts) (hu : Undisturbed 0 acts)
    (hd : depth 0 acts = 0)
    (hc : (∀ f, Act.call f ∉ acts) ∨ ∃ g rest, Ordinary g ∧ acts = List.replicate k .line ++ .call g :: rest)
    (hlast : last = .ret l ∨ ∃ e b, last = .leave l e b) :
    (run cfg {} (.call f0 :: acts ++ [last])).reports = reportAt (cfg.infos f0) l (arrivals 0 acts) := by
  have h0 : Outer f0 0 [] (step cfg {} (.call f0)) := by
    have : step cfg {} (.call f0) = { stack := [⟨f0, some (.top {})⟩] } := by
      simp only [step, call, fixTop, List.map_cons, List.map_nil, look_user f0 hf]
      simp [hk, ht, setTr, tracerFor, trace, TryExcept.trace, List.modify]
    rw [this]
    exact ⟨by simp, ⟨rfl, rfl⟩, [], rfl, rfl, by simp⟩
  have hrun : run cfg {} (.call f0 :: acts ++ [last]) = step cfg (run cfg (step cfg {} (.call f0)) acts) last := by
    rw [List.cons_append, show run cfg {} (.call f0 :: (acts ++ [last])) =
      run cfg (step cfg {} (.call f0)) (acts ++ [last]) from rfl, run_append]
    rfl
  have hend : Outer f0 0 (arrivals 0 acts).reverse (run cfg (step cfg {} (.call f0)) acts) := by
    rcases hc with hc | ⟨g, rest, hg, rfl⟩
    · have := outer_run (cfg := cfg) acts 0 [] _ h0 hi hu (.inr hc)
      simpa [hd] using this
    · have h1 : Outer f0 0 [] (run cfg (step cfg {} (.call f0)) (List.replicate k .line)) ∧
          (run cfg (step cfg {} (.call f0)) (List.replicate k .line)).glob = some .first := by
        have hfirst : (step cfg {} (.call f0)).glob = some .first := by
          simp only [step, call, fixTop, List.map_cons, List.map_nil, look_user f0 hf]
          simp [hk, ht, setTr, tracerFor, trace, TryExcept.trace, List.modify]
        clear hrun
        generalize step cfg {} (.call f0) = s at h0 hfirst
        clear hi hu hd
        induction k generalizing s with
        | zero => exact ⟨h0, hfirst⟩
        | succ k ih =>
          rw [List.replicate_succ, show run cfg s (.line :: List.replicate k .line) =
            run cfg (event cfg s .other) (List.replicate k .line) from rfl]
          exact ih _ (outer_line h0) (by rw [outer_here h0]; exact hfirst)
      have hdrop : ∀ k, Inside 0 (List.replicate k .line ++ .call g :: rest) → Inside 1 rest := by
        intro k
        induction k with
        | zero => exact fun h => h
        | succ k ih => exact fun h => ih h
      have hundist : ∀ k, Undisturbed 0 (List.replicate k .line ++ .call g :: rest) → Undisturbed 1 rest := by
        intro k
        induction k with
        | zero => exact fun h => h
        | succ k ih => exact fun h => ih h
      have hdepth : ∀ k, depth 0 (List.replicate k .line ++ .call g :: rest) = depth 1 rest := by
        intro k
        induction k with
        | zero => rfl
        | succ k ih => exact ih
      have harr : ∀ k, arrivals 0 (List.replicate k .line ++ .call g :: rest) = arrivals 1 rest := by
        intro k
        induction k with
        | zero => rfl
        | succ k ih => exact ih
      rw [harr, run_append]
      obtain ⟨⟨a1, a2, above, a3, a4, _⟩, hgl⟩ := h1
      generalize run cfg (step cfg {} (.call f0)) (List.replicate k .line) = s at *
      cases above with
      | cons _ _ => simp at a4
      | nil =>
        have hstep : step cfg s (.call g) =
            { s with glob := some .thread, stack := [⟨g, some .other⟩, ⟨f0, some (.top {})⟩] } := by
          obtain ⟨gl, st, su, re⟩ := s
          dsimp only at a3 hgl
          subst a3 hgl
          simp only [step, call, fixTop, List.map_cons, List.map_nil, List.nil_append, look_user_call g f0 hg hf]
          simp [hk, ht, setTr, tracerFor, List.modify]
        rw [show run cfg s (.call g :: rest) = run cfg (step cfg s (.call g)) rest from rfl, hstep]
        have := outer_run (cfg := cfg) rest 1 [] (f0 := f0)
          { s with glob := some .thread, stack := [⟨g, some .other⟩, ⟨f0, some (.top {})⟩] }
          ⟨by simp, a2, [⟨g, some .other⟩], rfl, rfl, by simp⟩ (hdrop k hi) (hundist k hu) (.inl rfl)
        rw [hdepth k] at hd
        simpa [hd] using this
  obtain ⟨e1, e2⟩ := outer_end (cfg := cfg) hend l
  rw [hrun]
  generalize run cfg (step cfg {} (.call f0)) acts = s at e1 e2
  rcases hlast with rfl | ⟨e, b, rfl⟩
  · exact e1
  · simp only [step]
    have : (event cfg s (.return_ l)).stack.drop 1 = [] :=
      List.drop_eq_nil_of_le (by omega)
    rw [this]
    generalize event cfg s (.return_ l) = s' at e1
    unfold event
    split
    · exact e1
    · exact e1

/-- The name a file is known by: what is between the last separator, of whichever kind, and the last dot. -/
theorem c103_stem (dir base ext : List Char) (sep : Char) (hs : sep = '/' ∨ sep = '\\')
    (hb : ∀ c ∈ base, c ≠ '/' ∧ c ≠ '\\') (he : ∀ c ∈ ext, c ≠ '/' ∧ c ≠ '\\' ∧ c ≠ '.') :
    stem (dir ++ sep :: base ++ '.' :: ext) = base := by
  have h1 : ((dir ++ sep :: base ++ '.' :: ext).reverse.takeWhile (fun c => c != '/' && c != '\\')).reverse =
      base ++ '.' :: ext := by
    have : (dir ++ sep :: base ++ '.' :: ext).reverse = (base ++ '.' :: ext).reverse ++ sep :: dir.reverse := by simp
    rw [this, List.takeWhile_append_of_pos, List.takeWhile_cons]
    · rcases hs with rfl | rfl <;> simp
    · intro c hc
      simp only [List.mem_reverse, List.mem_append, List.mem_cons] at hc
      rcases hc with hc | rfl | hc
      · have := hb c hc; simp [this.1, this.2]
      · decide
      · have := he c hc; simp [this.1, this.2.1]
  unfold stem
  rw [h1, if_pos (by simp)]
  have : (base ++ '.' :: ext).reverse = ext.reverse ++ '.' :: base.reverse := by simp
  rw [this, List.dropWhile_append_of_pos]
  · simp
  · intro c hc
    have := he c (List.mem_reverse.mp hc)
    simp [this.2.2]

/-! ## Examples and witnesses -/

def bootInner : Fn := ⟨c!"/usr/lib/python3.12/threading.py", c!"_bootstrap_inner", true, false⟩
def boot : Fn := ⟨c!"/usr/lib/python3.12/threading.py", c!"_bootstrap", true, false⟩
def threadRun : Fn := ⟨c!"/usr/lib/python3.12/threading.py", c!"run", true, false⟩
def exec : Fn := ⟨c!"C:\\x\\pydevd.py", c!"_exec", true, false⟩
def work : Fn := ⟨c!"/home/u/work.py", c!"work", false, true⟩
def log : Fn := ⟨c!"/home/u/work.py", c!"log", false, true⟩

/-- A thread's function raises, the exception is caught once, the program stops at a breakpoint, and then an exception
leaves `run`: it is reported. -/
def example1 : List Act :=
  [.call work, .raise 5 70, .call log, .stop, .ret 9, .line, .raise 6 71, .leave 6 71 10, .leave 10 71 20, .line]

theorem c103_example :
    Entry bootInner ∧ Entry exec ∧ Ordinary threadRun ∧ Calls Ordinary example1 ∧ Inside 1 example1 ∧
    arrivals 1 example1 = [(20, 71)] ∧
    (run {} { stack := [{ fn := bootInner }, { fn := boot }] } (.call threadRun :: example1)).reports = [71] := by
  refine ⟨?_, ?_, ?_, ?_, ?_, ?_, ?_⟩
  · exact .inl (by decide +kernel)
  · exact .inr (.inr (by decide +kernel))
  · unfold Ordinary; decide +kernel
  · have h1 : Ordinary work := by unfold Ordinary; decide +kernel
    have h2 : Ordinary log := by unfold Ordinary; decide +kernel
    intro f hf
    simp [example1] at hf
    rcases hf with rfl | rfl
    · exact h1
    · exact h2
  · simp [Inside, example1]
  · decide +kernel
  · decide +kernel

/-- `try` at 1-2, `except` at 3-4 with `raise` at 4. -/
def cfgTry : Cfg := { infos := fun f => if f = work then [{ tryLine := 1, exceptLine := some 3, exceptEnd := some 4, raises := [4] }] else [] }

/-- After a call before the exception, the exception re-raised by the handler is reported. -/
theorem c103_outermost_example :
    User work ∧ Ordinary log ∧
    Undisturbed 0 [.call log, .ret 9, .raise 2 70, .call log, .ret 9] ∧
    (run cfgTry {} [.call work, .call log, .ret 9, .raise 2 70, .call log, .ret 9, .leave 4 70 0]).reports = [70] := by
  refine ⟨by unfold User; decide +kernel, by unfold Ordinary; decide +kernel, by simp [Undisturbed], by decide +kernel⟩

/-- **Missed.** The same without a call before the exception: the handler's call replaces the tracer which has seen the
exception, and the exception which leaves the thread is not reported. -/
theorem c103_first_call_witness :
    (run cfgTry {} [.call work, .raise 2 70, .call log, .ret 9, .leave 4 70 0]).reports = [] := by decide +kernel

/-- **Missed after a stop.** The same if the thread is stopped in the handler's call. -/
theorem c103_stop_witness :
    (run cfgTry {} [.call work, .call log, .ret 9, .raise 2 70, .call log, .stop, .ret 9, .line, .leave 4 70 0]).reports
      = [] := by decide +kernel

/-- **Only the first call from outside.** Where a thread which is not Python's calls functions of the program one after
the other, nothing is reported from the second on. -/
theorem c103_second_call_witness :
    (run cfgTry {} [.call work, .call log, .ret 9, .ret 5, .call work, .raise 7 70, .leave 7 70 0]).reports = [] ∧
    (run cfgTry {} [.call work, .call log, .ret 9, .raise 7 70, .leave 7 70 0]).reports = [70] := by
  decide +kernel

end TopLevel
