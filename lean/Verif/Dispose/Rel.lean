import Verif.Dispose.Lemmas
/-! Invariants that compare a state with an earlier one. -/

namespace Dispose

/-- The call has seen a quiet moment and may be asking helper threads to end. -/
def Call.asking : Call → Bool
  | .snapshot _ | .ask .. | .putExit .. | .setFlag .. => true
  | _ => false

/-- The call has waited for the helper threads. -/
def Call.waited : Call → Bool
  | .readGlobal w | .writeGlobal w _ | .done w _ => w
  | _ => false

theorem asking_of_fresh {c : Call} (h : c.fresh = true) : c.asking = false ∧ c.waited = false := by
  cases c <;> simp_all [Call.fresh, Call.asking, Call.waited]

/-- The messages `P` were put before the disposal began. -/
structure Deliv (P : List Msg) (s : St) : Prop where
  inv : Inv s
  pre : P <+: s.puts
  life : s.life 0 = .running ∨ s.life 0 = .ended
  noted : s.timedOut = false → s.failed = false →
    ((∃ t, (s.call t).asking = true) ∨ Msg.exit ∈ s.puts) → P <+: s.sent ++ s.writer.inflight
  done : s.timedOut = false → s.failed = false →
    (s.waitDone = true ∨ ∃ t, (s.call t).waited = true) → s.life 0 = .ended

theorem prefix_snoc {P l : List Msg} (m : Msg) (h : P <+: l) : P <+: l ++ [m] :=
  h.trans (List.prefix_append _ _)

set_option maxHeartbeats 4000000 in
theorem deliv_dispose {P : List Msg} (s : St) (t : Nat) (b : Bool) (l : List Nat) (h : Deliv P s) :
    Deliv P (disposeStep s t b l) := by
  have hh := h
  obtain ⟨hi, h1, h2, h3, h4⟩ := h
  have hI := inv_disposeStep s t b l hi
  have hw := hi.writerCall
  have hr := hi.reg 0
  have hsync := hi.sync
  have hq : s.failed = false → s.queue = [] → P <+: s.sent ++ s.writer.inflight := by
    intro hf hq
    have := hsync hf
    rw [hq, List.append_nil] at this
    exact this ▸ h1
  have h3' : s.timedOut = false → s.failed = false → ∀ u, (s.call u).asking = true → P <+: s.sent ++ s.writer.inflight :=
    fun a b u hu => h3 a b (.inl ⟨u, hu⟩)
  have h4' : s.timedOut = false → s.failed = false → ∀ u, (s.call u).waited = true → s.life 0 = .ended :=
    fun a b u hu => h4 a b (.inr ⟨u, hu⟩)
  have hp := fun m => prefix_snoc m h1
  revert hI
  unfold disposeStep
  split
  all_goals (try exact fun _ => hh)
  all_goals
    rename_i hc
    have hx : (s.call t).asking = _ := congrArg Call.asking hc
    have hy : (s.call t).waited = _ := congrArg Call.waited hc
    repeat' split
    all_goals (try exact fun _ => hh)
    all_goals
      intro hI
      refine ⟨hI, ?_, ?_, ?_, ?_⟩ <;> (try dsimp only [St.goto, upd, afterAsk, afterWait]) <;>
        first
        | assumption
        | exact hp _
        | grind [Call.asking, Call.waited, St.nothingToSend, St.allEnded]

set_option maxHeartbeats 4000000 in
theorem deliv_step {P : List Msg} (s : St) (a : Act) (h : Deliv P s) : Deliv P (step s a) := by
  have hI := inv_step s a h.inv
  revert hI
  unfold step
  split
  · exact fun _ => h
  have hh := h
  obtain ⟨hi, h1, h2, h3, h4⟩ := h
  have hp := fun m => prefix_snoc m h1
  have hw := hi.writerCall
  have h4' : s.timedOut = false → s.failed = false → ∀ u, (s.call u).waited = true → s.life 0 = .ended :=
    fun a b u hu => h4 a b (.inr ⟨u, hu⟩)
  have h3' : s.timedOut = false → s.failed = false → ∀ u, (s.call u).asking = true → P <+: s.sent ++ s.writer.inflight :=
    fun a b u hu => h3 a b (.inl ⟨u, hu⟩)
  have hp3 : ∀ m, P <+: s.sent → P <+: s.sent ++ [m] := fun m h => prefix_snoc m h
  cases a
  case dispose t b l => exact fun _ => deliv_dispose s t b l hh
  case checker =>
    dsimp only
    unfold checkerStep
    repeat' split
    all_goals (try exact fun _ => hh)
    all_goals
      intro hI
      refine ⟨hI, ?_, ?_, ?_, ?_⟩ <;> (try dsimp only [St.goto, upd]) <;>
        first
        | assumption
        | grind [Call.asking, Call.waited]
  all_goals
    dsimp only
    repeat' split
    all_goals (try exact fun _ => hh)
    all_goals
      intro hI
      refine ⟨hI, ?_, ?_, ?_, ?_⟩ <;> (try dsimp only [St.goto, upd]) <;>
        first
        | assumption
        | exact hp _
        | grind [Call.asking, Call.waited, Writer.inflight]

/-! ## Helper threads are waited for -/

/-- The helper thread `h` ran before the disposal began. -/
structure Waits (h : Nat) (s : St) : Prop where
  inv : Inv s
  life : s.life h = .running ∨ s.life h = .ended
  done : s.timedOut = false → (s.waitDone = true ∨ ∃ t, (s.call t).waited = true) →
    s.life h = .ended ∨ s.call h ≠ .none

set_option maxHeartbeats 4000000 in
theorem waits_dispose {h : Nat} (h1 : h ≠ 1) (s : St) (t : Nat) (b : Bool) (l : List Nat) (hw : Waits h s) :
    Waits h (disposeStep s t b l) := by
  have hh := hw
  obtain ⟨hi, hl, hd⟩ := hw
  have hI := inv_disposeStep s t b l hi
  have hr := hi.reg h
  have hd' : s.timedOut = false → ∀ u, (s.call u).waited = true → s.life h = .ended ∨ s.call h ≠ .none :=
    fun a u hu => hd a (.inr ⟨u, hu⟩)
  revert hI
  unfold disposeStep
  split
  all_goals (try exact fun _ => hh)
  all_goals
    rename_i hc
    have hy : (s.call t).waited = _ := congrArg Call.waited hc
    repeat' split
    all_goals (try exact fun _ => hh)
    all_goals
      intro hI
      refine ⟨hI, ?_, ?_⟩ <;> (try dsimp only [St.goto, upd, afterAsk, afterWait]) <;>
        first
        | assumption
        | grind [Call.waited, St.allEnded]

set_option maxHeartbeats 4000000 in
theorem waits_step {h : Nat} (h1 : h ≠ 1) (s : St) (a : Act) (hw : Waits h s) : Waits h (step s a) := by
  have hI := inv_step s a hw.inv
  revert hI
  unfold step
  split
  · exact fun _ => hw
  have hh := hw
  obtain ⟨hi, hl, hd⟩ := hw
  have hd' : s.timedOut = false → ∀ u, (s.call u).waited = true → s.life h = .ended ∨ s.call h ≠ .none :=
    fun a u hu => hd a (.inr ⟨u, hu⟩)
  cases a
  case dispose t b l => exact fun _ => waits_dispose h1 s t b l hh
  case checker =>
    dsimp only
    unfold checkerStep
    repeat' split
    all_goals (try exact fun _ => hh)
    all_goals
      intro hI
      refine ⟨hI, ?_, ?_⟩ <;> (try dsimp only [St.goto, upd]) <;>
        first
        | assumption
        | grind [Call.waited]
  all_goals
    dsimp only
    repeat' split
    all_goals (try exact fun _ => hh)
    all_goals
      intro hI
      refine ⟨hI, ?_, ?_⟩ <;> (try dsimp only [St.goto, upd]) <;>
        first
        | assumption
        | grind [Call.waited]

/-! ## Helper threads are asked to end -/

/-- `h` is still to be asked by this call. -/
def Call.toAsk (h : Nat) : Call → Bool
  | .begun _ | .none | .quiet _ | .locking _ | .snapshot _ => true
  | .ask _ r => decide (h ∈ r)
  | .putExit _ r | .setFlag _ r => decide (h = 0 ∨ h ∈ r)
  | _ => false

/-- The call is the first one, running or returned. -/
def Call.isFirstEver : Call → Bool
  | .done _ f => f
  | c => c.isFirst

/-- The helper thread `h` ran before the disposal began. -/
structure Asks (h : Nat) (s : St) : Prop where
  inv : Inv s
  life : s.life h = .running ∨ s.life h = .ended
  done : ∀ t, (s.call t).isFirstEver = true → (s.call t).toAsk h = true ∨ s.asked h = true ∨ s.life h = .ended

set_option maxHeartbeats 4000000 in
theorem asks_dispose {h : Nat} (s : St) (t : Nat) (b : Bool) (l : List Nat) (hw : Asks h s) :
    Asks h (disposeStep s t b l) := by
  have hh := hw
  obtain ⟨hi, hl, hd⟩ := hw
  have hI := inv_disposeStep s t b l hi
  have hr := hi.reg h
  have hperm : l.Perm s.reg → (h ∈ l ↔ h ∈ s.reg) := fun p => p.mem_iff
  revert hI
  unfold disposeStep
  split
  all_goals (try exact fun _ => hh)
  all_goals
    rename_i hc
    have hdt := hd t
    rw [hc] at hdt
    repeat' split
    all_goals (try exact fun _ => hh)
    all_goals
      intro hI
      refine ⟨hI, ?_, ?_⟩ <;> (try dsimp only [St.goto, upd, afterAsk, afterWait]) <;>
        first
        | assumption
        | grind [Call.toAsk, Call.isFirstEver, Call.isFirst]

set_option maxHeartbeats 4000000 in
theorem asks_step {h : Nat} (s : St) (a : Act) (hw : Asks h s) : Asks h (step s a) := by
  have hI := inv_step s a hw.inv
  revert hI
  unfold step
  split
  · exact fun _ => hw
  have hh := hw
  obtain ⟨hi, hl, hd⟩ := hw
  cases a
  case dispose t b l => exact fun _ => asks_dispose s t b l hh
  case checker =>
    dsimp only
    unfold checkerStep
    repeat' split
    all_goals (try exact fun _ => hh)
    all_goals
      intro hI
      refine ⟨hI, ?_, ?_⟩ <;> (try dsimp only [St.goto, upd]) <;>
        first
        | assumption
        | grind [Call.isFirstEver, Call.isFirst]
  all_goals
    dsimp only
    repeat' split
    all_goals (try exact fun _ => hh)
    all_goals
      intro hI
      refine ⟨hI, ?_, ?_⟩ <;> (try dsimp only [St.goto, upd]) <;>
        first
        | assumption
        | grind [Call.isFirstEver, Call.isFirst]

/-! ## The global debugger -/

/-- What the global debugger is after the disposal of number 0. -/
def without (g : Option Nat) : Option Nat := if g = some 0 then none else g

/-- The global debugger was `g` before the disposal began, nobody else has set it since. -/
structure Glob (g : Option Nat) (s : St) : Prop where
  inv : Inv s
  start : s.disposed = false → s.global = g
  running : ∀ t, (s.call t).isFirst = true → s.global = g
  mine : ∀ t w m, s.call t = .writeGlobal w m → m = (g == some 0)
  done : ∀ t w, s.call t = .done w true → s.global = without g

set_option maxHeartbeats 4000000 in
theorem glob_dispose {g : Option Nat} (s : St) (t : Nat) (b : Bool) (l : List Nat) (hw : Glob g s) :
    Glob g (disposeStep s t b l) := by
  have hh := hw
  obtain ⟨hi, h1, h2, h3, h4⟩ := hw
  have hI := inv_disposeStep s t b l hi
  have hu := fun u (hc : (s.call t).isFirst = true) hu => hi.uniq u t hu hc
  have hs : s.disposed = false → (s.call t).fresh = true := fun h => (hi.start h).1 t
  revert hI
  unfold disposeStep
  split
  all_goals (try exact fun _ => hh)
  all_goals
    rename_i hc
    have hdt := h2 t
    rw [hc] at hdt hu hs
    repeat' split
    all_goals (try exact fun _ => hh)
    all_goals
      intro hI
      refine ⟨hI, ?_, ?_, ?_, ?_⟩ <;> (try dsimp only [St.goto, upd, afterAsk, afterWait]) <;>
        first
        | assumption
        | grind [Call.isFirst, Call.fresh, without]

set_option maxHeartbeats 4000000 in
theorem glob_step {g : Option Nat} (s : St) (a : Act) (ha : ∀ d, a ≠ .setGlobal d) (hw : Glob g s) : Glob g (step s a) := by
  have hI := inv_step s a hw.inv
  revert hI
  unfold step
  split
  · exact fun _ => hw
  have hh := hw
  obtain ⟨hi, h1, h2, h3, h4⟩ := hw
  cases a
  case dispose t b l => exact fun _ => glob_dispose s t b l hh
  case checker =>
    dsimp only
    unfold checkerStep
    repeat' split
    all_goals (try exact fun _ => hh)
    all_goals
      intro hI
      refine ⟨hI, ?_, ?_, ?_, ?_⟩ <;> (try dsimp only [St.goto, upd]) <;>
        first
        | assumption
        | grind [Call.isFirst]
  case setGlobal d => exact absurd rfl (ha d)
  all_goals
    dsimp only
    repeat' split
    all_goals (try exact fun _ => hh)
    all_goals
      intro hI
      refine ⟨hI, ?_, ?_, ?_, ?_⟩ <;> (try dsimp only [St.goto, upd]) <;>
        first
        | assumption
        | grind [Call.isFirst]

end Dispose
