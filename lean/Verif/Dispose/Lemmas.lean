import Verif.Dispose.Model
/-! Invariants of the model of the end of a debug session. -/

namespace Dispose

@[simp] theorem upd_same {α : Type} (f : Nat → α) (k : Nat) (v : α) : upd f k v k = v := by simp [upd]

theorem upd_apply {α : Type} (f : Nat → α) (k x : Nat) (v : α) : upd f k v x = if x = k then v else f x := rfl

theorem run_append (p q : List Act) : run (p ++ q) = q.foldl step (run p) := by simp [run]

/-- What every action keeps holds after any further actions. -/
theorem keep {I : St → Prop} (h : ∀ s a, I s → I (step s a)) (q : List Act) : ∀ s, I s → I (q.foldl step s) := by
  induction q with
  | nil => exact fun s hs => hs
  | cons a q ih => exact fun s hs => ih _ (h s a hs)

theorem reachable {I : St → Prop} (h0 : I .init) (h : ∀ s a, I s → I (step s a)) (p : List Act) : I (run p) :=
  keep h p _ h0

/-- The call is the first one and past its start. -/
def Call.isFirst : Call → Bool
  | .quiet _ | .locking _ | .snapshot _ | .ask .. | .putExit .. | .setFlag .. | .readGlobal _ | .writeGlobal .. => true
  | .enterWait f | .waiter f | .onEvent f => f
  | .none | .begun _ | .done .. => false

/-- The call has not gone past its start. -/
def Call.fresh : Call → Bool
  | .none | .begun _ => true
  | _ => false

/-- The message the writer has taken and not sent. -/
def Writer.inflight : Writer → List Msg
  | .sending m => [m]
  | _ => []

structure Inv (s : St) : Prop where
  start : s.disposed = false → (∀ t, (s.call t).fresh = true) ∧ s.waitCalled = false ∧ s.waitDone = false ∧
    s.asked 0 = false ∧ Msg.exit ∉ s.puts
  uniq : ∀ t u, (s.call t).isFirst = true → (s.call u).isFirst = true → t = u
  putExit : ∀ t w r, s.call t = .putExit w r → s.asked 0 = false ∧ Msg.exit ∉ s.puts
  setFlag : ∀ t w r, s.call t = .setFlag w r → Msg.exit ∈ s.puts
  exited : Msg.exit ∈ s.puts → s.asked 0 = true ∨ ∃ t w r, s.call t = .setFlag w r
  once : s.puts.count .exit ≤ 1
  asked : s.asked 0 = true → Msg.exit ∈ s.puts
  sync : s.failed = false → s.puts = s.sent ++ s.writer.inflight ++ s.queue
  reg : ∀ h, h ∈ s.reg ↔ s.life h = .running
  writerCall : s.call 0 ≠ .none → s.failed = true
  checkerCall : s.call 1 ≠ .none → s.checker = .disposing ∨ (s.checker = .leaving ∧ s.free 1)
  checkerEnd : s.life 1 = .ended → s.checker = .leaving
  stopped : s.writer = .stopped → s.failed = true ∨ s.asked 0 = true ∨ Msg.exit ∈ s.puts
  ended : s.life 0 = .ended → s.writer = .stopped

theorem inv_init : Inv .init := by
  constructor <;> simp [St.init, Call.fresh, Call.isFirst, Writer.inflight]

set_option maxHeartbeats 4000000 in
theorem inv_disposeStep (s : St) (t : Nat) (b : Bool) (l : List Nat) (h : Inv s) : Inv (disposeStep s t b l) := by
  have hh := h
  obtain ⟨h1, h2, h3, h4, h5, h6, h7, h8, h9, h10, h11, h12, h13, h14⟩ := h
  have hf : ∀ c, s.call t = c → c.isFirst = true → ∀ u, (s.call u).isFirst = true → u = t :=
    fun c hc hi u hu => h2 u t hu (hc ▸ hi)
  have hnf : s.disposed = false → ∀ u, (s.call u).isFirst = false := by
    intro hd u
    have := (h1 hd).1 u
    revert this
    cases s.call u <;> simp [Call.fresh, Call.isFirst]
  unfold St.free at h11
  unfold disposeStep
  split
  all_goals (try exact hh)
  all_goals
    rename_i hc
    have hd := hf _ hc
    have hx : (s.call t).fresh = _ := congrArg Call.fresh hc
    have hy : (s.call t).isFirst = _ := congrArg Call.isFirst hc
    have hz : (s.call t).free = _ := congrArg Call.free hc
    repeat' split
    all_goals (try exact hh)
    all_goals
      constructor <;> (try dsimp only [St.goto, upd, St.free, afterAsk, afterWait]) <;>
        first
        | assumption
        | exact fun _ => .inr ⟨t, _, _, if_pos rfl⟩
        | grind [Call.isFirst, Call.fresh, Call.free, List.count_eq_zero]

set_option maxHeartbeats 4000000 in
theorem inv_step (s : St) (a : Act) (h : Inv s) : Inv (step s a) := by
  unfold step
  split
  · exact h
  have hh := h
  obtain ⟨h1, h2, h3, h4, h5, h6, h7, h8, h9, h10, h11, h12, h13, h14⟩ := h
  have hnf : s.disposed = false → ∀ u, (s.call u).isFirst = false := by
    intro hd u
    have := (h1 hd).1 u
    revert this
    cases s.call u <;> simp [Call.fresh, Call.isFirst]
  unfold St.free at h11
  cases a
  case dispose t b l => exact inv_disposeStep s t b l hh
  case checker =>
    dsimp only
    unfold checkerStep
    repeat' split
    all_goals (try exact hh)
    all_goals
      constructor <;> (try dsimp only [St.goto, upd, St.free]) <;>
        first
        | assumption
        | grind [Call.isFirst, Call.fresh, Call.free, St.free]
  all_goals
    dsimp only
    repeat' split
    all_goals (try exact hh)
    all_goals
      constructor <;> (try dsimp only [St.goto, upd, St.free]) <;>
        first
        | assumption
        | grind [Call.isFirst, Call.fresh, Call.free, St.free, Writer.inflight]

theorem inv_run (p : List Act) : Inv (run p) := reachable inv_init inv_step p

end Dispose
