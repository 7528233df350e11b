import Verif.Bytecode.Spec

namespace Bytecode
variable {U E D : Type}

/-! ### Runs -/

theorem run_add (w : World U E D) (prog : List Item) (a b : Nat) (f : Frame U E D) :
    run w prog (a + b) f =
      ((run w prog b (run w prog a f).1).1,
       (run w prog a f).2 ++ (run w prog b (run w prog a f).1).2) := by
  induction a generalizing f with
  | zero => simp [run]
  | succ a ih =>
    rw [Nat.succ_add]
    simp only [run]
    cases h : step w prog f with
    | none =>
      have : ∀ n, run w prog n f = (f, []) := by
        intro n; cases n with
        | zero => rfl
        | succ n => simp [run, h]
      simp [this]
    | some x =>
      obtain ⟨f', evs⟩ := x
      simp [ih f']

theorem run_one (w : World U E D) (prog : List Item) (f f' : Frame U E D) (evs : List (Ev U E))
    (h : step w prog f = some (f', evs)) : run w prog 1 f = (f', evs) := by
  simp [run, h]

theorem run_halted (w : World U E D) (prog : List Item) (f : Frame U E D)
    (h : step w prog f = none) (n : Nat) : run w prog n f = (f, []) := by
  cases n with
  | zero => rfl
  | succ n => simp [run, h]

/-! ### Seeing -/

@[simp] theorem seen_append (a b : List (Ev U E)) : seen (a ++ b) = seen a ++ seen b := by
  simp [seen]

@[simp] theorem seen_nil : seen ([] : List (Ev U E)) = [] := rfl

theorem seen_cons (x : Ev U E) (l : List (Ev U E)) :
    seen (x :: l) = (match x.seen with | some y => [y] | none => []) ++ seen l := by
  simp only [seen, List.filterMap_cons]
  cases x.seen <;> simp

/-! ### Labels -/

theorem after_block (n k : Nat) (L : Int) (rest : List Item) :
    after (.orig n) (instructionsToAdd k L ++ rest) = after (.orig n) rest := by
  simp [instructionsToAdd, after]

theorem after_added (k : Nat) (L : Int) (pre rest : List Item)
    (h : ∀ j, Item.label (.added j) ∈ pre → j ≠ k) :
    after (.added k) (pre ++ (instructionsToAdd k L ++ rest)) = rest := by
  induction pre with
  | nil => simp [instructionsToAdd, after]
  | cons it pre ih =>
    have ih := ih (fun j hj => h j (by simp [hj]))
    cases it with
    | instr i => simpa [after] using ih
    | label l =>
      by_cases hl : l = .added k
      · exact absurd rfl (h k (by simp [hl]))
      · simp only [List.cons_append, after, if_neg hl]; exact ih

/-! ### The inserted instructions -/

/-- The events of the inserted instructions. -/
def blockTrace (L : Int) (b : Bool) (st : List (Val U)) (e : E) : List (Ev U E) :=
  [ .ran { name := "LOAD_CONST", arg := .const .needsStop, lineno := some L } st e,
    .ran { name := "LOAD_CONST", arg := .const (.line L), lineno := some L } (.needsStop :: st) e,
    .ran { name := "CALL_FUNCTION", arg := .num 1, lineno := some L } (.int L :: .needsStop :: st) e,
    .check L b ]

def blockTraceStop (k : Nat) (L : Int) (st : List (Val U)) (e : E) : List (Ev U E) :=
  blockTrace L true st e ++
  [ .ran { name := "POP_JUMP_IF_FALSE", arg := .lab (.added k), lineno := some L } (.bool true :: st) e,
    .ran { name := "LOAD_CONST", arg := .const .stopAt, lineno := some (spuriousLine L) } st e,
    .ran { name := "LOAD_CONST", arg := .const (.line L), lineno := some (spuriousLine L) } (.stopAt :: st) e,
    .ran { name := "CALL_FUNCTION", arg := .num 1, lineno := some (spuriousLine L) }
      (.int L :: .stopAt :: st) e,
    .stopped L,
    .ran { name := "POP_TOP", lineno := some (spuriousLine L) } (.none :: st) e,
    .ran { name := "NOP", lineno := some L } st e ]

def blockTraceGo (k : Nat) (L : Int) (st : List (Val U)) (e : E) : List (Ev U E) :=
  blockTrace L false st e ++
  [ .ran { name := "POP_JUMP_IF_FALSE", arg := .lab (.added k), lineno := some L } (.bool false :: st) e ]

theorem block_run (w : World U E D) (prog pre rest : List Item) (k : Nat) (L : Int)
    (hp : prog = pre ++ (instructionsToAdd k L ++ rest))
    (hk : ∀ j, Item.label (.added j) ∈ pre → j ≠ k) (st : List (Val U)) (e : E) (d : D) :
    ∃ n d' tr, 0 < n ∧
      run w prog n { code := some (instructionsToAdd k L ++ rest), stack := st, env := e, dbg := d } =
        ({ code := some rest, stack := st, env := e, dbg := d' }, tr) ∧
      (tr = blockTraceStop k L st e ∨ tr = blockTraceGo k L st e) := by
  have ha := after_added k L pre rest hk
  rw [← hp] at ha
  cases hb : (w.needs d L).2 with
  | true =>
    refine ⟨10, w.stop (w.needs d L).1 L, _, by omega, ?_, Or.inl rfl⟩
    simp [run, step, exec, land, instructionsToAdd, hb, blockTraceStop, blockTrace, World.value]
  | false =>
    refine ⟨4, (w.needs d L).1, _, by omega, ?_, Or.inr rfl⟩
    simp [run, step, exec, land, instructionsToAdd, hb, blockTraceGo, blockTrace, World.value, ha]

theorem spuriousLine_ne (L : Int) : spuriousLine L ≠ L := by
  unfold spuriousLine; split <;> omega

end Bytecode
