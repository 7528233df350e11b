import Verif.Evaluate.Model
import Verif.Evaluate.Dedent
import Verif.Evaluate.Mangle

/-!
# C69: code evaluated in a frame sees and changes the frame's variables
# C70: the evaluate request
# C71: changing a variable
-/
namespace Evaluate

/-! ## C69 -/

/-- **Evaluated code sees the frame.** Every name of the program is, at every depth of the code, what
the frame has for it: its local variable, or else the global, or else the builtin. The only name
added is `globals`, where the program has none. -/
theorem c69_sees (f : Frame) (own builtins : Env) (d : Depth) (k : String)
    (hk : k ≠ "globals" ∨ f.locals k ≠ none ∨ f.G k ≠ none) :
    lookup false (namespaceOf f) own builtins d k = (f.locals k).or ((f.G k).or (builtins k)) := by
  have hn : namespaceOf f k = (f.locals k).or (f.G k) := by
    simp only [namespaceOf, Env.update]
    by_cases h : k = "globals" ∧ (f.locals k).or (f.G k) = none
    · obtain ⟨h1, h2⟩ := h
      have h3 := Option.or_eq_none_iff.1 h2
      rcases hk with hk | hk | hk
      · exact absurd h1 hk
      · exact absurd h3.1 hk
      · exact absurd h3.2 hk
    · simp only [h, if_false]
  simp only [lookup, hn]
  cases f.locals k <;> cases f.G k <;> rfl

/-- Code with a top-level `await` sees the debugger's own globals instead of the program's, in
nested scopes; and at the top for names the program does not have. -/
theorem c69_await_witness : ∃ (f : Frame) (own builtins : Env), f.locals "x" = some 5 ∧
    lookup true (namespaceOf f) own builtins .nested "x" = none ∧
    f.locals "sys" = none ∧ f.G "sys" = none ∧
    lookup true (namespaceOf f) own builtins .top "sys" = some 9 := by
  refine ⟨⟨false, (· == "x"), fun _ => none, fun _ => some 5, fun _ => none⟩,
    fun k => if k = "sys" then some 9 else none, fun _ => none, ?_, ?_, ?_, ?_, ?_⟩ <;>
    decide +kernel

/-- What code run by `evaluate` leaves in its namespace and in the frame itself. -/
def ran (f : Frame) (c : Code) : Mem × Outcome := c.effect ⟨namespaceOf f, f.G, f.L⟩

/-- The evaluations which write back: statements, and expressions which did not raise. -/
def Writes (f : Frame) (c : Code) (isExec : Bool) : Prop :=
  if isExec = true then c.asEval = false ∧ c.asExec = true
  else c.asEval = true ∧ ((∃ v, (ran f c).2 = .value v) ∨ (c.fallback (ran f c).1).isSome)

theorem evaluate_writes (py : Py) (f : Frame) (c : Code) (isExec : Bool) (h : Writes f c isExec) :
    (evaluate py f c isExec).frame =
      writeBack py (namespaceOf f) (ran f c).1.ns (f.withMem (ran f c).1) := by
  unfold Writes at h
  unfold ran at *
  unfold evaluate
  cases isExec
  · simp only [Bool.false_eq_true, if_false] at h ⊢
    obtain ⟨h1, h2⟩ := h
    simp only [h1, if_true]
    rcases h2 with ⟨v, h2⟩ | h2
    · simp only [h2]
    · cases ho : (c.effect ⟨namespaceOf f, f.G, f.L⟩).2 with
      | value v => rfl
      | raised =>
        cases hf : c.fallback (c.effect ⟨namespaceOf f, f.G, f.L⟩).1 with
        | none => rw [hf] at h2; exact nomatch h2
        | some v => rfl
  · simp only [if_true] at h ⊢
    simp only [h.1, h.2, Bool.false_eq_true, if_false, if_true]
    cases (c.effect ⟨namespaceOf f, f.G, f.L⟩).2 <;> rfl

/-- **A local variable has the value the code left it.** After an evaluation which writes back, in a
function's frame, every variable of the function is bound to the object the code left under that
name — or, if the code did not rebind it but something it called did, to what that left. -/
theorem c69_local_written (py : Py) (f : Frame) (c : Code) (isExec : Bool) (h : Writes f c isExec)
    (hm : f.isModule = false) (k : String) (hs : f.slot k = true) (v : Val)
    (hv : (ran f c).1.ns k = some v) :
    (evaluate py f c isExec).frame.locals k =
      if namespaceOf f k = some v then (ran f c).1.L k else some v := by
  rw [evaluate_writes py f c isExec h]
  simp only [writeBack, Frame.withMem, hm, Frame.locals, Bool.false_eq_true, if_false, hs, if_true,
    writeSlot, changed, removed, hv, Option.isSome_some, Bool.true_and]
  by_cases he : namespaceOf f k = some v
  · simp [he]
  · have : some v ≠ namespaceOf f k := fun h => he h.symm
    simp [he, this]

/-- In particular, if nothing the code called rebinds the variable through a closure, it has exactly
the value the code left. -/
theorem c69_local_exact (py : Py) (f : Frame) (c : Code) (isExec : Bool) (h : Writes f c isExec)
    (hm : f.isModule = false) (k : String) (hs : f.slot k = true) (v : Val)
    (hv : (ran f c).1.ns k = some v) (hL : (ran f c).1.L k = f.L k) (hb : f.L k ≠ none)
    (hg : k ≠ "globals") :
    (evaluate py f c isExec).frame.locals k = some v := by
  rw [c69_local_written py f c isExec h hm k hs v hv]
  split
  · rename_i he
    rw [hL]
    have hl : f.locals k = f.L k := by simp [Frame.locals, hm, hs]
    have := c69_sees f (fun _ => none) (fun _ => none) .top k (Or.inl hg)
    simp only [lookup, Bool.false_eq_true, if_false, he, hl] at this
    cases hx : f.L k with
    | none => exact absurd hx hb
    | some w => rw [hx] at this; simpa using this.symm
  · rfl

/-- **A name which is no variable of the function is kept with the frame**, for the evaluations that
follow: the next one sees the value this one left. -/
theorem c69_new_name_kept (py : Py) (f : Frame) (c : Code) (isExec : Bool) (h : Writes f c isExec)
    (hm : f.isModule = false) (k : String) (hs : f.slot k = false) (v : Val)
    (hv : (ran f c).1.ns k = some v) (hn : namespaceOf f k ≠ some v) :
    namespaceOf (evaluate py f c isExec).frame k = some v := by
  rw [evaluate_writes py f c isExec h]
  have : some v ≠ namespaceOf f k := fun h => hn h.symm
  have hl : (writeBack py (namespaceOf f) (ran f c).1.ns (f.withMem (ran f c).1)).locals k = some v := by
    simp [writeBack, Frame.withMem, hm, Frame.locals, hs, writeExtra, changed, hv, this]
  generalize writeBack py (namespaceOf f) (ran f c).1.ns (f.withMem (ran f c).1) = g at hl
  simp only [namespaceOf, Env.update, hl]
  simp

/-- **At module level the globals are what the code left**: a name the code bound to another object
is bound to that; a name it deleted is gone; every other name is as the functions called left it. -/
theorem c69_module_written (py : Py) (f : Frame) (c : Code) (isExec : Bool) (h : Writes f c isExec)
    (hm : f.isModule = true) (k : String) :
    let G' := (evaluate py f c isExec).frame.G
    (∀ v, (ran f c).1.ns k = some v → namespaceOf f k ≠ some v → G' k = some v) ∧
      ((ran f c).1.ns k = none → namespaceOf f k ≠ none → G' k = none) ∧
      ((ran f c).1.ns k = namespaceOf f k → G' k = (ran f c).1.G k) := by
  simp only
  rw [evaluate_writes py f c isExec h]
  simp only [writeBack, Frame.withMem, hm, if_true, writeModule, changed, removed]
  refine ⟨?_, ?_, ?_⟩
  · intro v hv hn
    have : some v ≠ namespaceOf f k := fun h => hn h.symm
    simp [hv, this]
  · intro hv hn
    have hs : (namespaceOf f k).isSome = true := Option.isSome_iff_ne_none.2 hn
    simp [hv, hs]
  · intro hv
    simp only [hv]
    cases namespaceOf f k <;> simp

/-- **An evaluation in a function does not write the program's globals itself**: they are what the
code called left. -/
theorem c69_globals_kept (py : Py) (f : Frame) (c : Code) (isExec : Bool) (hm : f.isModule = false) :
    (evaluate py f c isExec).frame.G = (ran f c).1.G ∨ (evaluate py f c isExec).frame.G = f.G := by
  unfold evaluate ran
  cases isExec
  · simp only [Bool.false_eq_true, if_false]
    split
    · cases (c.effect ⟨namespaceOf f, f.G, f.L⟩).2 with
      | value v => simp [writeBack, Frame.withMem, hm]
      | raised =>
        cases c.fallback (c.effect ⟨namespaceOf f, f.G, f.L⟩).1 <;>
          simp [writeBack, Frame.withMem, hm]
    · split <;> simp
  · simp only [if_true]
    split
    · cases (c.effect ⟨namespaceOf f, f.G, f.L⟩).2 <;> simp [Frame.withMem]
    · split
      · cases (c.effect ⟨namespaceOf f, f.G, f.L⟩).2 <;> simp [writeBack, Frame.withMem, hm]
      · simp

/-- **Code that only reads leaves the frame as it is**, in every kind of evaluation. -/
theorem c69_reading_changes_nothing (py : Py) (f : Frame) (c : Code) (isExec : Bool)
    (h : (ran f c).1 = ⟨namespaceOf f, f.G, f.L⟩) : (evaluate py f c isExec).frame = f := by
  have hw : writeBack py (namespaceOf f) (namespaceOf f) f = f := by
    obtain ⟨m, s, G, L, X⟩ := f
    unfold writeBack
    have hc : ∀ (e : Env) k, changed e e k = false := by intro e k; simp [changed]
    have hr : ∀ (e : Env) k, removed e e k = false := by
      intro e k
      simp only [removed]
      cases e k <;> rfl
    have h1 : ∀ e x : Env, writeModule e e x = x := by
      intro e x; funext k; simp [writeModule, hc, hr]
    have h2 : ∀ e x : Env, writeSlot py e e x = x := by
      intro e x; funext k; simp [writeSlot, hc, hr]
    have h3 : ∀ e x : Env, writeExtra py e e x = x := by
      intro e x; funext k; simp [writeExtra, hc, hr]
    split
    · simp [h1]
    · simp [h2, h3]
  have hm : f.withMem ⟨namespaceOf f, f.G, f.L⟩ = f := rfl
  unfold evaluate
  unfold ran at h
  simp only
  cases isExec
  · simp only [Bool.false_eq_true, if_false]
    split
    · cases (c.effect ⟨namespaceOf f, f.G, f.L⟩).2 with
      | value v => simp only [h, hm, hw]
      | raised =>
        simp only
        split <;> simp only [h, hm, hw]
    · split <;> rfl
  · simp only [if_true]
    split
    · cases (c.effect ⟨namespaceOf f, f.G, f.L⟩).2 <;> simp only [h, hm]
    · split
      · cases (c.effect ⟨namespaceOf f, f.G, f.L⟩).2 <;> simp only [h, hm, hw]
      · rfl

/-- A function with the local `x = 5` in a program with the global `g = 6`. -/
def fn : Frame :=
  ⟨false, (· == "x"), fun k => if k = "g" then some 6 else none,
    fun k => if k = "x" then some 5 else none, fun _ => none⟩

/-- `name = 7`, as statements; and `(name := 7)`, an expression. -/
def assign (k : String) (asEval : Bool) : Code :=
  ⟨asEval, true, fun m => ({ m with ns := m.ns.set k (some 7) }, .value 7), fun _ => none⟩

/-- `del name`. -/
def delete (k : String) : Code :=
  ⟨false, true, fun m => ({ m with ns := m.ns.set k none }, .value noneVal), fun _ => none⟩

/-- Assigning the local, by a statement and by an expression. -/
theorem c69_example : (evaluate .upTo312 fn (assign "x" false) true).frame.L "x" = some 7 ∧
    (evaluate .from3131 fn (assign "x" true) false).frame.L "x" = some 7 ∧
    Writes fn (assign "x" false) true ∧ Writes fn (assign "x" true) false := by
  refine ⟨by decide +kernel, by decide +kernel, ?_, ?_⟩
  · simp [Writes, assign]
  · simp [Writes, assign, ran]

/-- An assignment expression run as a statement, as the repl does without a frame and the XML
protocol always, is lost. -/
theorem c69_walrus_lost_witness :
    (evaluate .upTo312 fn (assign "x" true) true).frame.L "x" = some 5 := by decide +kernel

/-- Assigning a global in a function leaves the global as it was, even after a `global` statement;
later evaluations see the new value, the program the old one. -/
theorem c69_global_not_assigned_witness :
    (evaluate .upTo312 fn (assign "g" false) true).frame.G "g" = some 6 ∧
    namespaceOf (evaluate .upTo312 fn (assign "g" false) true).frame "g" = some 7 := by
  decide +kernel

/-- `del x` of a local variable: up to Python 3.12 nothing happens, from 3.13 the variable is bound
to `None`. -/
theorem c69_delete_witness :
    (evaluate .upTo312 fn (delete "x") true).frame.L "x" = some 5 ∧
    (evaluate .from3131 fn (delete "x") true).frame.L "x" = some noneVal := by decide +kernel

/-- A function of the program which assigns the global `g = 8`, called, and `g` read after that: the
value read is the old one. -/
def callThenRead : Code :=
  ⟨true, true, fun m => ({ m with G := m.G.set "g" (some 8) }, .value ((m.ns "g").getD 0)),
    fun _ => none⟩

theorem c69_stale_global_witness :
    (evaluate .upTo312 fn callThenRead false).answer = .value 6 ∧
    (evaluate .upTo312 fn callThenRead false).frame.G "g" = some 8 := by decide +kernel

/-! ## C70 -/

/-- **The code of a request is run at most once**, whatever it is and in every context; exactly once
if it compiles and either is an expression or the context is the repl. -/
theorem c70_once (py : Py) (f : Frame) (c : Code) (ctx : Context) :
    (request py f c ctx).2.2 ≤ 1 ∧
      (c.asEval = true → (request py f c ctx).2.2 = 1) ∧
      (c.asEval = false → c.asExec = true → ctx = .repl → c.fallback ⟨namespaceOf f, f.G, f.L⟩ = none →
        (request py f c ctx).2.2 = 1) := by
  unfold request evaluate
  cases he : c.asEval <;> cases hx : c.asExec <;> cases ctx <;>
    simp only [Bool.false_eq_true, if_false, if_true] <;>
    cases hf : c.fallback ⟨namespaceOf f, f.G, f.L⟩ <;> simp <;>
    cases ho : (c.effect ⟨namespaceOf f, f.G, f.L⟩).2 <;> simp <;>
    cases hg : c.fallback (c.effect ⟨namespaceOf f, f.G, f.L⟩).1 <;> simp

/-- **What is answered**, for an expression: its value if it has one — nothing is shown in the repl
for `None` — and for one which raises, a failure; in other contexts than hover, watch and repl the
exception is shown as if it were the value. -/
theorem c70_expression (py : Py) (f : Frame) (c : Code) (ctx : Context) (he : c.asEval = true) :
    (request py f c ctx).2.1 =
      match (ran f c).2, c.fallback (ran f c).1 with
      | .value v, _ => if ctx = .repl ∧ v = noneVal then .empty else .value v
      | .raised, some v => if ctx = .repl ∧ v = noneVal then .empty else .value v
      | .raised, none => if ctx = .other then .exceptionAsValue else .failure := by
  unfold request evaluate ran
  simp only [he, Bool.false_eq_true, if_false, if_true]
  cases (c.effect ⟨namespaceOf f, f.G, f.L⟩).2 with
  | value v => simp
  | raised =>
    cases c.fallback (c.effect ⟨namespaceOf f, f.G, f.L⟩).1 with
    | some v => simp
    | none => cases ctx <;> simp

/-- **Statements are run in the repl only.** In every other context code which is not an expression
leaves the frame as it was. -/
theorem c70_statements_only_in_repl (py : Py) (f : Frame) (c : Code) (ctx : Context)
    (he : c.asEval = false) (hc : ctx ≠ .repl) :
    (request py f c ctx).1 = f ∧ (request py f c ctx).2.2 = 0 := by
  unfold request evaluate
  simp only [he, Bool.false_eq_true, if_false]
  cases c.fallback ⟨namespaceOf f, f.G, f.L⟩ <;> cases ctx <;> simp at hc ⊢

/-- In the repl, statements are answered with success if and only if they did not raise. -/
theorem c70_statements (py : Py) (f : Frame) (c : Code) (he : c.asEval = false)
    (hx : c.asExec = true) (hf : c.fallback ⟨namespaceOf f, f.G, f.L⟩ = none) :
    (request py f c .repl).2.1 = (match (ran f c).2 with | .value _ => .empty | .raised => .failure) ∧
    (request py f c .repl).1 =
      writeBack py (namespaceOf f) (ran f c).1.ns (f.withMem (ran f c).1) := by
  unfold request evaluate ran
  simp only [he, hx, hf, Bool.false_eq_true, if_false, if_true]
  cases (c.effect ⟨namespaceOf f, f.G, f.L⟩).2 <;> simp

/-- **Code run as statements** (the exec command of the line protocol) is run exactly once if it compiles, not at all otherwise; an
expression's value is printed unless it is `None`; an exception is raised to the caller. -/
theorem c70_exec (py : Py) (f : Frame) (c : Code) :
    let a := evaluate py f c true
    a.runs = (if c.asEval = true ∨ c.asExec = true then 1 else 0) ∧
    (∀ v, a.printed = some v ↔ c.asEval = true ∧ (ran f c).2 = .value v ∧ v ≠ noneVal) ∧
    a.answer = (if (c.asEval = true ∨ c.asExec = true) ∧ (ran f c).2 ≠ .raised then .nothing else .raises) ∧
    (c.asEval = false → c.asExec = false → a.frame = f) := by
  unfold evaluate ran
  cases he : c.asEval <;> cases hx : c.asExec <;> simp only [Bool.false_eq_true, if_false, if_true] <;>
    cases ho : (c.effect ⟨namespaceOf f, f.G, f.L⟩).2 <;> simp
  all_goals
    rename_i w
    intro v
    constructor
    · rintro ⟨h, rfl⟩; exact ⟨rfl, h⟩
    · rintro ⟨rfl, h⟩; exact ⟨h, rfl⟩

/-- An expression in a watch, a statement in the repl. -/
theorem c70_example : (request .upTo312 fn callThenRead .watch).2 = (.value 6, 1) ∧
    (request .upTo312 fn (assign "x" false) .repl).2 = (.empty, 1) ∧
    (request .upTo312 fn (assign "x" false) .watch).2 = (.failure, 0) := by decide +kernel

/-- If the frame is gone by the time the request is handled, the answer is success with `None`. -/
theorem c70_no_frame_witness : requestNoFrame .watch = .value noneVal := rfl

/-! ## C71 -/

theorem store_read (f : Frame) (k : String) (v : Val) : (f.store k v).locals k = some v := by
  unfold Frame.store
  split
  · rename_i h; simp [Frame.locals, h, Env.set]
  · rename_i h
    split
    · rename_i hs; simp [Frame.locals, h, hs, Env.set]
    · rename_i hs; simp [Frame.locals, h, hs, Env.set]

theorem store_other (f : Frame) (k j : String) (v : Val) (h : j ≠ k) :
    (f.store k v).locals j = f.locals j ∧ (f.isModule = false → (f.store k v).G = f.G) := by
  unfold Frame.store
  split
  · rename_i hm; simp [Frame.locals, hm, Env.set, h]
  · rename_i hm
    split
    · simp [Frame.locals, hm, Env.set, h]
    · simp [Frame.locals, hm, Env.set, h]

/-- **Setting a variable sets it to the value of the expression.** Up to Python 3.12, for a name in
the locals scope which does not begin with `Globals`, and an expression which has a value: the
expression is evaluated once, with the frame as it is; the variable has that value, the answer is
success with that value, and every other variable is as the expression left it. -/
theorem c71_set (f f' : Frame) (name : String) (e : Expr) (v : Val)
    (hn : globalsPrefix name = false) (he : e f = (f', some v)) :
    let r := setVariable true f name e false
    r.1.locals name = some v ∧ r.2.1 = some v ∧ r.2.2 = 1 ∧
      (∀ j, j ≠ name → r.1.locals j = f'.locals j) ∧ (f'.isModule = false → r.1.G = f'.G) := by
  have hc : change true f name e false = ⟨f'.store name v, some v, 1⟩ := by
    unfold change
    simp [hn, he]
  simp only [setVariable, hc, Bool.false_eq_true, if_false]
  refine ⟨store_read f' name v, store_read f' name v, trivial, fun j hj => (store_other f' name j v hj).1, ?_⟩
  intro hm
  unfold Frame.store
  simp only [hm, Bool.false_eq_true, if_false]
  split <;> rfl

/-- From Python 3.13 the same, if evaluating the expression has no effect (as it is evaluated
twice). -/
theorem c71_set_313_partial (f : Frame) (name : String) (e : Expr) (v : Val)
    (hn : globalsPrefix name = false) (he : e f = (f, some v)) :
    let r := setVariable false f name e false
    r.1.locals name = some v ∧ r.2.1 = some v ∧
      (∀ j, j ≠ name → r.1.locals j = f.locals j) ∧ (f.isModule = false → r.1.G = f.G) := by
  have hc : change false f name e false = ⟨f.store name v, some v, 2⟩ := by
    unfold change
    simp [hn, he]
  simp only [setVariable, hc, Bool.false_eq_true, if_false]
  refine ⟨store_read f name v, store_read f name v, fun j hj => (store_other f name j v hj).1, ?_⟩
  intro hm
  unfold Frame.store
  simp only [hm, Bool.false_eq_true, if_false]
  split <;> rfl

/-- **In the globals scope** an existing global is set, at every version, with one evaluation; a
name which is not there is not created, and the expression not run. -/
theorem c71_set_global (sl : Bool) (f f' : Frame) (name : String) (e : Expr) (v : Val)
    (hn : globalsPrefix name = false) (he : e f = (f', some v)) :
    (f.G name ≠ none →
      let r := setVariable sl f name e true
      r.1.G = f'.G.set name (some v) ∧ r.1.L = f'.L ∧ r.1.X = f'.X ∧ r.2.1 = some v ∧ r.2.2 = 1) ∧
    (f.G name = none → setVariable sl f name e true = (f, none, 0)) := by
  refine ⟨fun hg => ?_, fun hg => ?_⟩
  · have hs : (f.G name).isSome = true := by
      cases h : f.G name with
      | none => exact absurd h hg
      | some _ => rfl
    have hc : change sl f name e true = ⟨{ f' with G := f'.G.set name (some v) }, some v, 1⟩ := by
      unfold change
      simp [hn, he, hs]
    simp [setVariable, hc, Env.set]
  · have hc : change sl f name e true = ⟨f, none, 0⟩ := by
      unfold change
      simp [hn, hg]
    simp [setVariable, hc, hg]

/-- **An expression that raises sets nothing**: the frame is what the expression left. -/
theorem c71_raising_sets_nothing (sl : Bool) (f f' : Frame) (name : String) (e : Expr)
    (he : e f = (f', none)) (g : Bool) : (setVariable sl f name e g).1 = f' ∨
      (setVariable sl f name e g).1 = f := by
  unfold setVariable change
  cases sl <;> cases hg : globalsPrefix name <;> cases g <;> simp [he]
  all_goals (split <;> simp)

/-- How often the expression of a new value is run: once at most where variables can be saved; twice at most otherwise, and then once if it raises. -/
theorem c71_runs (sl : Bool) (f : Frame) (name : String) (e : Expr) (g : Bool) :
    (setVariable sl f name e g).2.2 ≤ 2 ∧ (sl = true ∨ g = true ∨ (e f).2 = none → (setVariable sl f name e g).2.2 ≤ 1) := by
  unfold setVariable change
  cases sl <;> cases hg : globalsPrefix name <;> cases g <;> simp only [Bool.false_or, Bool.or_false, Bool.true_or, Bool.or_true, Bool.false_eq_true, if_true, if_false, true_or, or_true, or_self, false_or, true_implies]
  all_goals
    repeat' split
    all_goals simp_all

/-- The name `Globals.x` of the line protocol sets the global `x`, if there is one, to the value of the expression, and nothing else. -/
theorem c71_globals_prefix (sl : Bool) (f f' : Frame) (k : String) (e : Expr) (v : Val) (g : Bool) (he : e f = (f', some v)) :
    change sl f ("Globals." ++ k) e g =
      if f.G k = none then ⟨f, none, 0⟩ else ⟨{ f' with G := f'.G.set k (some v) }, some v, 1⟩ := by
  have h1 : globalsPrefix ("Globals." ++ k) = true := by
    simp [globalsPrefix, String.toList_append, List.isPrefixOf]
  have h2 : dropEight ("Globals." ++ k) = k := by
    simp [dropEight, String.toList_append]
  unfold change
  rw [h1, h2]
  cases hk : f.G k <;> simp [he, hk]

/-- The iterator in `x = next(it)`: each evaluation answers the next number, counted in `G "n"`. -/
def nextIt : Expr := fun f =>
  ({ f with G := f.G.set "n" (some ((f.G "n").getD 0 + 1)) }, some ((f.G "n").getD 0 + 100))

/-- From Python 3.13 setting a variable runs the expression twice: `x = next(it)` takes two values,
and `x` is the second. -/
theorem c71_twice_witness : (setVariable false fn "x" nextIt false).2 = (some 101, 2) ∧
    (setVariable true fn "x" nextIt false).2 = (some 100, 1) := by decide +kernel

/-- If the expression raises, the answer is success, with the value the variable had. -/
theorem c71_raised_success_witness :
    (setVariable true fn "x" (fun f => (f, none)) false).2.1 = some 5 := by decide +kernel

/-- A local whose name begins with `Globals` can't be set: the answer is success, with the value it
had. -/
theorem c71_globals_name_witness :
    let f : Frame := { fn with slot := (· == "GlobalsCount"), L := fun _ => some 5 }
    (setVariable true f "GlobalsCount" (fun f => (f, some 7)) false).2 = (some 5, 0) := by
  decide +kernel

/-- `setExpression` of a global while in a function: the answer is the new value, the program's
global keeps the old one. -/
theorem c71_set_expression_global_witness :
    let r := setExpression .upTo312 fn "g" (fun m => (m, .value 7))
    r.2 = some 7 ∧ r.1.G "g" = some 6 := by decide +kernel

/-- **`setExpression` of a local variable sets it**: for a value that is computed without side
effects on the variable, the variable and the answer have the value. -/
theorem c71_set_expression (py : Py) (f : Frame) (k : String) (value : Mem → Mem × Outcome)
    (v : Val) (m : Mem) (hm : f.isModule = false) (hs : f.slot k = true) (hb : f.L k ≠ none)
    (hg : k ≠ "globals") (he : value ⟨namespaceOf f, f.G, f.L⟩ = (m, .value v))
    (hL : m.L k = f.L k) :
    (setExpression py f k value).1.locals k = some v ∧ (setExpression py f k value).2 = some v := by
  let assign : Mem → Mem × Outcome := fun m =>
    match value m with
    | (m', .value v) => ({ m' with ns := m'.ns.set k (some v) }, .value noneVal)
    | (m', .raised) => (m', .raised)
  let c : Code := ⟨false, true, assign, fun _ => none⟩
  have hr : ran f c = ({ m with ns := m.ns.set k (some v) }, .value noneVal) := by
    simp only [ran, c, assign, he]
  have hloc : (evaluate py f c true).frame.locals k = some v := by
    refine c69_local_exact py f c true (by simp [Writes, c]) hm k hs v ?_ ?_ hb hg
    · rw [hr]; simp [Env.set]
    · rw [hr]; exact hL
  have hans : (evaluate py f c true).answer = .nothing := by
    have : (c.effect ⟨namespaceOf f, f.G, f.L⟩).2 = .value noneVal := by
      have := congrArg Prod.snd hr
      exact this
    unfold evaluate
    simp only [c] at this ⊢
    simp [this]
  have hse : setExpression py f k value =
      ((evaluate py f c true).frame, namespaceOf (evaluate py f c true).frame k) := by
    have : setExpression py f k value = (match (evaluate py f c true).answer with
      | .raises => ((evaluate py f c true).frame, none)
      | _ => ((evaluate py f c true).frame, namespaceOf (evaluate py f c true).frame k)) := rfl
    rw [this, hans]
  rw [hse]
  refine ⟨hloc, ?_⟩
  have := c69_sees (evaluate py f c true).frame (fun _ => none) (fun _ => none) .top k (Or.inl hg)
  simp only [lookup, hloc, Bool.false_eq_true, if_false] at this
  simpa using this

end Evaluate
