import Verif.StepCalls.Main
/-!
# C105: the calls offered to step into are those of the line

Before Python 3.11 the debugger interprets the bytecode, without values, to list the calls which the user may choose
to step into.  The theorems are about the bytecode of any function body made of the statements and expressions of the
specification, of any size and depth.
-/
namespace StepCalls
open Spec

/-- The expressions of a function. -/
def Spec.bodyExprs (b : List Stmt) : List Expr := b.flatMap (·.exprs)

theorem run_stmt (t : Stmt) (s : St) (h : okAll t.exprs = true) :
    (run (compileStmt t) s).calls = s.calls ++ offeredAll t.exprs := by
  cases t with
  | setItem p o i e =>
    simp only [Stmt.exprs, okAll, Bool.and_true, Bool.and_eq_true] at h
    simp only [compileStmt, run_append, run_expr e _ h.1, run_expr o _ h.2.1, run_expr i _ h.2.2, After, Stmt.exprs,
      offeredAll, List.append_nil, List.append_assoc]
    rw [run_one _ _ _ _ (by simp)]
    rfl
  | setAttr p o e =>
    simp only [Stmt.exprs, okAll, Bool.and_true, Bool.and_eq_true] at h
    simp only [compileStmt, run_append, run_expr e _ h.1, run_expr o _ h.2, run_pop, After, Stmt.exprs, offeredAll,
      List.append_nil, List.append_assoc]
  | augment p n e =>
    simp only [Stmt.exprs, okAll, Bool.and_true] at h
    simp only [compileStmt, two, run_append, run_expr e _ h, run_pop, After, Stmt.exprs, offeredAll, List.append_nil]
    rw [run_one _ _ _ _ (by simp)]
    rfl
  | loop p e =>
    simp only [Stmt.exprs, okAll, Bool.and_true] at h
    simp only [compileStmt, run_append, run_expr e _ h]
    simp [run, step, ins, Instr.op, After, Stmt.exprs, offeredAll]
  | jump p => simp [compileStmt, run, step, ins, Instr.op, Stmt.exprs, offeredAll]
  | label p => simp [compileStmt, run, step, ins, Instr.op, Stmt.exprs, offeredAll]
  | _ p e =>
    simp only [Stmt.exprs, okAll, Bool.and_true] at h
    simp only [compileStmt, two, run_append, run_expr e _ h, run_pop, run_cut, After, Stmt.exprs, offeredAll,
      List.append_nil]

theorem okAll_append (a b : List Expr) : okAll (a ++ b) = (okAll a && okAll b) := by
  induction a with
  | nil => simp [okAll]
  | cons e r ih => simp [okAll, ih, Bool.and_assoc]

theorem offeredAll_append (a b : List Expr) : offeredAll (a ++ b) = offeredAll a ++ offeredAll b := by
  induction a with
  | nil => simp [offeredAll]
  | cons e r ih => simp [offeredAll, ih]

theorem run_body (b : List Stmt) (s : St) (h : okAll (bodyExprs b) = true) :
    (run (compileBody b) s).calls = s.calls ++ offeredAll (bodyExprs b) := by
  induction b generalizing s with
  | nil => simp [compileBody, run, bodyExprs, offeredAll]
  | cons t r ih =>
    have e1 : bodyExprs (t :: r) = t.exprs ++ bodyExprs r := rfl
    have e2 : compileBody (t :: r) = compileStmt t ++ compileBody r := rfl
    rw [e1, okAll_append, Bool.and_eq_true] at h
    rw [e2, run_append, ih _ h.2, run_stmt t s h.1, e1, offeredAll_append]
    simp

/-- **C105** (exactly which): the calls offered are those of the expressions, in the order of evaluation, for which the
called function and all arguments are known; an evaluation that branches makes what is around it unknown. -/
theorem c105_targets (b : List Stmt) (h : okAll (bodyExprs b) = true) :
    targets (compileBody b) = offeredAll (bodyExprs b) := by
  rw [targets, run_body b {} h]
  rfl

theorem flatAll_append (a b : List Target) : flatAll (a ++ b) = flatAll a ++ flatAll b := by
  induction a with
  | nil => simp [flatAll]
  | cons e r ih => simp [flatAll, ih]

theorem onlyIf_sub (b : Bool) (x : List Target) : (flatAll (onlyIf b x)).Sublist (flatAll x) := by
  cases b <;> simp [onlyIf, flatAll]

theorem around_sub (k : Kind) (p : At) (x y : List Target) (h : (flatAll x).Sublist (flatAll y)) :
    (flatAll (around k p x)).Sublist (flatAll (around k p y)) := by
  unfold around
  cases x with
  | nil => simp [flatAll]
  | cons t r =>
    cases y with
    | nil =>
      cases t with
      | mk n l o cs => simp [flatAll, flat] at h
    | cons u w => simpa [flatAll, flat] using h

mutual
theorem offered_sub : ∀ e : Expr, (flatAll (offered e)).Sublist (flatAll (calls e))
  | .name _ _ => by simp [offered, calls]
  | .const _ _ => by simp [offered, calls]
  | .attr _ o _ => by simpa [offered, calls] using offered_sub o
  | .call p f args kws => by
    simp only [offered, calls, flatAll_append]
    exact (((offered_sub f).append (offeredAll_sub args)).append (offeredAll_sub kws)).append (onlyIf_sub _ _)
  | .callStar p f args star => by
    simp only [offered, calls, flatAll_append]
    exact (((offered_sub f).append (offeredAll_sub args)).append (offered_sub star)).append (onlyIf_sub _ _)
  | .binary p b l r => by
    simp only [offered, calls, flatAll_append]
    exact ((offered_sub l).append (offered_sub r)).append (onlyIf_sub _ _)
  | .subscr p l r => by
    simp only [offered, calls, flatAll_append]
    exact ((offered_sub l).append (offered_sub r)).append (onlyIf_sub _ _)
  | .compare p c l r => by
    simp only [offered, calls, flatAll_append]
    exact ((offered_sub l).append (offered_sub r)).append (onlyIf_sub _ _)
  | .unary _ e => by simpa [offered, calls] using offered_sub e
  | .display _ es => by simpa [offered, calls] using offeredAll_sub es
  | .dict _ es => by simpa [offered, calls] using offeredAll_sub es
  | .lam _ _ => by simp [offered, calls]
  | .comp p k _ _ iter conds elts => by
    simp only [offered, calls, flatAll_append]
    refine (offered_sub iter).append ((onlyIf_sub _ _).trans (around_sub k p _ _ ?_))
    simp only [flatAll_append]
    exact (offeredAll_sub conds).append (offeredAll_sub elts)
  | .bool _ e rest => by
    simp only [offered, calls, flatAll_append]
    exact (offered_sub e).append (offeredAll_sub rest)
  | .ifExp _ c a b => by
    simp only [offered, calls, flatAll_append]
    exact ((offered_sub c).append (offered_sub a)).append (offered_sub b)
theorem offeredAll_sub : ∀ es : List Expr, (flatAll (offeredAll es)).Sublist (flatAll (callsAll es))
  | [] => by simp [offeredAll, callsAll]
  | e :: r => by
    simp only [offeredAll, callsAll, flatAll_append]
    exact (offered_sub e).append (offeredAll_sub r)
end

mutual
theorem straight_branches : ∀ e : Expr, straight e = true → branches e = false
  | .name _ _, _ => by simp [branches]
  | .const _ _, _ => by simp [branches]
  | .attr _ o _, h => by simp only [straight] at h; simpa [branches] using straight_branches o h
  | .call _ f args kws, h => by
    simp only [straight, Bool.and_eq_true] at h
    simp [branches, straight_branches f h.1.1, straightAll_branches args h.1.2, straightAll_branches kws h.2]
  | .callStar _ f args star, h => by
    simp only [straight, Bool.and_eq_true] at h
    simp [branches, straight_branches f h.1.1, straightAll_branches args h.1.2, straight_branches star h.2]
  | .binary _ _ l r, h => by
    simp only [straight, Bool.and_eq_true] at h
    simp [branches, straight_branches l h.1, straight_branches r h.2]
  | .subscr _ l r, h => by
    simp only [straight, Bool.and_eq_true] at h
    simp [branches, straight_branches l h.1, straight_branches r h.2]
  | .compare _ _ l r, h => by
    simp only [straight, Bool.and_eq_true] at h
    simp [branches, straight_branches l h.1, straight_branches r h.2]
  | .unary _ e, h => by simp only [straight] at h; simpa [branches] using straight_branches e h
  | .display _ es, h => by simp only [straight] at h; simpa [branches] using straightAll_branches es h
  | .dict _ es, h => by simp only [straight] at h; simpa [branches] using straightAll_branches es h
  | .lam _ _, _ => by simp [branches]
  | .comp _ _ _ _ iter _ _, h => by
    simp only [straight, Bool.and_eq_true] at h
    simpa [branches] using straight_branches iter h.1.1
  | .bool _ _ _, h => by simp [straight] at h
  | .ifExp _ _ _ _, h => by simp [straight] at h
theorem straightAll_branches : ∀ es : List Expr, straightAll es = true → branchesAny es = false
  | [], _ => by simp [branchesAny]
  | e :: r, h => by
    simp only [straightAll, Bool.and_eq_true] at h
    simp [branchesAny, straight_branches e h.1, straightAll_branches r h.2]
end

theorem straight_known {e : Expr} (h : straight e = true) : known e = true :=
  known_of_not_branches e (straight_branches e h)

mutual
theorem offered_all : ∀ e : Expr, straight e = true → offered e = calls e
  | .name _ _, _ => by simp [offered, calls]
  | .const _ _, _ => by simp [offered, calls]
  | .attr _ o _, h => by simp only [straight] at h; simpa [offered, calls] using offered_all o h
  | .call _ f args kws, h => by
    simp only [straight, Bool.and_eq_true] at h
    simp [offered, calls, offered_all f h.1.1, offeredAll_all args h.1.2, offeredAll_all kws h.2, straight_known h.1.1,
      straightAll_branches args h.1.2, straightAll_branches kws h.2, onlyIf]
  | .callStar _ f args star, h => by
    simp only [straight, Bool.and_eq_true] at h
    simp [offered, calls, offered_all f h.1.1, offeredAll_all args h.1.2, offered_all star h.2, straight_known h.1.1,
      straightAll_branches args h.1.2, straight_branches star h.2, onlyIf]
  | .binary _ _ l r, h => by
    simp only [straight, Bool.and_eq_true] at h
    simp [offered, calls, offered_all l h.1, offered_all r h.2, straight_known h.1, straight_branches r h.2, onlyIf]
  | .subscr _ l r, h => by
    simp only [straight, Bool.and_eq_true] at h
    simp [offered, calls, offered_all l h.1, offered_all r h.2, straight_known h.1, straight_branches r h.2, onlyIf]
  | .compare _ _ l r, h => by
    simp only [straight, Bool.and_eq_true] at h
    simp [offered, calls, offered_all l h.1, offered_all r h.2, straight_known h.1, straight_branches r h.2, onlyIf]
  | .unary _ e, h => by simp only [straight] at h; simpa [offered, calls] using offered_all e h
  | .display _ es, h => by simp only [straight] at h; simpa [offered, calls] using offeredAll_all es h
  | .dict _ es, h => by simp only [straight] at h; simpa [offered, calls] using offeredAll_all es h
  | .lam _ _, _ => by simp [offered, calls]
  | .comp _ _ _ _ iter conds elts, h => by
    simp only [straight, Bool.and_eq_true] at h
    simp [offered, calls, offered_all iter h.1.1, offeredAll_all conds h.1.2, offeredAll_all elts h.2,
      straight_branches iter h.1.1, onlyIf]
  | .bool _ _ _, h => by simp [straight] at h
  | .ifExp _ _ _ _, h => by simp [straight] at h
theorem offeredAll_all : ∀ es : List Expr, straightAll es = true → offeredAll es = callsAll es
  | [], _ => by simp [offeredAll, callsAll]
  | e :: r, h => by
    simp only [straightAll, Bool.and_eq_true] at h
    simp [offeredAll, callsAll, offered_all e h.1, offeredAll_all r h.2]
end

/-- **C105** (nothing else): every call offered is one of the function, with its name, line and offset, and they are
in the order of evaluation; also when evaluations branch. -/
theorem c105_sound (b : List Stmt) (h : okAll (bodyExprs b) = true) :
    (flatAll (targets (compileBody b))).Sublist (flatAll (callsAll (bodyExprs b))) := by
  rw [c105_targets b h]
  exact offeredAll_sub _

/-- **C105** (all of them): if no evaluation branches, all calls are offered. -/
theorem c105_complete (b : List Stmt) (h : okAll (bodyExprs b) = true) (hs : straightAll (bodyExprs b) = true) :
    targets (compileBody b) = callsAll (bodyExprs b) := by
  rw [c105_targets b h, offeredAll_all _ hs]

/-! ### Non-vacuity -/

/-- A position. -/
def at' (l o : Nat) : At := ⟨l, o⟩

/-- `x = foo(bar(y), k=o.m()[0]) + sum(f(i) for i in items())` -/
def sampleBody : List Stmt :=
  [.assign (at' 1 60) (.binary (at' 1 50) .add
    (.call (at' 1 20) (.name (at' 1 0) c!"foo")
      [.call (at' 1 6) (.name (at' 1 2) c!"bar") [.name (at' 1 4) c!"y"] []]
      [.subscr (at' 1 14) (.call (at' 1 12) (.attr (at' 1 10) (.name (at' 1 8) c!"o") c!"m") [] [])
        (.const (at' 1 13) none)])
    (.call (at' 1 40) (.name (at' 1 22) c!"sum")
      [.comp (at' 1 38) .gen (some c!"fn.<locals>") 1 (.call (at' 1 34) (.name (at' 1 32) c!"items") [] []) []
        [.call (at' 1 8) (.name (at' 1 4) c!"f") [.name (at' 1 6) c!"i"] []]] []))]

/-- Calls nested, with keywords, methods, operators and a comprehension: all are offered. -/
theorem c105_example :
    okAll (bodyExprs sampleBody) = true ∧ straightAll (bodyExprs sampleBody) = true ∧
    flatAll (targets (compileBody sampleBody)) =
      [(c!"bar", 1, 6), (c!"m", 1, 12), (c!"__getitem__", 1, 14), (c!"foo", 1, 20), (c!"items", 1, 34),
       (c!"<genexpr>", 1, 38), (c!"f", 1, 8), (c!"sum", 1, 40), (c!"__add__", 1, 50)] := by
  decide +kernel

/-! ### Limits -/

def nm (s : Name) (o : Nat) : Expr := .name (at' 1 o) s

/-- In `f(a and b())` the call of `f` is not offered: the argument branches. -/
theorem c105_branch_witness :
    okAll (bodyExprs [.expr (at' 1 9) (.call (at' 1 8) (nm c!"f" 0)
      [.bool (at' 1 6) (nm c!"a" 2) [.call (at' 1 5) (nm c!"b" 4) [] []]] [])]) = true ∧
    flatAll (targets (compileBody [.expr (at' 1 9) (.call (at' 1 8) (nm c!"f" 0)
      [.bool (at' 1 6) (nm c!"a" 2) [.call (at' 1 5) (nm c!"b" 4) [] []]] [])])) = [(c!"b", 1, 5)] := by
  decide +kernel

def i0 (o : Op) (n : Nat) : Instr := .mk o .none 1 n
def iS (o : Op) (s : Name) (n : Nat) : Instr := .mk o (.str s) 1 n
def iN (o : Op) (k : Nat) (n : Nat) : Instr := .mk o (.num k) 1 n

/-- `f(a is b)`: the comparison leaves no value, so that the function itself is taken for the argument: nothing is
offered.  In `h(f(a is b))` the call of `f` is offered as one of `h`, and that of `h` is not. -/
theorem c105_is_witness :
    flatAll (targets [iS .load c!"f" 0, iS .load c!"a" 2, iS .load c!"b" 4, i0 .isOp 6, iN .callFunction 1 8]) = [] ∧
    flatAll (targets [iS .load c!"h" 0, iS .load c!"f" 2, iS .load c!"a" 4, iS .load c!"b" 6, i0 .isOp 8,
      iN .callFunction 1 10, iN .callFunction 1 12]) = [(c!"h", 1, 10)] := by
  decide +kernel

/-- `f(a in b)`: the operator is not known and its operands stay, so that the call is offered with the name of an
operand. -/
theorem c105_in_witness :
    flatAll (targets [iS .load c!"f" 0, iS .load c!"a" 2, iS .load c!"b" 4, i0 .nop 6, iN .callFunction 1 8]) =
      [(c!"a", 1, 8)] := by
  decide +kernel

/-- True division is offered as `__div__`, which no class has. -/
theorem c105_div_witness :
    flatAll (targets (compileBody [.expr (at' 1 6) (.binary (at' 1 4) .truediv (nm c!"a" 0) (nm c!"b" 2))])) =
      [(c!"__div__", 1, 4)] := by
  decide +kernel

/-- With 256 arguments the number is decoded as two, and the call is offered with the name of an argument. -/
theorem c105_many_witness :
    flatAll (targets (compileBody [.expr (at' 1 6) (.call (at' 1 4) (nm c!"f" 0)
      (List.replicate 256 (nm c!"x" 2)) [])])) = [(c!"x", 1, 4)] := by
  decide +kernel

end StepCalls
