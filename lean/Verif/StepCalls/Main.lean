import Verif.StepCalls.Lemmas
/-!
# The interpreter follows the expressions: the induction
-/
namespace StepCalls
open Spec

theorem run_one (o : Op) (a : Arg) (p : At) (s : St) (h : ∀ b, a ≠ .code b) :
    run [ins o a p] s = step (ins o a p) [] s := by
  rw [run_cons, run_nil, own_simple o a p h]

theorem run_pop (p : At) (s : St) : run [ins .pop .none p] s = { s with stack := s.stack.tail } := by
  rw [run_one _ _ _ _ (by simp)]; rfl

theorem run_nop (p : At) (s : St) : run [ins .nop .none p] s = s := by
  rw [run_one _ _ _ _ (by simp)]; rfl

theorem run_cut (p : At) (s : St) : run [ins .cut .none p] s = { s with stack := [] } := by
  rw [run_one _ _ _ _ (by simp)]; rfl

theorem run_build (p : At) (n : Nat) (s : St) :
    run [ins .build (.num n) p] s = { s with stack := { instr := ins .build (.num n) p } :: s.stack.drop n } := by
  rw [run_one _ _ _ _ (by simp)]; rfl

theorem two {α : Type} (a b : α) : [a, b] = [a] ++ [b] := rfl

theorem run_pops (p : At) (n : Nat) (s : St) :
    run (List.replicate n (ins .pop .none p)) s = { s with stack := s.stack.drop n } := by
  induction n generalizing s with
  | zero => simp [run_nil]
  | succ n ih =>
    have : List.replicate (n + 1) (ins .pop .none p) = [ins .pop .none p] ++ List.replicate n (ins .pop .none p) := by
      simp [List.replicate_succ]
    rw [this, run_append, run_pop, ih]
    simp only [List.drop_tail]

theorem run_loads (p : At) (n : Nat) (x : Name) (s : St) :
    ∃ l : List Entry, l.length = n ∧ run (List.replicate n (ins .load (.str x) p)) s = { s with stack := l ++ s.stack } := by
  induction n generalizing s with
  | zero => exact ⟨[], rfl, by simp [run_nil]⟩
  | succ n ih =>
    have : List.replicate (n + 1) (ins .load (.str x) p) = [ins .load (.str x) p] ++ List.replicate n (ins .load (.str x) p) := by
      simp [List.replicate_succ]
    rw [this, run_append, run_one _ _ _ _ (by simp)]
    obtain ⟨l, h1, h2⟩ := ih (step (ins .load (.str x) p) [] s)
    refine ⟨l ++ [{ instr := ins .load (.str x) p }], by simp [h1], ?_⟩
    rw [h2]
    simp [step, ins, Instr.op]

/-- What a closure leaves is removed by `MAKE_FUNCTION`. -/
theorem run_closure (p : At) (free : Nat) (s : St) :
    ∃ l : List Entry, l.length = flags (if free = 0 then 0 else 8) ∧ run (closure p free) s = { s with stack := l ++ s.stack } := by
  unfold closure
  by_cases h : free = 0
  · simp only [h, if_true]
    exact ⟨[], rfl, by simp [run_nil]⟩
  · simp only [h, if_false]
    rw [run_append]
    obtain ⟨l, h1, h2⟩ := run_loads p free c!"x" s
    rw [h2, run_build]
    refine ⟨[{ instr := ins .build (.num free) p }], rfl, ?_⟩
    simp only [List.drop_left' h1, List.singleton_append]

/-- A call, after the called function and the arguments. -/
theorem run_call (p : At) (f : Expr) (args kws : List Expr) (s : St) (h1 : ok f = true) (h2 : callee f = true)
    (hl : args.length + kws.length < 256) (cs : List Target) :
    run (callIns p f args.length kws.length) { stack := finals s.stack (f :: args ++ kws), calls := cs } =
      { stack := final s.stack (.call p f args kws)
        calls := cs ++ onlyIf (known f && !branchesAny args && !branchesAny kws) (named f p) } := by
  have hk : knownAll (f :: (args ++ kws)) = (known f && !branchesAny args && !branchesAny kws) := by
    simp [knownAll, branchesAny_append, Bool.and_assoc]
  have hb : branchesAny (f :: (args ++ kws)) = (branches f || branchesAny args || branchesAny kws) := by
    simp [branchesAny, branchesAny_append, Bool.or_assoc]
  have key : ∀ i : Instr, i.offset = p.offset → i = lastIns p f args.length kws.length →
      popAndCall (args ++ kws).length i { stack := finals s.stack (f :: (args ++ kws)), calls := cs } =
        { stack := final s.stack (.call p f args kws)
          calls := cs ++ onlyIf (known f && !branchesAny args && !branchesAny kws) (named f p) } := by
    intro i hi hi2
    cases hx : (known f && !branchesAny args && !branchesAny kws) with
    | true =>
      rw [popAndCall_known h1 h2 _ (by rw [hk, hx]) p i hi, hb]
      simp only [onlyIf, if_true, final, branches, known, hx, ent, hi2]
      split <;> rfl
    | false =>
      rw [popAndCall_unknown (by rw [hk, hx]) _ _ _ _ (by simp)]
      have : (branches f || branchesAny args || branchesAny kws) = true := by
        rw [← hb]
        cases hc : branchesAny (f :: (args ++ kws)) with
        | true => rfl
        | false => rw [knownAll_of_not_branches _ hc] at hk; rw [← hk] at hx; cases hx
      simp [onlyIf, final, branches, known, hx, this]
  by_cases hz : kws.length = 0
  · have hz' : kws = [] := List.eq_nil_of_length_eq_zero hz
    subst hz'
    have hlen : (args ++ ([] : List Expr)).length = args.length := by simp
    by_cases ha : ∃ p' o n, f = .attr p' o n
    · obtain ⟨p', o, n, rfl⟩ := ha
      have e : callIns p (.attr p' o n) args.length ([] : List Expr).length = [ins .callMethod (.num args.length) p] := rfl
      rw [e, run_one _ _ _ _ (by simp)]
      have := key (ins .callMethod (.num args.length) p) rfl rfl
      rw [hlen] at this
      exact this
    · have e : callIns p f args.length ([] : List Expr).length = [ins .callFunction (.num args.length) p] := by
        cases f <;> first | rfl | exact absurd ⟨_, _, _, rfl⟩ ha
      have e2 : ins .callFunction (.num args.length) p = lastIns p f args.length ([] : List Expr).length := by
        cases f <;> first | rfl | exact absurd ⟨_, _, _, rfl⟩ ha
      rw [e, run_one _ _ _ _ (by simp)]
      have := key (ins .callFunction (.num args.length) p) rfl e2
      rw [hlen] at this
      have e3 : step (ins .callFunction (.num args.length) p) [] =
          popAndCall (argc args.length) (ins .callFunction (.num args.length) p) := rfl
      simp only [List.length_nil, Nat.add_zero] at hl
      rw [e3, argc_small hl]
      exact this
  · have e : callIns p f args.length kws.length =
        [ins .load .none p] ++ [ins .callKw (.num (args.length + kws.length)) p] := by
      simp [callIns, hz]
    have e2 : ins .callKw (.num (args.length + kws.length)) p = lastIns p f args.length kws.length := by
      simp [lastIns, hz]
    rw [e, run_append, run_one _ _ _ _ (by simp), run_one _ _ _ _ (by simp)]
    have := key (ins .callKw (.num (args.length + kws.length)) p) rfl e2
    rw [← this]
    have e3 : step (ins .callKw (.num (args.length + kws.length)) p) [] =
        popAndCall (argc (args.length + kws.length) + 1) (ins .callKw (.num (args.length + kws.length)) p) := rfl
    rw [e3, argc_small hl]
    simp [step, ins, Instr.op, popAndCall]

theorem final_call_nil (σ : List Entry) {e : Expr} (h1 : branches e = true) (h2 : known e = false) : final σ e = [] := by
  simp [final, h1, h2]

/-- A call with a starred argument, after everything is evaluated. -/
theorem run_callStar (p : At) (f : Expr) (args : List Expr) (star : Expr) (σ : List Entry) (h1 : ok f = true)
    (h2 : callee f = true) (cs : List Target) :
    run [ins .pop .none p, ins .nop .none p, ins .callEx (.num 0) p]
      { stack := final ({ instr := ins .build (.num args.length) p } :: (finals (final σ f) args).drop args.length) star
        calls := cs } =
      { stack := final σ (.callStar p f args star)
        calls := cs ++ onlyIf (known f && !branchesAny args && !branches star) (named f p) } := by
  have e : [ins .pop .none p, ins .nop .none p, ins .callEx (.num 0) p] =
      [ins .pop .none p] ++ ([ins .nop .none p] ++ [ins .callEx (.num 0) p]) := rfl
  rw [e, run_append, run_append, run_pop, run_nop, run_one _ _ _ _ (by simp)]
  have e3 : step (ins .callEx (.num 0) p) [] = popAndCall 1 (ins .callEx (.num 0) p) := rfl
  rw [e3]
  have nil : ∀ st : List Entry, st.length ≤ 1 →
      popAndCall 1 (ins .callEx (.num 0) p) { stack := st, calls := cs } = { stack := [], calls := cs } := by
    intro st h
    unfold popAndCall
    simp only [List.drop_of_length_le h]
  cases hs : branches star with
  | true =>
    have : (final ({ instr := ins .build (.num args.length) p } :: (finals (final σ f) args).drop args.length) star).tail = [] := by
      simp only [final, hs, if_true]
      split <;> rfl
    simp only [this]
    rw [nil _ (by simp)]
    simp [final, branches, known, hs, onlyIf]
  | false =>
    have : (final ({ instr := ins .build (.num args.length) p } :: (finals (final σ f) args).drop args.length) star).tail =
        { instr := ins .build (.num args.length) p } :: (finals (final σ f) args).drop args.length := by
      simp [final, hs]
    simp only [this]
    cases ha : branchesAny args with
    | true =>
      have : (finals (final σ f) args).drop args.length = [] :=
        List.drop_of_length_le (finals_branch args (final σ f) ha)
      rw [this, nil _ (by simp)]
      simp [final, branches, known, hs, ha, onlyIf]
    | false =>
      have : (finals (final σ f) args).drop args.length = final σ f := by
        rw [finals_straight _ _ ha]
        exact List.drop_left' (by simp)
      rw [this]
      cases hk : known f with
      | true =>
        rw [final_known hk]
        unfold popAndCall
        simp only [List.drop_one, List.tail_cons]
        rw [handleCall_ent h1 h2 hk p _ rfl]
        simp only [onlyIf, final, branches, known, hs, ha, hk, ent]
        cases branches f <;> simp
      | false =>
        rw [final_unknown hk, nil _ (by simp)]
        have : branches f = true := by
          cases hb : branches f with
          | true => rfl
          | false => rw [known_of_not_branches f hb] at hk; cases hk
        simp [final, branches, known, hs, ha, hk, onlyIf, this]

/-- A display, after its elements. -/
theorem run_display (p : At) (es : List Expr) (σ : List Entry) (cs : List Target) :
    run [ins .build (.num es.length) p] { stack := finals σ es, calls := cs } =
      { stack := final σ (.display p es), calls := cs } := by
  rw [run_build]
  simp only [final, branches, known, ent, if_true]
  cases hb : branchesAny es with
  | true => simp [List.drop_of_length_le (finals_branch es σ hb)]
  | false => simp [finals_straight _ _ hb, List.drop_left']

theorem run_dict (p : At) (es : List Expr) (σ : List Entry) (cs : List Target) (he : es.length % 2 = 0) :
    run [ins .buildMap (.num (es.length / 2)) p] { stack := finals σ es, calls := cs } =
      { stack := final σ (.dict p es), calls := cs } := by
  rw [run_one _ _ _ _ (by simp)]
  have h2 : 2 * (es.length / 2) = es.length := by omega
  have e : ∀ s, step (ins .buildMap (.num (es.length / 2)) p) [] s =
      if s.stack.length < es.length then { s with stack := [] }
      else { s with stack := { instr := ins .buildMap (.num (es.length / 2)) p } :: s.stack.drop es.length } := by
    intro s
    simp only [step, ins, Instr.op, Instr.num, Instr.arg, h2]
  rw [e]
  have fe : final σ (.dict p es) = if branchesAny es = true then (if knownAll es = true then [ent (.dict p es)] else [])
      else ent (.dict p es) :: σ := by
    unfold final
    rw [branches, known]
  rw [fe]
  simp only [ent]
  cases hk : knownAll es with
  | true =>
    rw [finals_known hk]
    rw [if_neg (by simp)]
    rw [List.drop_left' (by simp)]
    cases branchesAny es <;> simp
  | false =>
    rw [if_pos (finals_unknown hk σ)]
    cases hb : branchesAny es with
    | true => simp
    | false => rw [knownAll_of_not_branches es hb] at hk; cases hk

theorem run_lam (p : At) (outer : Option Name) (s : St) : run (compile (.lam p outer)) s = After s (.lam p outer) := by
  have e : compile (.lam p outer) =
      [ins .load (.code []) p, ins .load (.str (qual outer c!"<lambda>")) p, ins .makeFunction (.num 0) p] := by
    simp [compile]
  rw [e, run_cons, run_cons, run_cons, run_nil]
  have hs : shorten (qual outer c!"<lambda>") = c!"<lambda>" := shorten_qual _ _ (by decide) (by decide)
  have hc : isComp c!"<lambda>" = false := by decide
  simp only [step, ins, Instr.op, Instr.num, Instr.arg, flags, own, ownArg, run, callName, hs, hc, After, final, branches,
    ent, offered]
  simp

/-- The start of a comprehension: its code, made a function. -/
theorem run_made (p : At) (k : Kind) (outer : Option Name) (free : Nat) (body : List Instr) (s : St) :
    run (closure p free ++ [ins .load (.code body) p, ins .load (.str (qual outer k.text)) p,
        ins .makeFunction (.num (if free = 0 then 0 else 8)) p]) s =
      { s with stack := { instr := ins .load (.str (qual outer k.text)) p, made := some (run body {}).calls } :: s.stack } := by
  rw [run_append]
  obtain ⟨l, h1, h2⟩ := run_closure p free s
  rw [h2, run_cons, run_cons, run_cons, run_nil]
  obtain ⟨k1, k2, k3, k4⟩ := kind_text k
  have hs : shorten (qual outer k.text) = k.text := shorten_qual _ _ k1 k2
  simp only [step, ins, Instr.op, Instr.num, Instr.arg, own, ownArg, callName, hs, k3, if_true]
  rw [if_neg (by simp [h1])]
  simp [List.drop_left' h1]

/-- The end of a comprehension: it is called with its iterable. -/
theorem run_comp (p : At) (k : Kind) (outer : Option Name) (free : Nat) (iter : Expr) (conds elts : List Expr)
    (σ : List Entry) (cs kids : List Target) (hkids : kids = offeredAll conds ++ offeredAll elts) :
    run [ins .nop .none p, ins .callFunction (.num 1) p]
      { stack := final ({ instr := ins .load (.str (qual outer k.text)) p, made := some kids } :: σ) iter, calls := cs } =
      { stack := final σ (.comp p k outer free iter conds elts)
        calls := cs ++ onlyIf (!branches iter) (around k p (offeredAll conds ++ offeredAll elts)) } := by
  rw [two, run_append, run_nop, run_one _ _ _ _ (by simp)]
  have e3 : step (ins .callFunction (.num 1) p) [] = popAndCall 1 (ins .callFunction (.num 1) p) := by
    funext t
    simp [step, ins, Instr.op, Instr.num, Instr.arg, argc]
  rw [e3]
  unfold popAndCall
  obtain ⟨k1, k2, k3, k4⟩ := kind_text k
  have hs : shorten (qual outer k.text) = k.text := shorten_qual _ _ k1 k2
  cases hb : branches iter with
  | true =>
    have : (final ({ instr := ins .load (.str (qual outer k.text)) p, made := some kids } :: σ) iter).drop 1 = [] := by
      simp only [final, hb, if_true]
      split <;> rfl
    simp only [this]
    simp [final, branches, known, hb, onlyIf]
  | false =>
    have : (final ({ instr := ins .load (.str (qual outer k.text)) p, made := some kids } :: σ) iter).drop 1 =
        { instr := ins .load (.str (qual outer k.text)) p, made := some kids } :: σ := by
      simp [final, hb]
    simp only [this]
    subst hkids
    simp only [handleCall, ins, callName, Instr.op, Instr.arg, hs, k3, k4, if_true, if_false, Instr.line, Instr.offset]
    simp only [final, branches, hb, ent, ins, onlyIf, around]
    cases (offeredAll conds ++ offeredAll elts).isEmpty <;> simp

mutual
/-- The interpreter, on the bytecode of an expression. -/
theorem run_expr : ∀ (e : Expr) (s : St), ok e = true → run (compile e) s = After s e
  | .name p n, s, _ => by
    simp only [compile]
    rw [run_one _ _ _ _ (by simp)]
    simp [step, ins, Instr.op, After, final, branches, ent, offered]
  | .const p none, s, _ => by
    simp only [compile]
    rw [run_one _ _ _ _ (by simp)]
    simp [step, ins, Instr.op, After, final, branches, ent, offered]
  | .const p (some t), s, _ => by
    simp only [compile]
    rw [run_one _ _ _ _ (by simp)]
    simp [step, ins, Instr.op, After, final, branches, ent, offered]
  | .attr p o n, s, h => by
    simp only [ok, Bool.and_eq_true] at h
    simp only [compile]
    rw [run_append, run_expr o s h.1, run_one _ _ _ _ (by simp)]
    simp only [step, ins, Instr.op, After, final, branches, known, ent, offered]
    cases branches o <;> simp
    split <;> rfl
  | .call p f args kws, s, h => by
    simp only [ok, Bool.and_eq_true, decide_eq_true_eq] at h
    obtain ⟨⟨⟨⟨h1, h2⟩, h3⟩, h4⟩, h5⟩ := h
    simp only [compile]
    rw [run_append, run_append, run_append, run_expr f s h1, run_all args _ h3, run_all kws _ h4]
    have := run_call p f args kws s h1 h2 h5 (s.calls ++ offered f ++ offeredAll args ++ offeredAll kws)
    rw [List.cons_append, finals_cons, finals_append] at this
    simp only [After, AfterAll, offered]
    rw [this]
    simp only [List.append_assoc]
  | .callStar p f args star, s, h => by
    simp only [ok, Bool.and_eq_true] at h
    obtain ⟨⟨⟨h1, h2⟩, h3⟩, h4⟩ := h
    simp only [compile]
    rw [run_append, run_append, run_append, run_append, run_expr f s h1, run_all args _ h3, run_build, run_expr star _ h4]
    have := run_callStar p f args star s.stack h1 h2 (s.calls ++ offered f ++ offeredAll args ++ offered star)
    simp only [After, AfterAll, offered]
    rw [this]
    simp only [List.append_assoc]
  | .binary p b l r, s, h => by
    simp only [ok, Bool.and_eq_true, decide_eq_true_eq] at h
    simp only [compile]
    rw [run_append, run_append, run_expr l s h.1.2, run_expr r _ h.2, run_one _ _ _ _ (by simp)]
    have := run_ops p s l r b.text (ins (.binary b) .none p) ⟨rfl, rfl⟩
    have e : step (ins (.binary b) .none p) [] = operator b.text (ins (.binary b) .none p) := rfl
    rw [e]
    simp only [After, offered]
    rw [this, method_text h.1.1]
    simp only [final, branches, known, ent]
    congr
  | .subscr p l r, s, h => by
    simp only [ok, Bool.and_eq_true] at h
    simp only [compile]
    rw [run_append, run_append, run_expr l s h.1, run_expr r _ h.2, run_one _ _ _ _ (by simp)]
    have := run_ops p s l r c!"__getitem__" (ins .subscr .none p) ⟨rfl, rfl⟩
    have e : step (ins .subscr .none p) [] = operator c!"__getitem__" (ins .subscr .none p) := rfl
    rw [e]
    simp only [After, offered]
    rw [this]
    simp only [final, branches, known, ent]
    congr
  | .compare p c l r, s, h => by
    simp only [ok, Bool.and_eq_true] at h
    simp only [compile]
    rw [run_append, run_append, run_expr l s h.1, run_expr r _ h.2, run_one _ _ _ _ (by simp)]
    have := run_ops p s l r c.text (ins (.compare c) .none p) ⟨rfl, rfl⟩
    have e : step (ins (.compare c) .none p) [] = operator c.text (ins (.compare c) .none p) := rfl
    rw [e]
    simp only [After, offered]
    rw [this, cmp_text]
    simp only [final, branches, known, ent]
    congr
  | .unary p e, s, h => by
    simp only [ok] at h
    simp only [compile]
    rw [run_append, run_expr e s h, run_nop]
    simp only [After, final, branches, known, ent, offered]
    congr
  | .display p es, s, h => by
    simp only [ok] at h
    simp only [compile]
    rw [run_append, run_all es s h]
    simp only [AfterAll, After, offered]
    rw [run_display]
  | .dict p es, s, h => by
    simp only [ok, Bool.and_eq_true, decide_eq_true_eq] at h
    simp only [compile]
    rw [run_append, run_all es s h.1]
    simp only [AfterAll, After, offered]
    rw [run_dict _ _ _ _ h.2]
  | .lam p outer, s, _ => run_lam p outer s
  | .comp p k outer free iter conds elts, s, h => by
    simp only [ok, Bool.and_eq_true] at h
    simp only [compile]
    rw [run_append, run_append, run_made, run_expr iter _ h.1.1]
    simp only [After, offered]
    rw [run_comp p k outer free iter conds elts, List.append_assoc]
    have pre : ∀ t, run [ins .build (.num 0) p, ins .load .none p, ins .cut .none p, ins .nop .none p, ins .cut .none p,
        ins .pop .none p] t = { t with stack := [] } := by
      intro t
      simp [run, step, own, ownArg, ins, Instr.op]
    have post : ∀ t, (run [ins .nop .none p, ins .cut .none p, ins .pop .none p, ins .cut .none p] t).calls = t.calls := by
      intro t
      simp [run, step, own, ownArg, ins, Instr.op]
    rw [run_append, run_append, run_append, run_append, pre, post, run_pops]
    obtain ⟨σ, hσ⟩ := run_tests p conds ({ ({} : St) with stack := [] }) h.1.2
    rw [hσ, run_all elts _ h.2]
    simp [AfterAll]
  | .bool p e rest, s, h => by
    simp only [ok, Bool.and_eq_true] at h
    simp only [compile]
    rw [run_append, run_append, run_expr e s h.1]
    obtain ⟨σ, hσ⟩ := run_rest p rest (After s e) h.2
    rw [hσ, run_cut]
    simp [After, final, branches, known, offered]
  | .ifExp p c a b, s, h => by
    simp only [ok, Bool.and_eq_true] at h
    simp only [compile]
    rw [two, two, run_append, run_append, run_append, run_append, run_append, run_append, run_append, run_expr c s h.1.1, run_pop,
      run_cut, run_expr a _ h.1.2, run_nop, run_cut, run_expr b _ h.2, run_cut]
    simp [After, final, branches, known, offered]
/-- On that of several. -/
theorem run_all : ∀ (es : List Expr) (s : St), okAll es = true → run (compileAll es) s = AfterAll s es
  | [], s, _ => by simp [compileAll, run, AfterAll, finals, offeredAll]
  | e :: r, s, h => by
    simp only [okAll, Bool.and_eq_true] at h
    simp only [compileAll]
    rw [run_append, run_expr e s h.1, run_all r _ h.2]
    simp [AfterAll, After, finals_cons, offeredAll]
theorem run_rest : ∀ (p : At) (es : List Expr) (s : St), okAll es = true →
    ∃ σ, run (compileRest p es) s = { stack := σ, calls := s.calls ++ offeredAll es }
  | p, [], s, _ => ⟨s.stack, by simp [compileRest, run, offeredAll]⟩
  | p, e :: r, s, h => by
    simp only [okAll, Bool.and_eq_true] at h
    simp only [compileRest]
    rw [two, run_append, run_append, run_append, run_pop, run_cut, run_expr e _ h.1]
    obtain ⟨σ, hσ⟩ := run_rest p r _ h.2
    exact ⟨σ, by rw [hσ]; simp [After, offeredAll]⟩
theorem run_tests : ∀ (p : At) (es : List Expr) (s : St), okAll es = true →
    ∃ σ, run (compileTests p es) s = { stack := σ, calls := s.calls ++ offeredAll es }
  | p, [], s, _ => ⟨s.stack, by simp [compileTests, run, offeredAll]⟩
  | p, e :: r, s, h => by
    simp only [okAll, Bool.and_eq_true] at h
    simp only [compileTests]
    rw [two, run_append, run_append, run_append, run_expr e _ h.1, run_pop, run_cut]
    obtain ⟨σ, hσ⟩ := run_tests p r _ h.2
    exact ⟨σ, by rw [hσ]; simp [After, offeredAll]⟩
end

end StepCalls
