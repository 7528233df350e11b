import Verif.StepCalls.Spec
/-!
# The interpreter follows the expressions
-/
namespace StepCalls
open Spec

theorem run_append (a b : List Instr) (s : St) : run (a ++ b) s = run b (run a s) := by
  induction a generalizing s with
  | nil => simp [run]
  | cons i r ih => simp [run, ih]

theorem run_nil (s : St) : run [] s = s := by simp [run]

theorem run_cons (i : Instr) (r : List Instr) (s : St) : run (i :: r) s = run r (step i (own i) s) := by simp [run]

/-- The instruction for a call. -/
def lastIns (p : At) (f : Expr) (n k : Nat) : Instr :=
  if k = 0 then
    match f with
    | .attr _ _ _ => ins .callMethod (.num n) p
    | _ => ins .callFunction (.num n) p
  else ins .callKw (.num (n + k)) p

/-- What is on the stack for the value of an expression. -/
def ent : Expr → Entry
  | .name p n => { instr := ins .load (.str n) p }
  | .const p s => { instr := ins .load (match s with | some t => .str t | none => .none) p }
  | .attr p _ n => { instr := ins .loadAttr (.str n) p }
  | .call p f args kws => { instr := lastIns p f args.length kws.length }
  | .callStar p _ _ _ => { instr := ins .callEx (.num 0) p }
  | .binary p b _ _ => { instr := ins (.binary b) .none p }
  | .subscr p _ _ => { instr := ins .subscr .none p }
  | .compare p c _ _ => { instr := ins (.compare c) .none p }
  | .unary _ e => ent e
  | .display p es => { instr := ins .build (.num es.length) p }
  | .dict p es => { instr := ins .buildMap (.num (es.length / 2)) p }
  | .lam p outer => { instr := ins .load (.str (qual outer c!"<lambda>")) p }
  | .comp p _ _ _ _ _ _ => { instr := ins .callFunction (.num 1) p }
  | .bool p _ _ => { instr := ins .cut .none p }
  | .ifExp p _ _ _ => { instr := ins .cut .none p }

/-- The stack after an expression. -/
def final (σ : List Entry) (e : Expr) : List Entry :=
  if branches e then (if known e then [ent e] else []) else ent e :: σ

/-- The stack after several. -/
def finals (σ : List Entry) (es : List Expr) : List Entry := es.foldl final σ

mutual
theorem known_of_not_branches : ∀ e : Expr, branches e = false → known e = true
  | .name _ _, _ => by simp [known]
  | .const _ _, _ => by simp [known]
  | .attr _ _ _, _ => by simp [known]
  | .call _ f args kws, h => by
    simp only [branches, Bool.or_eq_false_iff] at h
    simp [known, known_of_not_branches f h.1.1, h.1.2, h.2]
  | .callStar _ f args star, h => by
    simp only [branches, Bool.or_eq_false_iff] at h
    simp [known, known_of_not_branches f h.1.1, h.1.2, h.2]
  | .binary _ _ l r, h => by
    simp only [branches, Bool.or_eq_false_iff] at h
    simp [known, known_of_not_branches l h.1, h.2]
  | .subscr _ l r, h => by
    simp only [branches, Bool.or_eq_false_iff] at h
    simp [known, known_of_not_branches l h.1, h.2]
  | .compare _ _ l r, h => by
    simp only [branches, Bool.or_eq_false_iff] at h
    simp [known, known_of_not_branches l h.1, h.2]
  | .unary _ e, h => by
    simp only [branches] at h
    simp [known, known_of_not_branches e h]
  | .display _ _, _ => by simp [known]
  | .dict _ es, h => by
    simp only [branches] at h
    simp [known, knownAll_of_not_branches es h]
  | .lam _ _, _ => by simp [known]
  | .comp _ _ _ _ iter _ _, h => by
    simp only [branches] at h
    simp [known, h]
  | .bool _ _ _, h => by simp [branches] at h
  | .ifExp _ _ _ _, h => by simp [branches] at h
theorem knownAll_of_not_branches : ∀ es : List Expr, branchesAny es = false → knownAll es = true
  | [], _ => by simp [knownAll]
  | e :: r, h => by
    simp only [branchesAny, Bool.or_eq_false_iff] at h
    simp [knownAll, known_of_not_branches e h.1, h.2]
end

theorem branchesAny_append (a b : List Expr) : branchesAny (a ++ b) = (branchesAny a || branchesAny b) := by
  induction a with
  | nil => simp [branchesAny]
  | cons e r ih => simp [branchesAny, ih, Bool.or_assoc]

theorem finals_nil (σ : List Entry) : finals σ [] = σ := rfl

theorem finals_cons (σ : List Entry) (e : Expr) (r : List Expr) : finals σ (e :: r) = finals (final σ e) r := rfl

theorem finals_append (σ : List Entry) (a b : List Expr) : finals σ (a ++ b) = finals (finals σ a) b := by
  simp [finals]

/-- Without branches everything is on the stack. -/
theorem finals_straight (es : List Expr) (σ : List Entry) (h : branchesAny es = false) :
    finals σ es = (es.map ent).reverse ++ σ := by
  induction es generalizing σ with
  | nil => rfl
  | cons e r ih =>
    simp only [branchesAny, Bool.or_eq_false_iff] at h
    rw [finals_cons, ih _ h.2]
    simp [final, h.1]

theorem final_known {e : Expr} (h : known e = true) (σ : List Entry) :
    final σ e = ent e :: if branches e then [] else σ := by
  unfold final
  split <;> simp [h]

theorem final_unknown {e : Expr} (h : known e = false) (σ : List Entry) : final σ e = [] := by
  have : branches e = true := by
    cases hb : branches e with
    | true => rfl
    | false => rw [known_of_not_branches e hb] at h; cases h
  simp [final, this, h]

/-- With branches less is on the stack. -/
theorem finals_branch (es : List Expr) (σ : List Entry) (h : branchesAny es = true) :
    (finals σ es).length ≤ es.length := by
  induction es generalizing σ with
  | nil => simp [branchesAny] at h
  | cons e r ih =>
    rw [finals_cons]
    cases hr : branchesAny r with
    | true => have := ih (final σ e) hr; simp only [List.length_cons]; omega
    | false =>
      have he : branches e = true := by simpa [branchesAny, hr] using h
      rw [finals_straight _ _ hr]
      simp only [List.length_append, List.length_reverse, List.length_map, List.length_cons, final, he, if_true]
      split <;> simp

theorem finals_known {es : List Expr} (h : knownAll es = true) (σ : List Entry) :
    finals σ es = (es.map ent).reverse ++ if branchesAny es then [] else σ := by
  cases es with
  | nil => simp [finals, branchesAny]
  | cons e r =>
    simp only [knownAll, Bool.and_eq_true, Bool.not_eq_true'] at h
    rw [finals_cons, finals_straight _ _ h.2, final_known h.1]
    simp [branchesAny, h.2]

theorem finals_unknown {es : List Expr} (h : knownAll es = false) (σ : List Entry) :
    (finals σ es).length < es.length := by
  cases es with
  | nil => simp [knownAll] at h
  | cons e r =>
    rw [finals_cons]
    cases hr : branchesAny r with
    | true =>
      have := finals_branch r (final σ e) hr
      simp only [List.length_cons]; omega
    | false =>
      have : known e = false := by simpa [knownAll, hr] using h
      rw [finals_straight _ _ hr, final_unknown this]
      simp

/-! ### Names -/

theorem shorten_name {n : Name} (h : isName n = true) : shorten n = n := by
  unfold shorten
  rw [if_neg]
  intro hl
  have := List.mem_of_getLast? hl
  simp only [isName, Bool.and_eq_true, Bool.not_eq_true', List.contains_eq_mem, decide_eq_false_iff_not] at h
  exact h.2 this

theorem name_plain {n : Name} (h : isName n = true) : n ≠ [] ∧ isComp n = false := by
  simp only [isName, Bool.and_eq_true, Bool.not_eq_true', List.contains_eq_mem, decide_eq_false_iff_not,
    List.isEmpty_eq_false_iff] at h
  refine ⟨h.1, ?_⟩
  cases hc : isComp n with
  | false => rfl
  | true =>
    exfalso
    apply h.2
    simp only [isComp, Bool.or_eq_true, decide_eq_true_eq] at hc
    rcases hc with ((hc | hc) | hc) | hc <;> rw [hc] <;> decide

theorem takeWhile_stop (a b : Name) (h : '.' ∉ a) : (a ++ '.' :: b).takeWhile (· ≠ '.') = a := by
  induction a with
  | nil => simp
  | cons c r ih =>
    simp only [List.mem_cons, not_or] at h
    have : (c ≠ '.') := fun x => h.1 x.symm
    simp only [List.cons_append, List.takeWhile_cons, this, ne_eq, not_false_eq_true, decide_true, if_true]
    rw [ih h.2]

theorem takeWhile_all (a : Name) (h : '.' ∉ a) : a.takeWhile (· ≠ '.') = a := by
  induction a with
  | nil => rfl
  | cons c r ih =>
    simp only [List.mem_cons, not_or] at h
    have : (c ≠ '.') := fun x => h.1 x.symm
    simp only [List.takeWhile_cons, this, ne_eq, not_false_eq_true, decide_true, if_true]
    rw [ih h.2]

theorem shorten_qual (outer : Option Name) (n : Name) (h1 : n.getLast? = some '>') (h2 : '.' ∉ n) :
    shorten (qual outer n) = n := by
  have hl : lastPart (qual outer n) = n := by
    cases outer with
    | none =>
      simp only [lastPart, qual]
      rw [takeWhile_all _ (by simpa using h2), List.reverse_reverse]
    | some o =>
      simp only [lastPart, qual, List.reverse_append, List.reverse_cons, List.append_assoc, List.singleton_append]
      rw [takeWhile_stop _ _ (by simpa using h2), List.reverse_reverse]
  have hg : (qual outer n).getLast? = some '>' := by
    cases outer with
    | none => exact h1
    | some o =>
      simp only [qual]
      rw [List.getLast?_append, List.getLast?_cons, h1]
      rfl
  rw [shorten, if_pos hg, hl]

theorem kind_text (k : Kind) : k.text.getLast? = some '>' ∧ '.' ∉ k.text ∧ isComp k.text = true ∧ k.text ≠ [] := by
  cases k <;> decide

/-- The name of what is called. -/
theorem callName_ent : ∀ {f : Expr}, ok f = true → callee f = true → known f = true →
    callName (ent f).instr = nameOf f ∧ (nameOf f ≠ none → (ent f).instr.line = f.pos.line) ∧
      ∀ n, nameOf f = some n → n ≠ [] ∧ isComp n = false := by
  intro f h1 h2 h3
  cases f with
  | name p n =>
    simp only [ok] at h1
    refine ⟨by simp [ent, ins, callName, Instr.op, Instr.arg, nameOf, shorten_name h1], fun _ => rfl, ?_⟩
    intro m hm
    simp only [nameOf, Option.some.injEq] at hm
    subst hm; exact name_plain h1
  | const p s =>
    cases s with
    | none => exact ⟨rfl, by simp [nameOf], by simp [nameOf]⟩
    | some t => simp [callee] at h2
  | attr p o n =>
    simp only [ok, Bool.and_eq_true] at h1
    refine ⟨by simp [ent, ins, callName, Instr.op, Instr.arg, nameOf, shorten_name h1.2], fun _ => rfl, ?_⟩
    intro m hm
    simp only [nameOf, Option.some.injEq] at hm
    subst hm; exact name_plain h1.2
  | call p g args kws =>
    refine ⟨?_, by simp [nameOf], by simp [nameOf]⟩
    simp only [ent, lastIns, nameOf]
    split
    · split <;> rfl
    · rfl
  | callStar => exact ⟨rfl, by simp [nameOf], by simp [nameOf]⟩
  | binary => exact ⟨rfl, by simp [nameOf], by simp [nameOf]⟩
  | subscr p o i =>
    refine ⟨rfl, fun _ => rfl, ?_⟩
    intro m hm
    simp only [nameOf, Option.some.injEq] at hm
    subst hm
    exact ⟨by decide, by decide⟩
  | compare => simp [callee] at h2
  | unary => simp [callee] at h2
  | display => exact ⟨rfl, by simp [nameOf], by simp [nameOf]⟩
  | dict => exact ⟨rfl, by simp [nameOf], by simp [nameOf]⟩
  | lam p outer =>
    refine ⟨?_, fun _ => rfl, ?_⟩
    · simp only [ent, ins, callName, Instr.op, Instr.arg, nameOf]
      rw [shorten_qual _ _ (by decide) (by decide)]
    · intro m hm
      simp only [nameOf, Option.some.injEq] at hm
      subst hm
      exact ⟨by decide, by decide⟩
  | comp => exact ⟨rfl, by simp [nameOf], by simp [nameOf]⟩
  | bool => simp [known] at h3
  | ifExp => simp [known] at h3

theorem handleCall_ent {f : Expr} (h1 : ok f = true) (h2 : callee f = true) (h3 : known f = true) (p : At) (i : Instr)
    (hi : i.offset = p.offset) (s : St) :
    handleCall (ent f) i s = { stack := { instr := i } :: s.stack, calls := s.calls ++ named f p } := by
  obtain ⟨a, b, c⟩ := callName_ent h1 h2 h3
  unfold handleCall named
  rw [a]
  cases hn : nameOf f with
  | none => simp
  | some n =>
    obtain ⟨c1, c2⟩ := c n hn
    simp only [c1, c2, if_false, Bool.false_eq_true, hi, b (by rw [hn]; simp)]

/-- A call with everything known. -/
theorem popAndCall_known {f : Expr} (h1 : ok f = true) (h2 : callee f = true) (args : List Expr)
    (hk : knownAll (f :: args) = true) (p : At) (i : Instr) (hi : i.offset = p.offset) (σ : List Entry) (cs : List Target) :
    popAndCall args.length i { stack := finals σ (f :: args), calls := cs } =
      { stack := { instr := i } :: (if branchesAny (f :: args) then [] else σ), calls := cs ++ named f p } := by
  have h3 : known f = true := by
    simp only [knownAll, Bool.and_eq_true] at hk; exact hk.1
  have hd : (finals σ (f :: args)).drop args.length = ent f :: if branchesAny (f :: args) then [] else σ := by
    rw [finals_known hk]
    simp only [List.map_cons, List.reverse_cons, List.append_assoc, List.singleton_append]
    rw [List.drop_append_of_le_length (by simp), List.drop_of_length_le (by simp)]
    rfl
  unfold popAndCall
  simp only [hd]
  rw [handleCall_ent h1 h2 h3 p i hi]

theorem popAndCall_unknown {es : List Expr} (hk : knownAll es = false) (i : Instr) (σ : List Entry) (cs : List Target)
    (n : Nat) (hn : es.length ≤ n + 1) :
    popAndCall n i { stack := finals σ es, calls := cs } = { stack := [], calls := cs } := by
  unfold popAndCall
  have : (finals σ es).drop n = [] := by
    apply List.drop_of_length_le
    have := finals_unknown hk σ
    omega
  simp only [this]

theorem operator_known {l r : Expr} (hk : knownAll [l, r] = true) (t : Name) (i : Instr) (σ : List Entry)
    (cs : List Target) :
    operator t i { stack := finals σ [l, r], calls := cs } =
      { stack := { instr := i } :: (if branchesAny [l, r] then [] else σ), calls := cs ++ [.mk t i.line i.offset []] } := by
  unfold operator
  rw [finals_known hk]
  simp

theorem operator_unknown {l r : Expr} (hk : knownAll [l, r] = false) (t : Name) (i : Instr) (σ : List Entry)
    (cs : List Target) :
    operator t i { stack := finals σ [l, r], calls := cs } = { stack := [], calls := cs } := by
  unfold operator
  have h := finals_unknown hk σ
  generalize finals σ [l, r] = st at h
  match st with
  | [] => rfl
  | [_] => rfl
  | _ :: _ :: _ => simp at h; omega

theorem argc_small {n : Nat} (h : n < 256) : argc n = n := by
  unfold argc
  rw [Nat.mod_eq_of_lt h, Nat.div_eq_of_lt h]; omega

theorem own_simple (o : Op) (a : Arg) (p : At) (h : ∀ b, a ≠ .code b) : own (ins o a p) = [] := by
  cases a with
  | code b => exact absurd rfl (h b)
  | none => simp [ins, own, ownArg]
  | str s => simp [ins, own, ownArg]
  | num n => simp [ins, own, ownArg]

theorem method_text {b : BinOp} (h : b ≠ .truediv) : b.text = method b := by
  cases b <;> first | rfl | exact absurd rfl h

theorem cmp_text (c : CmpOp) : c.text = cmpMethod c := by cases c <;> rfl

/-- What an expression leaves. -/
def After (s : St) (e : Expr) : St := { stack := final s.stack e, calls := s.calls ++ offered e }

def AfterAll (s : St) (es : List Expr) : St := { stack := finals s.stack es, calls := s.calls ++ offeredAll es }

theorem run_ops (p : At) (s : St) (a b : Expr) (t : Name) (i : Instr) (hi : i.line = p.line ∧ i.offset = p.offset) :
    operator t i { stack := final (final s.stack a) b, calls := s.calls ++ offered a ++ offered b } =
      { stack := if branches a || branches b then (if known a && !branches b then [{ instr := i }] else [])
          else { instr := i } :: s.stack
        calls := s.calls ++ (offered a ++ offered b ++ onlyIf (known a && !branches b) [.mk t p.line p.offset []]) } := by
  have hf : final (final s.stack a) b = finals s.stack [a, b] := rfl
  have hk : knownAll [a, b] = (known a && !branches b) := by simp [knownAll, branchesAny]
  have hb : branchesAny [a, b] = (branches a || branches b) := by simp [branchesAny]
  rw [hf]
  cases hx : (known a && !branches b) with
  | true =>
    rw [operator_known (by rw [hk, hx]), hb, hi.1, hi.2]
    simp only [onlyIf, if_true, List.append_assoc]
    cases branches a || branches b <;> simp
  | false =>
    rw [operator_unknown (by rw [hk, hx])]
    have : (branches a || branches b) = true := by
      cases h1 : branches a with
      | true => simp
      | false => rw [known_of_not_branches a h1] at hx; simpa using hx
    simp [onlyIf, this]

end StepCalls
