import Verif.HitCond.Model
/-! Property C20: hit conditions. -/

namespace HitCond

/-! ### Specification -/

/-- The documented relations. -/
inductive Form where
  | eq | ge | gt | le | lt | mod
deriving DecidableEq, Repr

def Form.text : Form → List Char
  | .eq => c!"=="
  | .ge => c!">="
  | .gt => c!">"
  | .le => c!"<="
  | .lt => c!"<"
  | .mod => c!"%"

/-- Does hit number `k` satisfy the relation with `n`? -/
def Form.holds (k n : Nat) : Form → Prop
  | .eq => k = n
  | .ge => k ≥ n
  | .gt => k > n
  | .le => k ≤ n
  | .lt => k < n
  | .mod => n ≠ 0 ∧ n ∣ k

/-! ### Lexing numbers -/

theorem natStr_head_zero (n : Nat) (h : (Py.natStr n).head? = some '0') : n = 0 := by
  induction n using Py.natStr.induct with
  | case1 n hn =>
    rw [Py.natStr, if_pos hn] at h
    simp only [List.head?_cons, Option.some.injEq] at h
    have := Py.toNat_digitChar hn
    rw [h] at this
    have h0 : '0'.toNat = 48 := rfl
    omega
  | case2 n hn ih =>
    rw [Py.natStr, if_neg hn] at h
    have h' : (Py.natStr (n / 10)).head? = some '0' := by
      cases hc : Py.natStr (n / 10) with
      | nil => exact absurd hc (Py.natStr_ne_nil _)
      | cons c cs => rw [hc] at h; simpa using h
    have := ih h'
    omega

theorem literal_natStr (n : Nat) : literal (Py.natStr n) = some n := by
  rw [literal, Py.parseDigits_natStr]
  simp only
  rw [if_neg]
  rintro ⟨h, hn⟩
  exact hn (natStr_head_zero n h)

theorem lex_digits (ds rest cur : List Char) (started : Bool) (hs : started = false → cur = [])
    (h : ∀ c ∈ ds, Py.isDigit c = true) (hne : started = true ∨ ds ≠ []) :
    lex (ds ++ rest) (if started then some cur else none) = lex rest (some (cur ++ ds)) := by
  induction ds generalizing cur started with
  | nil =>
    rcases hne with h1 | h1
    · simp [h1]
    · exact absurd rfl h1
  | cons d ds ih =>
    have hd : isLitChar d (if started then some cur else none).isSome = true := by
      simp [isLitChar, h d (by simp)]
    rw [List.cons_append, lex, if_pos hd]
    have h1 : (if started then some cur else none).getD [] = cur := by
      cases started with
      | true => rfl
      | false => rw [hs rfl]; rfl
    rw [h1]
    have := ih (cur ++ [d]) true (by simp) (fun c hc => h c (by simp [hc])) (.inl rfl)
    simp only [if_true] at this
    rw [this]
    simp

/-- A number followed by the end. -/
theorem lex_nat_end (n : Nat) : lex (Py.natStr n) none = some [.int n] := by
  have := lex_digits (Py.natStr n) [] [] false (fun _ => rfl) (Py.natStr_digits n) (.inr (Py.natStr_ne_nil n))
  simp only [List.append_nil, Bool.false_eq_true, if_false, List.nil_append] at this
  rw [this, lex, flush, literal_natStr]; rfl

/-- A number followed by a space. -/
theorem lex_nat_space (n : Nat) (rest : List Char) :
    lex (Py.natStr n ++ ' ' :: rest) none = (lex rest none).map (.int n :: ·) := by
  have := lex_digits (Py.natStr n) (' ' :: rest) [] false (fun _ => rfl) (Py.natStr_digits n) (.inr (Py.natStr_ne_nil n))
  simp only [Bool.false_eq_true, if_false, List.nil_append] at this
  rw [this, lex, if_neg (by simp [isLitChar, Py.isDigit]), flush, literal_natStr]
  simp

theorem lex_blanks (m : Nat) (rest : List Char) : lex (List.replicate m ' ' ++ rest) none = lex rest none := by
  induction m with
  | zero => rfl
  | succ m ih =>
    rw [List.replicate_succ, List.cons_append, lex, if_neg (by decide), flush]
    simp [ih]

/-- What the evaluator says of `k <form> n`, with any blanks between. -/
def toks (f : Form) (k n : Nat) : List Tok :=
  match f with
  | .eq => [.int k, .cmp .eq, .int n]
  | .ge => [.int k, .cmp .ge, .int n]
  | .gt => [.int k, .cmp .gt, .int n]
  | .le => [.int k, .cmp .le, .int n]
  | .lt => [.int k, .cmp .lt, .int n]
  | .mod => [.int k, .mod, .int n, .cmp .eq, .int 0]

/-- The text evaluated on hit `k`. -/
def evalText (f : Form) (m k n : Nat) : List Char :=
  Py.natStr k ++ ' ' :: (f.text ++ (List.replicate m ' ' ++ Py.natStr n)) ++ (if f = .mod then c!" == 0" else [])

theorem not_eq_of_digit {c : Char} (x : Char) (hx : Py.isDigit x = false) (h : Py.isDigit c = true) : c ≠ x := by
  rintro rfl; rw [hx] at h; cases h

theorem lex_gt (rest : List Char) (h : ∀ r, rest ≠ '=' :: r) :
    lex ('>' :: rest) none = (lex rest none).map (.cmp .gt :: ·) := by
  rw [lex, if_neg (by decide), flush]
  cases rest with
  | nil => simp
  | cons c cs =>
    have : c ≠ '=' := by rintro rfl; exact h cs rfl
    simp [this]

theorem lex_lt (rest : List Char) (h : ∀ r, rest ≠ '=' :: r) :
    lex ('<' :: rest) none = (lex rest none).map (.cmp .lt :: ·) := by
  rw [lex, if_neg (by decide), flush]
  cases rest with
  | nil => simp
  | cons c cs =>
    have : c ≠ '=' := by rintro rfl; exact h cs rfl
    simp [this]

theorem blanks_nat_not_eq (m n : Nat) : ∀ r, List.replicate m ' ' ++ Py.natStr n ≠ '=' :: r := by
  intro r h
  cases m with
  | zero =>
    simp only [List.replicate_zero, List.nil_append] at h
    have := Py.natStr_digits n '=' (by rw [h]; simp)
    exact absurd this (by decide)
  | succ m => rw [List.replicate_succ, List.cons_append] at h; exact absurd (List.cons.inj h).1 (by decide)

theorem lex_tail (m n : Nat) : lex (List.replicate m ' ' ++ Py.natStr n) none = some [.int n] := by
  rw [lex_blanks, lex_nat_end]

theorem lex_evalText (f : Form) (m k n : Nat) : lex (evalText f m k n) none = some (toks f k n) := by
  unfold evalText
  rw [List.append_assoc, List.cons_append, lex_nat_space]
  cases f with
  | eq => simp [Form.text, toks, lex, isLitChar, flush, Py.isDigit, lex_tail]
  | ge => simp [Form.text, toks, lex, isLitChar, flush, Py.isDigit, lex_tail]
  | le => simp [Form.text, toks, lex, isLitChar, flush, Py.isDigit, lex_tail]
  | gt =>
    simp only [Form.text, reduceCtorEq, if_false, List.append_nil, List.cons_append, List.nil_append]
    rw [lex_gt _ (blanks_nat_not_eq m n), lex_tail]; rfl
  | lt =>
    simp only [Form.text, reduceCtorEq, if_false, List.append_nil, List.cons_append, List.nil_append]
    rw [lex_lt _ (blanks_nat_not_eq m n), lex_tail]; rfl
  | mod =>
    simp only [Form.text, if_true, List.cons_append, List.nil_append, List.append_assoc]
    rw [lex, if_neg (by decide), flush]
    simp only [decide_true, if_true, List.nil_append, reduceCtorEq, decide_false, Bool.or_self, Bool.false_eq_true, if_false]
    rw [lex_blanks, lex_nat_space]
    simp [lex, isLitChar, flush, Py.isDigit, literal, Py.parseDigits, Py.digitVal, toks]

theorem eval_toks (f : Form) (k n : Nat) (e : List Char) (h : lex e none = some (toks f k n)) :
    (evalExpr e).getD false = true ↔ f.holds k n := by
  unfold evalExpr
  rw [h]
  cases f with
  | mod =>
    simp only [toks, List.length_cons, List.length_nil, arith, unary, modRest]
    by_cases hn : (n : Int) = 0
    · have : n = 0 := by omega
      simp [Form.holds, this]
    · have hn' : n ≠ 0 := by omega
      simp only [hn, if_false]
      simp only [cmpRest, arith, unary, modRest, Option.map_some, compare, Form.holds, hn', ne_eq, not_false_eq_true,
        true_and, Option.getD_some, Bool.and_true, decide_eq_true_eq, Int.natCast_zero]
      rw [Int.fmod_eq_emod_of_nonneg _ (by omega)]
      rw [show ((k : Int) % (n : Int)) = ((k % n : Nat) : Int) from (Int.natCast_emod k n).symm]
      rw [Nat.dvd_iff_mod_eq_zero]
      constructor
      · intro h; exact_mod_cast h
      · intro h; exact_mod_cast h
  | _ =>
    simp [toks, arith, unary, modRest, cmpRest, compare, Form.holds] <;> omega

theorem noAt_natStr (n : Nat) : '@' ∉ Py.natStr n := by
  intro h
  exact absurd (Py.natStr_digits n _ h) (by decide)

/-- Stripping a text whose first and last characters are not white space. -/
theorem strip_core (a b s : List Char) (ha : ∀ c ∈ a, Py.isSpace c = true) (hb : ∀ c ∈ b, Py.isSpace c = true)
    (h1 : ∃ c, s.head? = some c ∧ Py.isSpace c = false) (h2 : ∃ c, s.getLast? = some c ∧ Py.isSpace c = false) :
    Py.strip (a ++ s ++ b) = s := by
  have dropAll : ∀ (l r : List Char), (∀ c ∈ l, Py.isSpace c = true) →
      (l ++ r).dropWhile Py.isSpace = r.dropWhile Py.isSpace := by
    intro l r hl
    induction l with
    | nil => rfl
    | cons c cs ih =>
      simp only [List.cons_append, List.dropWhile, hl c (by simp)]
      exact ih (fun x hx => hl x (by simp [hx]))
  obtain ⟨c, hc, hcs⟩ := h1
  obtain ⟨d, hd, hds⟩ := h2
  cases s with
  | nil => cases hc
  | cons x xs =>
    simp only [List.head?_cons, Option.some.injEq] at hc
    subst hc
    unfold Py.strip Py.rstrip Py.lstrip
    rw [List.append_assoc, dropAll _ _ ha, List.cons_append, List.dropWhile_cons_of_neg (by simp [hcs]),
      ← List.cons_append, List.reverse_append, dropAll _ _ (by simpa using hb)]
    have hrev : ∃ ys, (x :: xs).reverse = d :: ys := by
      rw [List.getLast?_eq_head?_reverse] at hd
      cases hr : (x :: xs).reverse with
      | nil => simp at hr
      | cons y ys => rw [hr] at hd; simp at hd; exact ⟨ys, by rw [hd]⟩
    obtain ⟨ys, hys⟩ := hrev
    rw [hys, List.dropWhile_cons_of_neg (by simp [hds]), ← hys, List.reverse_reverse]

theorem natStr_getLast (n : Nat) : ∃ c, (Py.natStr n).getLast? = some c ∧ Py.isSpace c = false := by
  cases h : (Py.natStr n).getLast? with
  | none => rw [List.getLast?_eq_none_iff] at h; exact absurd h (Py.natStr_ne_nil n)
  | some c =>
    exact ⟨c, rfl, Py.not_isSpace_of_isDigit (Py.natStr_digits n c (List.mem_of_getLast? h))⟩

/-- The stripped text of a relational condition. -/
def core (f : Form) (m n : Nat) : List Char := f.text ++ (List.replicate m ' ' ++ Py.natStr n)

theorem core_head (f : Form) (m n : Nat) : ∃ c, (core f m n).head? = some c ∧ Py.isSpace c = false := by
  cases f <;> exact ⟨_, rfl, by decide⟩

theorem core_last (f : Form) (m n : Nat) : ∃ c, (core f m n).getLast? = some c ∧ Py.isSpace c = false := by
  unfold core
  rw [← List.append_assoc, List.getLast?_append]
  obtain ⟨c, h, hs⟩ := natStr_getLast n
  exact ⟨c, by simp [h], hs⟩

theorem core_not_int (f : Form) (m n : Nat) : Py.parseInt (core f m n) = none := by
  have hs : Py.strip (core f m n) = core f m n := by
    have := strip_core [] [] (core f m n) (by simp) (by simp) (core_head f m n) (core_last f m n)
    simpa using this
  unfold Py.parseInt
  rw [hs]
  cases f <;> simp [core, Form.text, Py.parseDigits, Py.isDigit]

theorem core_noAt (f : Form) (m n : Nat) : '@' ∉ core f m n := by
  have := noAt_natStr n
  cases f <;> simp [core, Form.text, this]

theorem replace_hit (s : List Char) (k : Nat) (h : '@' ∉ s) :
    Py.replaceAll c!"@HIT@" (Py.natStr k) (c!"@HIT@" ++ s) = Py.natStr k ++ s := by
  rw [Py.replaceAll_prefix _ _ _ (by simp), Py.replaceAll_of_not_mem _ _ _ _ h]

/-- The condition stored for a relational form. -/
theorem hitExpr_form (f : Form) (m n : Nat) (a b : List Char) (ha : ∀ c ∈ a, Py.isSpace c = true)
    (hb : ∀ c ∈ b, Py.isSpace c = true) :
    hitExpr (a ++ core f m n ++ b) = some (c!"@HIT@" ++ (' ' :: core f m n ++ (if f = .mod then c!" == 0" else []))) := by
  have hs := strip_core a b (core f m n) ha hb (core_head f m n) (core_last f m n)
  have hne : a ++ core f m n ++ b ≠ [] := by
    intro h
    rw [List.append_eq_nil_iff, List.append_eq_nil_iff] at h
    have := core_head f m n
    rw [h.1.2] at this
    simp at this
  unfold hitExpr
  simp only [hne, if_false, hs, core_not_int, Option.isSome_none, Bool.false_eq_true]
  cases f <;> simp [core, Form.text, Py.startsWith, List.isPrefixOf]

/-- For every relation, number and hit ordinal: with the condition `<relation> n` (any white space around, any
blanks in between), hit number `k` stops exactly when `k` satisfies the relation. -/
theorem c20_relation (f : Form) (n k m : Nat) (a b : List Char) (ha : ∀ c ∈ a, Py.isSpace c = true)
    (hb : ∀ c ∈ b, Py.isSpace c = true) :
    (handleHit (hitExpr (a ++ (f.text ++ (List.replicate m ' ' ++ Py.natStr n)) ++ b)) k).2 = true ↔
      f.holds (k + 1) n := by
  have hx := hitExpr_form f m n a b ha hb
  unfold core at hx
  rw [hx]
  simp only [List.cons_append, List.nil_append, handleHit, evalHit]
  rw [show ('@' :: 'H' :: 'I' :: 'T' :: '@' :: (' ' :: (f.text ++ (List.replicate m ' ' ++ Py.natStr n) ++
      if f = Form.mod then c!" == 0" else []))) = c!"@HIT@" ++ (' ' :: (f.text ++ (List.replicate m ' ' ++ Py.natStr n) ++
      if f = Form.mod then c!" == 0" else [])) from rfl]
  rw [replace_hit]
  · refine eval_toks f (k + 1) n _ ?_
    have := lex_evalText f m (k + 1) n
    unfold evalText at this
    rw [← this, List.append_assoc]
    simp
  · have h1 := core_noAt f m n
    unfold core at h1
    simp only [List.mem_cons, List.mem_append, not_or] at h1 ⊢
    refine ⟨by decide, h1, ?_⟩
    split <;> simp

/-- A bare number `n` (with white space around) stops exactly on hit `n`. -/
theorem c20_bare_number (n k : Nat) (a b : List Char) (ha : ∀ c ∈ a, Py.isSpace c = true)
    (hb : ∀ c ∈ b, Py.isSpace c = true) :
    (handleHit (hitExpr (a ++ Py.natStr n ++ b)) k).2 = true ↔ k + 1 = n := by
  have hd := Py.natStr_digits n
  have hs : Py.strip (a ++ Py.natStr n ++ b) = Py.natStr n :=
    Py.strip_wrap ha hb (fun c hc => Py.not_isSpace_of_isDigit (hd c hc)) (Py.natStr_ne_nil n)
  have hp : Py.parseInt (Py.natStr n) = some (n : Int) :=
    Py.parse_core (n : Int) _ (Py.strip_eq_self (fun c hc => Py.not_isSpace_of_isDigit (hd c hc)))
  have hne : a ++ Py.natStr n ++ b ≠ [] := by
    intro h
    rw [List.append_eq_nil_iff, List.append_eq_nil_iff] at h
    exact Py.natStr_ne_nil n h.1.2
  unfold hitExpr
  simp only [hne, if_false, hs, hp, Option.isSome_some, if_true]
  rw [show c!"@HIT@ == " ++ Py.natStr n = c!"@HIT@" ++ (c!" == " ++ Py.natStr n) from rfl]
  simp only [handleHit, evalHit, List.cons_append, List.nil_append]
  rw [show ('@' :: 'H' :: 'I' :: 'T' :: '@' :: ' ' :: '=' :: '=' :: ' ' :: Py.natStr n) = c!"@HIT@" ++ (c!" == " ++ Py.natStr n) from rfl]
  rw [replace_hit]
  · refine eval_toks .eq (k + 1) n _ ?_
    have := lex_evalText .eq 1 (k + 1) n
    unfold evalText at this
    rw [← this]
    simp [Form.text]
  · have := noAt_natStr n
    simp [this]

/-- A number written with a leading zero is accepted and never stops: Python rejects the literal. -/
theorem c20_leading_zero_never_stops (k : Nat) : (handleHit (hitExpr c!"05") k).2 = false := by
  have h : hitExpr c!"05" = some (c!"@HIT@" ++ c!" == 05") := by decide
  rw [h]
  simp only [handleHit, evalHit, List.cons_append, List.nil_append]
  rw [show ('@' :: 'H' :: 'I' :: 'T' :: '@' :: c!" == 05") = c!"@HIT@" ++ c!" == 05" from rfl, replace_hit _ _ (by decide)]
  have : lex (Py.natStr (k + 1) ++ c!" == 05") none = none := by
    rw [lex_nat_space]; rfl
  simp [evalExpr, this]

/-- No hit condition: the hit is neither counted nor a reason to stop. -/
theorem c20_no_condition (k : Nat) : handleHit (hitExpr []) k = (k, false) := rfl

/-- The results of `n` hits one after the other, starting from a counter value. -/
def hits (cond : Option (List Char)) : Nat → Nat → List Bool
  | _, 0 => []
  | count, n + 1 => (handleHit cond count).2 :: hits cond (handleHit cond count).1 n

theorem hits_eq (c : List Char) (hc : c ≠ []) (n count : Nat) :
    hits (some c) count n = (List.range n).map (fun i => (handleHit (some c) (count + i)).2) := by
  induction n generalizing count with
  | zero => rfl
  | succ n ih =>
    cases c with
    | nil => exact absurd rfl hc
    | cons x xs =>
      rw [hits, ih, List.range_succ_eq_map, List.map_cons, List.map_map]
      simp only [handleHit, Nat.add_zero, List.cons.injEq, true_and]
      apply List.map_congr_left
      intro i _
      simp only [Function.comp, Nat.add_right_comm count 1 i, Nat.succ_eq_add_one, Nat.add_assoc]

/-- Any number of hits in sequence: hit number `i` (from 1) stops exactly when `i` satisfies the relation. -/
theorem c20_sequence (f : Form) (n m total : Nat) (i : Nat) (hi : i < total) :
    (hits (hitExpr (f.text ++ (List.replicate m ' ' ++ Py.natStr n))) 0 total)[i]? = some true ↔
      f.holds (i + 1) n := by
  have hx := hitExpr_form f m n [] [] (by simp) (by simp)
  have hr := c20_relation f n i m [] [] (by simp) (by simp)
  simp only [core, List.nil_append, List.append_nil] at hx hr
  rw [hx] at hr ⊢
  rw [hits_eq _ (by simp)]
  simp only [Nat.zero_add, List.getElem?_map, List.getElem?_range hi, Option.map_some, Option.some.injEq]
  exact hr

/-! ### Several threads -/

open Classical in
structure Inv (cond : List Char) (s : State) : Prop where
  owner : ∀ t, s.phase t ≠ .idle ↔ s.owner = some t
  counted : ∀ t n, s.phase t = .counted n → n = s.count
  results : s.results.map (·.2) = s.ordinals.map (evalHit cond)
  done : s.ordinals = (List.range s.ordinals.length).map (· + 1)
  count : s.count = s.ordinals.length + (if ∃ t n, s.owner = some t ∧ s.phase t = .counted n then 1 else 0)

theorem inv_start (cond : List Char) : Inv cond {} := by
  constructor <;> simp

theorem inv_step (cond : List Char) {s : State} (hi : Inv cond s) (a : Action) : Inv cond (step cond s a) := by
  obtain ⟨h1, h2, h3, h4, h5⟩ := hi
  cases a with
  | acquire t =>
    simp only [step]
    split
    · rename_i h
      have hno : ∀ u, s.phase u = .idle := by
        intro u
        by_cases hu : s.phase u = .idle
        · exact hu
        · have := (h1 u).1 hu; rw [h.2] at this; cases this
      constructor
      · intro u
        by_cases hu : u = t
        · subst hu; simp [setPhase]
        · simp [setPhase, hu, hno u, Ne.symm hu]
      · intro u n
        by_cases hu : u = t
        · subst hu; simp [setPhase]
        · simp [setPhase, hu, hno u]
      · exact h3
      · exact h4
      · have e1 : ¬ ∃ u n, s.owner = some u ∧ s.phase u = .counted n := by
          rintro ⟨u, n, hu, _⟩; rw [h.2] at hu; cases hu
        have e2 : ¬ ∃ u n, (some t : Option Nat) = some u ∧ setPhase s.phase t .locked u = .counted n := by
          rintro ⟨u, n, hu, hp⟩; cases hu; simp [setPhase] at hp
        rw [if_neg e1] at h5
        simp only [if_neg e2]
        exact h5
    · exact ⟨h1, h2, h3, h4, h5⟩
  | count t =>
    simp only [step]
    split
    · rename_i h
      have ht : s.owner = some t := (h1 t).1 (by rw [h]; simp)
      have e1 : ¬ ∃ u n, s.owner = some u ∧ s.phase u = .counted n := by
        rintro ⟨u, n, hu, hp⟩; rw [ht] at hu; cases hu; rw [h] at hp; cases hp
      have hno : ∀ u, u ≠ t → s.phase u = .idle := by
        intro u hu
        by_cases hc : s.phase u = .idle
        · exact hc
        · have := (h1 u).1 hc; rw [ht] at this; cases this; exact absurd rfl hu
      constructor
      · intro u
        by_cases hu : u = t
        · subst hu; simp [setPhase, ht]
        · simp [setPhase, hu, hno u hu, ht, Ne.symm hu]
      · intro u n
        by_cases hu : u = t
        · subst hu; simp only [setPhase, if_true, Phase.counted.injEq]; exact fun h => h.symm
        · simp [setPhase, hu, hno u hu]
      · exact h3
      · exact h4
      · rw [if_neg e1] at h5
        have e2 : ∃ u n, s.owner = some u ∧ setPhase s.phase t (.counted (s.count + 1)) u = .counted n :=
          ⟨t, s.count + 1, ht, by simp [setPhase]⟩
        simp only [if_pos e2]
        omega
    · exact ⟨h1, h2, h3, h4, h5⟩
  | finish t =>
    simp only [step]
    split
    · rename_i n h
      have ht : s.owner = some t := (h1 t).1 (by rw [h]; simp)
      have e1 : ∃ u n, s.owner = some u ∧ s.phase u = .counted n := ⟨t, n, ht, h⟩
      rw [if_pos e1] at h5
      have hno : ∀ u, u ≠ t → s.phase u = .idle := by
        intro u hu
        by_cases hc : s.phase u = .idle
        · exact hc
        · have := (h1 u).1 hc; rw [ht] at this; cases this; exact absurd rfl hu
      constructor
      · intro u
        by_cases hu : u = t
        · subst hu; simp [setPhase]
        · simp [setPhase, hu, hno u hu]
      · intro u m
        by_cases hu : u = t
        · subst hu; simp [setPhase]
        · simp [setPhase, hu, hno u hu]
      · simp [h3]
      · rw [List.length_append, List.length_singleton, List.range_succ, List.map_append, ← h4, h5]
        simp
      · have e2 : ¬ ∃ u m, (none : Option Nat) = some u ∧ setPhase s.phase t .idle u = .counted m := by
          rintro ⟨u, m, hu, _⟩; cases hu
        simp only [if_neg e2, List.length_append, List.length_singleton]
        omega
    · exact ⟨h1, h2, h3, h4, h5⟩

/-- For every interleaving of any number of threads: the hits that were decided got the ordinals 1, 2, 3, …,
each once and in order, and each result is that of its ordinal. -/
theorem c20_counted_once (cond : List Char) (as : List Action) :
    (run cond as).results.map (·.2) =
      (List.range (run cond as).results.length).map (fun i => evalHit cond (i + 1)) := by
  have hi : Inv cond (run cond as) := by
    have : ∀ s, Inv cond s → Inv cond (as.foldl (step cond) s) := by
      intro s hs
      induction as generalizing s with
      | nil => exact hs
      | cons a as ih => exact ih _ (inv_step cond hs a)
    exact this _ (inv_start cond)
  have hlen : (run cond as).results.length = (run cond as).ordinals.length := by
    have := congrArg List.length hi.results
    simpa using this
  rw [hi.results, hi.done, List.map_map, hlen]
  simp

example : (run c!"@HIT@ >= 2" [.acquire 1, .acquire 2, .count 1, .finish 1, .acquire 2, .count 2, .acquire 1, .finish 2]).results
    = [(1, false), (2, true)] := by
  decide +kernel
example : hitExpr c!" >= 3 " = some c!"@HIT@ >= 3" := by decide
example : Form.holds 6 3 .mod := ⟨by decide, 2, rfl⟩
example : ∀ c ∈ c!" \t", Py.isSpace c = true := by decide

end HitCond
