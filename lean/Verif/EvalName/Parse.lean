import Verif.EvalName.Spec
/-!
A reader for the grammar of `Spec`.  It finds every reading the grammar has, and as it finds one only, the
grammar reads no text in two ways.
-/

namespace EvalName

/-! ### The reader -/

def bodyP : Nat → Char → Str → Option (Str × Str)
  | 0, _, _ => none
  | f + 1, q, s =>
    if s.head? = some q then some ([], s.tail)
    else match readChar q s with
      | some (c, r) =>
        match bodyP f q r with
        | some (t, r') => some (c :: t, r')
        | none => none
      | none => none

def natP (s : Str) : Option (Nat × Str) :=
  let d := s.takeWhile Py.isDigit
  if d = [] ∨ (d.head? = some '0' ∧ d.length ≠ 1) then none
  else some (natOf d, s.dropWhile Py.isDigit)

def wordP (s : Str) : Option (Key × Str) :=
  let t := s.takeWhile idCont
  if t = c!"None" then some (.none, s.dropWhile idCont)
  else if t = c!"True" then some (.bool true, s.dropWhile idCont)
  else if t = c!"False" then some (.bool false, s.dropWhile idCont)
  else none

mutual
def litP : Nat → Str → Option (Key × Str)
  | 0, _ => none
  | f + 1, s =>
    match s with
    | [] => none
    | c :: r =>
      if c = '(' then
        if r.head? = some ')' then some (.tuple [], r.tail)
        else match litP f r with
          | none => none
          | some (k, r') =>
            if r'.take 2 = c!",)" then some (.tuple [k], r'.drop 2)
            else match restP f r' with
              | some (k' :: l, r'') => some (.tuple (k :: k' :: l), r'')
              | _ => none
      else if c = '-' then (natP r).map fun x => (.int (-(x.1 : Int)), x.2)
      else if c = '\'' ∨ c = '"' then (bodyP f c r).map fun x => (.str x.1, x.2)
      else if Py.isDigit c then (natP (c :: r)).map fun x => (.int x.1, x.2)
      else wordP (c :: r)
def restP : Nat → Str → Option (List Key × Str)
  | 0, _ => none
  | f + 1, s =>
    if s.head? = some ')' then some ([], s.tail)
    else if s.take 2 = c!", " then
      match litP f (s.drop 2) with
      | some (k, r) =>
        match restP f r with
        | some (l, r') => some (k :: l, r')
        | none => none
      | none => none
    else none
end

mutual
def primP : Nat → Str → Option (Expr × Str)
  | 0, _ => none
  | f + 1, s =>
    if Ident (s.takeWhile idCont) then trail f (.name (s.takeWhile idCont)) (s.dropWhile idCont) else none
def trail : Nat → Expr → Str → Option (Expr × Str)
  | 0, _, _ => none
  | f + 1, e, s =>
    match s with
    | [] => some (e, [])
    | c :: r =>
      if c = '.' then
        if Ident (r.takeWhile idCont) then trail f (.attr e (r.takeWhile idCont)) (r.dropWhile idCont) else none
      else if c = '[' then
        match exP f r with
        | some (i, r') => if r'.head? = some ']' then trail f (.sub e i) r'.tail else none
        | none => none
      else if c = '(' then
        match exP f r with
        | some (i, r') => if r'.head? = some ')' then trail f (.call e i) r'.tail else none
        | none => none
      else some (e, c :: r)
def exP : Nat → Str → Option (Expr × Str)
  | 0, _ => none
  | f + 1, s =>
    if s.head? = some '.' then
      if s.tail.takeWhile Py.isDigit = [] then none
      else sums f (.point (s.tail.takeWhile Py.isDigit)) (s.tail.dropWhile Py.isDigit)
    else match litP f s with
      | some (k, r) => sums f (.lit k) r
      | none =>
        match primP f s with
        | some (e, r) => sums f e r
        | none => none
def sums : Nat → Expr → Str → Option (Expr × Str)
  | 0, _, _ => none
  | f + 1, e, s =>
    if s.take 3 = c!" + " then
      match primP f (s.drop 3) with
      | some (i, r) => sums f (.plus e i) r
      | none => none
    else some (e, s)
end

/-! ### Tokens -/

/-- What follows does not go on with a name or number. -/
def NoId (x : Str) : Prop := ∀ c r, x = c :: r → idCont c = false

theorem noId_nil : NoId [] := by intro c r h; cases h
theorem noId_cons {c : Char} {r : Str} (h : idCont c = false) : NoId (c :: r) := by
  intro c' r' h'; cases h'; exact h

theorem noId_digit {x : Str} (h : NoId x) : ∀ c r, x = c :: r → Py.isDigit c = false := by
  intro c r hx
  have := h c r hx
  simp only [idCont, Bool.or_eq_false_iff] at this
  exact this.2

theorem takeWhile_app {p : Char → Bool} {t x : Str} (ht : ∀ c ∈ t, p c = true)
    (hx : ∀ c r, x = c :: r → p c = false) : (t ++ x).takeWhile p = t := by
  rw [List.takeWhile_append_of_pos ht]
  cases x with
  | nil => simp
  | cons c r => rw [List.takeWhile_cons, hx c r rfl]; simp

theorem dropWhile_app {p : Char → Bool} {t x : Str} (ht : ∀ c ∈ t, p c = true)
    (hx : ∀ c r, x = c :: r → p c = false) : (t ++ x).dropWhile p = x := by
  rw [List.dropWhile_append_of_pos ht]
  cases x with
  | nil => simp
  | cons c r => rw [List.dropWhile_cons, hx c r rfl]; simp

theorem isDigit_idCont {c : Char} (h : Py.isDigit c = true) : idCont c = true := by simp [idCont, h]

theorem Ident.start {s : Str} (h : Ident s) : ∃ c r, s = c :: r ∧ idStart c = true := h.1
theorem Ident.all {s : Str} (h : Ident s) : ∀ c ∈ s, idCont c = true := h.2.1

theorem ident_take {s x : Str} (h : Ident s) (hx : NoId x) : (s ++ x).takeWhile idCont = s := takeWhile_app h.all hx
theorem ident_drop {s x : Str} (h : Ident s) (hx : NoId x) : (s ++ x).dropWhile idCont = x := dropWhile_app h.all hx

/-- A character that starts a name is none of the others that begin an expression. -/
theorem idStart_ne {c d : Char} (h : idStart c = true) (hd : idStart d = false) : c ≠ d := by
  rintro rfl; rw [h] at hd; cases hd

theorem idStart_not_digit {c : Char} (h : idStart c = true) : Py.isDigit c = false := by
  cases hd : Py.isDigit c with
  | false => rfl
  | true =>
    have h0 : '0'.toNat = 48 := rfl
    have h9 : '9'.toNat = 57 := rfl
    simp only [Py.isDigit, h0, h9, Bool.and_eq_true, decide_eq_true_eq] at hd
    simp only [idStart, Bool.or_eq_true, decide_eq_true_eq] at h
    rcases h with h | h
    · simp only [Char.isAlpha, Char.isUpper, Char.isLower, Bool.or_eq_true, Bool.and_eq_true, decide_eq_true_eq, UInt32.le_iff_toNat_le] at h
      have : c.val.toNat = c.toNat := rfl
      simp at h
      omega
    · subst h
      have : ('_' : Char).toNat = 95 := rfl
      omega

/-! ### Literals -/

theorem readHex_app (x : Str) : ∀ (w acc : Nat) (s : Str) (n : Nat) (r : Str),
    readHex w acc s = some (n, r) → readHex w acc (s ++ x) = some (n, r ++ x) := by
  intro w
  induction w with
  | zero => intro acc s n r h; simp only [readHex, Option.some.injEq, Prod.mk.injEq] at h ⊢; exact ⟨h.1, by rw [h.2]⟩
  | succ w ih =>
    intro acc s n r h
    cases s with
    | nil => simp [readHex] at h
    | cons c s =>
      simp only [readHex, List.cons_append] at h ⊢
      cases hc : hexVal c with
      | none => rw [hc] at h; cases h
      | some d => rw [hc] at h; exact ih _ _ _ _ h

theorem readEscape_app {t : Str} {c : Char} {r : Str} (x : Str) (h : readEscape t = some (c, r)) :
    readEscape (t ++ x) = some (c, r ++ x) := by
  cases t with
  | nil => cases h
  | cons a s =>
    simp only [readEscape, List.cons_append] at h ⊢
    split at h
    · rename_i h1; rw [if_pos h1]; cases h; rfl
    · rename_i h1
      rw [if_neg h1]
      split at h
      · rename_i h2; rw [if_pos h2]; cases h; rfl
      · rename_i h2
        rw [if_neg h2]
        split at h
        · rename_i h3; rw [if_pos h3]; cases h; rfl
        · rename_i h3
          rw [if_neg h3]
          split at h
          · rename_i h4; rw [if_pos h4]; cases h; rfl
          · rename_i h4
            rw [if_neg h4]
            split at h
            · cases h
            · rename_i h5
              rw [if_neg h5]
              cases hx : readHex (hexWidth a) 0 s with
              | none => rw [hx] at h; cases h
              | some p =>
                obtain ⟨n, r'⟩ := p
                rw [hx] at h
                rw [readHex_app x _ _ _ _ _ hx]
                simp only [Option.map_eq_some_iff, Prod.mk.injEq] at h ⊢
                obtain ⟨y, hy, h1, h2⟩ := h
                exact ⟨y, hy, h1, by rw [h2]⟩

theorem readChar_app {q : Char} {t : Str} {c : Char} {r : Str} (x : Str) (h : readChar q t = some (c, r)) :
    readChar q (t ++ x) = some (c, r ++ x) := by
  cases t with
  | nil => cases h
  | cons a s =>
    simp only [readChar, List.cons_append] at h ⊢
    split at h
    · rename_i h1; rw [if_pos h1]; exact readEscape_app x h
    · rename_i h1
      rw [if_neg h1]
      split at h
      · cases h
      · rename_i h2; rw [if_neg h2]; cases h; rfl

theorem readChar_head {q : Char} (hq : q = '\'' ∨ q = '"') {t : Str} {c : Char} {r : Str}
    (h : readChar q t = some (c, r)) : t.head? ≠ some q := by
  cases t with
  | nil => simp
  | cons a s =>
    simp only [List.head?_cons, ne_eq, Option.some.injEq]
    rintro rfl
    have ha : a ≠ '\\' := by rcases hq with rfl | rfl <;> decide
    simp [readChar, ha] at h

theorem bodyP_of {q : Char} (hq : q = '\'' ∨ q = '"') {t s : Str} (h : Body q t s) :
    ∃ k, ∀ f, k ≤ f → ∀ x, bodyP f q (t ++ x) = some (s, x) := by
  induction h with
  | close =>
    refine ⟨1, fun f hf x => ?_⟩
    obtain ⟨f, rfl⟩ : ∃ g, f = g + 1 := ⟨f - 1, by omega⟩
    simp [bodyP]
  | char hc _ ih =>
    obtain ⟨k, hk⟩ := ih
    refine ⟨k + 1, fun f hf x => ?_⟩
    obtain ⟨f, rfl⟩ : ∃ g, f = g + 1 := ⟨f - 1, by omega⟩
    have hc' := readChar_app x hc
    simp only [bodyP]
    rw [if_neg (readChar_head hq hc'), hc']
    simp only [hk f (by omega) x]

theorem natP_of {t x : Str} (h : Decimal t) (hx : NoId x) : natP (t ++ x) = some (natOf t, x) := by
  obtain ⟨h1, h2, h3⟩ := h
  simp only [natP, takeWhile_app h2 (noId_digit hx), dropWhile_app h2 (noId_digit hx)]
  rw [if_neg]
  rintro (h | ⟨h, h'⟩)
  · exact h1 h
  · exact h' (h3 h)

/-- The first character of a literal. -/
theorem Lit.start {t : Str} {k : Key} (h : Lit t k) : ∃ c r, t = c :: r ∧ c ≠ ')' ∧ c ≠ '.' := by
  cases h with
  | nat h =>
    obtain ⟨h1, h2, -⟩ := h
    cases t with
    | nil => exact absurd rfl h1
    | cons c r =>
      have hc := h2 c (List.mem_cons_self ..)
      refine ⟨c, r, rfl, ?_, ?_⟩ <;> rintro rfl <;> exact absurd hc (by decide)
  | neg h => exact ⟨_, _, rfl, by decide, by decide⟩
  | str hq h => rcases hq with rfl | rfl <;> exact ⟨_, _, rfl, by decide, by decide⟩
  | none => exact ⟨_, _, rfl, by decide, by decide⟩
  | true => exact ⟨_, _, rfl, by decide, by decide⟩
  | false => exact ⟨_, _, rfl, by decide, by decide⟩
  | unit => exact ⟨_, _, rfl, by decide, by decide⟩
  | single h => exact ⟨_, _, rfl, by decide, by decide⟩
  | tuple h hr => exact ⟨_, _, rfl, by decide, by decide⟩

theorem Rest.noId {t : Str} {l : List Key} (h : Rest t l) (x : Str) : NoId (t ++ x) := by
  cases h with
  | close => exact noId_cons (by decide)
  | more h hr => exact noId_cons (by decide)

theorem Rest.no_single {t : Str} {k : Key} {l : List Key} (h : Rest t (k :: l)) (x : Str) :
    (t ++ x).take 2 ≠ c!",)" := by
  cases h with
  | more h hr => simp

theorem wordP_of {t x : Str} (ht : ∀ c ∈ t, idCont c = true) (hx : NoId x) :
    wordP (t ++ x) = if t = c!"None" then some (.none, x)
      else if t = c!"True" then some (.bool true, x)
      else if t = c!"False" then some (.bool false, x)
      else none := by
  simp only [wordP, takeWhile_app ht hx, dropWhile_app ht hx]

mutual
theorem litP_of {t : Str} {k : Key} (h : Lit t k) :
    ∃ m, ∀ f, m ≤ f → ∀ x, NoId x → litP f (t ++ x) = some (k, x) := by
  cases h with
  | nat h =>
    refine ⟨1, fun f hf x hx => ?_⟩
    obtain ⟨f, rfl⟩ : ∃ g, f = g + 1 := ⟨f - 1, by omega⟩
    have hn := natP_of h hx
    obtain ⟨h1, h2, h3⟩ := h
    cases t with
    | nil => exact absurd rfl h1
    | cons c r =>
      have hc := h2 c (List.mem_cons_self ..)
      have hp : c ≠ '(' := by rintro rfl; exact absurd hc (by decide)
      have hm : c ≠ '-' := by rintro rfl; exact absurd hc (by decide)
      have hq : ¬ (c = '\'' ∨ c = '"') := by rintro (rfl | rfl) <;> exact absurd hc (by decide)
      simp only [List.cons_append] at hn ⊢
      simp only [litP]
      rw [if_neg hp, if_neg hm, if_neg hq, if_pos hc, hn]
      rfl
  | neg h =>
    refine ⟨1, fun f hf x hx => ?_⟩
    obtain ⟨f, rfl⟩ : ∃ g, f = g + 1 := ⟨f - 1, by omega⟩
    have hn := natP_of h hx
    simp only [List.cons_append]
    simp only [litP]
    rw [if_neg (by decide), if_pos trivial, hn]
    rfl
  | str hq h =>
    obtain ⟨m, hm⟩ := bodyP_of hq h
    refine ⟨m + 1, fun f hf x hx => ?_⟩
    obtain ⟨f, rfl⟩ : ∃ g, f = g + 1 := ⟨f - 1, by omega⟩
    simp only [List.cons_append]
    simp only [litP]
    rw [if_neg (by rcases hq with rfl | rfl <;> decide), if_neg (by rcases hq with rfl | rfl <;> decide),
      if_pos hq, hm f (by omega) x]
    rfl
  | none =>
    refine ⟨1, fun f hf x hx => ?_⟩
    obtain ⟨f, rfl⟩ : ∃ g, f = g + 1 := ⟨f - 1, by omega⟩
    have := wordP_of (t := c!"None") (x := x) (by decide) hx
    simp only [List.cons_append, List.nil_append] at this ⊢
    simp only [litP]
    rw [if_neg (by decide), if_neg (by decide), if_neg (by decide), if_neg (by decide), this, if_pos trivial]
  | true =>
    refine ⟨1, fun f hf x hx => ?_⟩
    obtain ⟨f, rfl⟩ : ∃ g, f = g + 1 := ⟨f - 1, by omega⟩
    have := wordP_of (t := c!"True") (x := x) (by decide) hx
    simp only [List.cons_append, List.nil_append] at this ⊢
    simp only [litP]
    rw [if_neg (by decide), if_neg (by decide), if_neg (by decide), if_neg (by decide), this,
      if_neg (by decide), if_pos trivial]
  | false =>
    refine ⟨1, fun f hf x hx => ?_⟩
    obtain ⟨f, rfl⟩ : ∃ g, f = g + 1 := ⟨f - 1, by omega⟩
    have := wordP_of (t := c!"False") (x := x) (by decide) hx
    simp only [List.cons_append, List.nil_append] at this ⊢
    simp only [litP]
    rw [if_neg (by decide), if_neg (by decide), if_neg (by decide), if_neg (by decide), this,
      if_neg (by decide), if_neg (by decide), if_pos trivial]
  | unit =>
    refine ⟨1, fun f hf x hx => ?_⟩
    obtain ⟨f, rfl⟩ : ∃ g, f = g + 1 := ⟨f - 1, by omega⟩
    simp [litP]
  | @single t k h =>
    obtain ⟨m, hm⟩ := litP_of h
    refine ⟨m + 1, fun f hf x hx => ?_⟩
    obtain ⟨f, rfl⟩ : ∃ g, f = g + 1 := ⟨f - 1, by omega⟩
    have h1 := hm f (by omega) (c!",)" ++ x) (noId_cons (by decide))
    obtain ⟨c, r, rfl, hc, -⟩ := h.start
    simp only [List.cons_append, List.append_assoc] at h1 ⊢
    simp only [litP]
    rw [if_pos trivial, if_neg (by simpa using hc), h1]
    simp
  | @tuple t k r k' l h hr =>
    obtain ⟨m, hm⟩ := litP_of h
    obtain ⟨m', hm'⟩ := restP_of hr
    refine ⟨m + m' + 1, fun f hf x hx => ?_⟩
    obtain ⟨f, rfl⟩ : ∃ g, f = g + 1 := ⟨f - 1, by omega⟩
    have h1 := hm f (by omega) (r ++ x) (hr.noId x)
    have h2 := hm' f (by omega) x hx
    have h3 := hr.no_single x
    obtain ⟨c, r', rfl, hc, -⟩ := h.start
    simp only [List.cons_append, List.append_assoc] at h1 ⊢
    simp only [litP]
    rw [if_pos trivial, if_neg (by simpa using hc), h1]
    simp only [if_neg h3, h2]
theorem restP_of {t : Str} {l : List Key} (h : Rest t l) :
    ∃ m, ∀ f, m ≤ f → ∀ x, NoId x → restP f (t ++ x) = some (l, x) := by
  cases h with
  | close =>
    refine ⟨1, fun f hf x hx => ?_⟩
    obtain ⟨f, rfl⟩ : ∃ g, f = g + 1 := ⟨f - 1, by omega⟩
    simp [restP]
  | @more t k r l h hr =>
    obtain ⟨m, hm⟩ := litP_of h
    obtain ⟨m', hm'⟩ := restP_of hr
    refine ⟨m + m' + 1, fun f hf x hx => ?_⟩
    obtain ⟨f, rfl⟩ : ∃ g, f = g + 1 := ⟨f - 1, by omega⟩
    have h1 := hm f (by omega) (r ++ x) (hr.noId x)
    have h2 := hm' f (by omega) x hx
    simp only [List.cons_append, List.append_assoc]
    simp only [restP]
    rw [if_neg (by simp), if_pos (by rfl)]
    simp only [List.drop_succ_cons, List.drop_zero, h1, h2]
end

/-! ### Expressions -/

/-- What can follow an expression. -/
def End (x : Str) : Prop := x = [] ∨ ∃ c r, x = c :: r ∧ (c = ')' ∨ c = ']' ∨ c = ' ')

theorem End.noId {x : Str} (h : End x) : NoId x := by
  rcases h with rfl | ⟨c, r, rfl, rfl | rfl | rfl⟩
  · exact noId_nil
  all_goals exact noId_cons (by decide)

theorem trail_end {f : Nat} {e : Expr} {x : Str} (h : End x) : trail (f + 1) e x = some (e, x) := by
  rcases h with rfl | ⟨c, r, rfl, rfl | rfl | rfl⟩ <;> simp [trail]

theorem prim_start {t : Str} {e : Expr} (h : Prim t e) : ∃ s r, t = s ++ r ∧ Ident s ∧ NoId r := by
  induction h using Prim.rec (motive_2 := fun _ _ _ => True) with
  | name h => exact ⟨_, [], by simp, h, noId_nil⟩
  | attr h ha ih =>
    obtain ⟨s, r, rfl, h1, h2⟩ := ih
    refine ⟨s, r ++ _, by rw [List.append_assoc], h1, ?_⟩
    cases r with
    | nil => exact noId_cons (by decide)
    | cons c r => exact noId_cons (h2 c r rfl)
  | sub h hi ih =>
    obtain ⟨s, r, rfl, h1, h2⟩ := ih
    refine ⟨s, r ++ _, by rw [List.append_assoc], h1, ?_⟩
    cases r with
    | nil => exact noId_cons (by decide)
    | cons c r => exact noId_cons (h2 c r rfl)
  | call h hi ih =>
    obtain ⟨s, r, rfl, h1, h2⟩ := ih
    refine ⟨s, r ++ _, by rw [List.append_assoc], h1, ?_⟩
    cases r with
    | nil => exact noId_cons (by decide)
    | cons c r => exact noId_cons (h2 c r rfl)
  | prim => trivial
  | lit => trivial
  | point => trivial
  | plus => trivial

theorem noId_app {r x : Str} (hr : NoId r) (hx : NoId x) : NoId (r ++ x) := by
  cases r with
  | nil => exact hx
  | cons c r => exact noId_cons (hr c r rfl)

theorem not_lit_of_ident {s x : Str} (h : Ident s) (hx : NoId x) (f : Nat) : litP f (s ++ x) = none := by
  cases f with
  | zero => rfl
  | succ f =>
    have hw := wordP_of (x := x) h.all hx
    obtain ⟨c, r, rfl, hc⟩ := h.start
    have hk := h.2.2
    simp only [List.cons_append] at hw ⊢
    simp only [litP]
    rw [if_neg (idStart_ne hc (by decide)), if_neg (idStart_ne hc (by decide)),
      if_neg (by rintro (h | h); exact idStart_ne hc (by decide) h; exact idStart_ne hc (by decide) h),
      idStart_not_digit hc]
    simp only [Bool.false_eq_true, if_false, hw]
    rw [if_neg (by intro h'; rw [h'] at hk; revert hk; decide), if_neg (by intro h'; rw [h'] at hk; revert hk; decide),
      if_neg (by intro h'; rw [h'] at hk; revert hk; decide)]

/-- The text is read as `e` up to what follows, by `primP`, with as much fuel left as is asked for. -/
def PrimP (t : Str) (e : Expr) : Prop :=
  ∀ K, ∃ m, ∀ F, m ≤ F → ∀ x, NoId x → ∃ f, K ≤ f ∧ primP F (t ++ x) = trail f e x

/-- The same for whole expressions. -/
def ExP (t : Str) (e : Expr) : Prop :=
  ∀ K, ∃ m, ∀ F, m ≤ F → ∀ x, End x → ∃ f, K ≤ f ∧ exP F (t ++ x) = sums f e x

theorem sums_end {f : Nat} {e : Expr} {x : Str} (h : ¬ x.take 3 = c!" + ") : sums (f + 1) e x = some (e, x) := by
  simp only [sums, if_neg h]

theorem primP_ex {t : Str} {e : Expr} (h : Prim t e) (hp : PrimP t e) : ExP t e := by
  intro K
  obtain ⟨m, hm⟩ := hp 1
  refine ⟨m + K + 1, fun F hF x hx => ?_⟩
  obtain ⟨F, rfl⟩ : ∃ g, F = g + 1 := ⟨F - 1, by omega⟩
  obtain ⟨s, r, rfl, hs, hr⟩ := prim_start h
  have hn : litP F (s ++ r ++ x) = none := by
    rw [List.append_assoc]; exact not_lit_of_ident hs (noId_app hr hx.noId) _
  have hd : (s ++ r ++ x).head? ≠ some '.' := by
    obtain ⟨c, r', rfl, hc⟩ := hs.start
    simp only [List.cons_append, List.head?_cons, ne_eq, Option.some.injEq]
    exact idStart_ne hc (by decide)
  obtain ⟨f, hf, hf'⟩ := hm F (by omega) x hx.noId
  obtain ⟨f, rfl⟩ : ∃ g, f = g + 1 := ⟨f - 1, by omega⟩
  refine ⟨F, by omega, ?_⟩
  simp only [exP, if_neg hd, hn, hf', trail_end hx]

theorem trail_sub {t : Str} {e : Expr} {u : Str} {i : Expr} (h : PrimP t e) (hi : ExP u i) (o c : Char)
    (mk : Expr → Expr → Expr)
    (hoc : (o = '[' ∧ c = ']' ∧ mk = Expr.sub) ∨ (o = '(' ∧ c = ')' ∧ mk = Expr.call)) :
    PrimP (t ++ o :: (u ++ [c])) (mk e i) := by
  intro K
  obtain ⟨m1, hm1⟩ := hi 1
  obtain ⟨m, hm⟩ := h (m1 + K + 1)
  refine ⟨m, fun F hF x hx => ?_⟩
  have hno : NoId (o :: (u ++ [c] ++ x)) := noId_cons (by rcases hoc with ⟨rfl, _⟩ | ⟨rfl, _⟩ <;> decide)
  obtain ⟨f, hf, hf'⟩ := hm F hF (o :: (u ++ [c] ++ x)) hno
  obtain ⟨f, rfl⟩ : ∃ g, f = g + 1 := ⟨f - 1, by omega⟩
  have hend : End (c :: x) := .inr ⟨c, x, rfl, by rcases hoc with ⟨_, rfl, _⟩ | ⟨_, rfl, _⟩ <;> simp⟩
  obtain ⟨f2, hf2, hf2'⟩ := hm1 f (by omega) (c :: x) hend
  obtain ⟨f2, rfl⟩ : ∃ g, f2 = g + 1 := ⟨f2 - 1, by omega⟩
  have hs : sums (f2 + 1) i (c :: x) = some (i, c :: x) :=
    sums_end (by rcases hoc with ⟨_, rfl, _⟩ | ⟨_, rfl, _⟩ <;> simp)
  rw [hs] at hf2'
  have e1 : u ++ [c] ++ x = u ++ c :: x := by simp
  refine ⟨f, by omega, ?_⟩
  have e2 : t ++ o :: (u ++ [c]) ++ x = t ++ o :: (u ++ [c] ++ x) := by simp
  rw [e2, hf', e1]
  rcases hoc with ⟨rfl, rfl, rfl⟩ | ⟨rfl, rfl, rfl⟩
  · simp [trail, hf2']
  · simp [trail, hf2']

theorem primP_name {s : Str} (h : Ident s) : PrimP s (.name s) := by
  intro K
  refine ⟨K + 1, fun F hF x hx => ⟨F - 1, by omega, ?_⟩⟩
  obtain ⟨F, rfl⟩ : ∃ g, F = g + 1 := ⟨F - 1, by omega⟩
  simp only [primP, ident_take h hx, ident_drop h hx, if_pos h]
  rfl

theorem primP_attr {t : Str} {e : Expr} {a : Str} (hp : PrimP t e) (ha : Ident a) :
    PrimP (t ++ '.' :: a) (.attr e a) := by
  intro K
  obtain ⟨m, hm⟩ := hp (K + 1)
  refine ⟨m, fun F hF x hx => ?_⟩
  obtain ⟨f, hf, hf'⟩ := hm F hF ('.' :: (a ++ x)) (noId_cons (by decide))
  obtain ⟨f, rfl⟩ : ∃ g, f = g + 1 := ⟨f - 1, by omega⟩
  refine ⟨f, by omega, ?_⟩
  rw [List.append_assoc, List.cons_append, hf']
  simp only [trail, ident_take ha hx, ident_drop ha hx, if_pos ha, if_true]

theorem exP_lit {t : Str} {k : Key} (h : Lit t k) : ExP t (.lit k) := by
  intro K
  obtain ⟨m, hm⟩ := litP_of h
  refine ⟨m + K + 1, fun F hF x hx => ⟨F - 1, by omega, ?_⟩⟩
  obtain ⟨F, rfl⟩ : ∃ g, F = g + 1 := ⟨F - 1, by omega⟩
  have hd : (t ++ x).head? ≠ some '.' := by
    obtain ⟨c, r, rfl, -, hc⟩ := h.start
    simpa using hc
  simp only [exP, if_neg hd, hm F (by omega) x hx.noId]
  rfl

theorem exP_point {t : Str} (hne : t ≠ []) (h : ∀ c ∈ t, Py.isDigit c = true) : ExP ('.' :: t) (.point t) := by
  intro K
  refine ⟨K + 1, fun F hF x hx => ⟨F - 1, by omega, ?_⟩⟩
  obtain ⟨F, rfl⟩ : ∃ g, F = g + 1 := ⟨F - 1, by omega⟩
  simp only [List.cons_append]
  simp only [exP, List.head?_cons, if_true, List.tail_cons, takeWhile_app h (noId_digit hx.noId),
    dropWhile_app h (noId_digit hx.noId), if_neg hne]
  rfl

theorem exP_plus {t : Str} {e : Expr} {u : Str} {i : Expr} (he : ExP t e) (hp : PrimP u i) :
    ExP (t ++ c!" + " ++ u) (.plus e i) := by
  intro K
  obtain ⟨m1, hm1⟩ := hp 1
  obtain ⟨m, hm⟩ := he (m1 + K + 1)
  refine ⟨m, fun F hF x hx => ?_⟩
  obtain ⟨f, hf, hf'⟩ := hm F hF (c!" + " ++ (u ++ x)) (.inr ⟨' ', _, rfl, by simp⟩)
  obtain ⟨f, rfl⟩ : ∃ g, f = g + 1 := ⟨f - 1, by omega⟩
  obtain ⟨f2, hf2, hf2'⟩ := hm1 f (by omega) x hx.noId
  obtain ⟨f2, rfl⟩ : ∃ g, f2 = g + 1 := ⟨f2 - 1, by omega⟩
  refine ⟨f, by omega, ?_⟩
  rw [List.append_assoc, List.append_assoc, hf']
  rw [sums, if_pos (by simp)]
  simp only [List.cons_append, List.nil_append, List.drop_succ_cons, List.drop_zero, hf2', trail_end hx]

theorem exP_of {t : Str} {e : Expr} (h : Means t e) : ExP t e :=
  Means.rec (motive_1 := fun t e _ => PrimP t e) (motive_2 := fun t e _ => ExP t e)
    (fun h => primP_name h)
    (fun _ ha ih => primP_attr ih ha)
    (fun _ _ ih ihi => trail_sub ih ihi _ _ _ (.inl ⟨rfl, rfl, rfl⟩))
    (fun _ _ ih ihi => trail_sub ih ihi _ _ _ (.inr ⟨rfl, rfl, rfl⟩))
    (fun h ih => primP_ex h ih)
    (fun h => exP_lit h)
    (fun hne h => exP_point hne h)
    (fun _ _ ih ihi => exP_plus ih ihi)
    h

/-- What the reader gives for a text that the grammar reads, with any fuel that is enough. -/
theorem means_reads {t : Str} {e : Expr} (h : Means t e) : ∃ m, ∀ F, m ≤ F → exP F t = some (e, []) := by
  obtain ⟨m, hm⟩ := exP_of h 1
  refine ⟨m, fun F hF => ?_⟩
  obtain ⟨f, hf, hf'⟩ := hm F hF [] (.inl rfl)
  obtain ⟨f, rfl⟩ : ∃ g, f = g + 1 := ⟨f - 1, by omega⟩
  rw [List.append_nil] at hf'
  rw [hf', sums_end (by simp)]

/-- No text is read in two ways. -/
theorem means_unique {t : Str} {e e' : Expr} (h : Means t e) (h' : Means t e') : e' = e := by
  obtain ⟨m, hm⟩ := means_reads h
  obtain ⟨m', hm'⟩ := means_reads h'
  have h1 := hm (m + m') (by omega)
  have h2 := hm' (m + m') (by omega)
  rw [h1] at h2
  cases h2
  rfl

/-- A text the reader refuses, whatever the fuel, is no expression. -/
theorem noExpr_of {t : Str} (h : ∃ k, ∀ f e, exP (f + k) t ≠ some (e, [])) : NoExpr t := by
  obtain ⟨k, hk⟩ := h
  intro e he
  obtain ⟨m, hm⟩ := means_reads he
  exact hk m e (hm (m + k) (by omega))

end EvalName
