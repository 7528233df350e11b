import Verif.WinQuote.Spec
/-! The standard rules as a function, and the quoting in one pass. -/

namespace WinQuote
open Spec

instance (c : Char) : Decidable (Blank c) := by unfold Blank; infer_instance

theorem slashes_succ (n : Nat) : slashes (n + 1) = '\\' :: slashes n := rfl
theorem slashes_zero : slashes 0 = [] := rfl
theorem slashes_add (m n : Nat) : slashes m ++ slashes n = slashes (m + n) := by
  simp only [slashes, List.replicate_append_replicate]
theorem slashes_length (n : Nat) : (slashes n).length = n := by simp [slashes]
theorem slashes_snoc (n : Nat) (l : Str) : slashes n ++ '\\' :: l = slashes (n + 1) ++ l := by
  rw [← slashes_add]; simp [slashes]
theorem slashes_cons (n : Nat) (l : Str) : '\\' :: (slashes n ++ l) = slashes (n + 1) ++ l := rfl

/-- put text in front of what is read -/
def front (t : Str) (x : Str × Str) : Str × Str := (t ++ x.1, x.2)

/-- `Reads` as a function; `n` backslashes have been read before -/
def rd (p q : Bool) (n : Nat) : Str → Str × Str
  | [] => (slashes n, [])
  | c :: l =>
    if c = '\\' then rd p q (n + 1) l
    else if c = '"' then
      if n % 2 = 1 then front (slashes (n / 2) ++ ['"']) (rd p q 0 l)
      else match l with
        | [] => (slashes (n / 2), [])
        | d :: l' =>
          if p = true ∧ q = true ∧ d = '"' then front (slashes (n / 2) ++ ['"']) (rd p true 0 l')
          else front (slashes (n / 2)) (rd p (!q) 0 (d :: l'))
    else if q = false ∧ Blank c then (slashes n, c :: l)
    else front (slashes n ++ [c]) (rd p q 0 l)
termination_by l => l.length

theorem rd_cons (p q : Bool) (n : Nat) (c : Char) (l : Str) : rd p q n (c :: l) =
    if c = '\\' then rd p q (n + 1) l
    else if c = '"' then
      if n % 2 = 1 then front (slashes (n / 2) ++ ['"']) (rd p q 0 l)
      else match l with
        | [] => (slashes (n / 2), [])
        | d :: l' =>
          if p = true ∧ q = true ∧ d = '"' then front (slashes (n / 2) ++ ['"']) (rd p true 0 l')
          else front (slashes (n / 2)) (rd p (!q) 0 (d :: l'))
    else if q = false ∧ Blank c then (slashes n, c :: l)
    else front (slashes n ++ [c]) (rd p q 0 l) := by
  rw [rd.eq_def]; cases l <;> rfl

theorem rd_slashes (p q : Bool) (k : Nat) : ∀ (n : Nat) (l : Str), rd p q n (slashes k ++ l) = rd p q (n + k) l := by
  induction k with
  | zero => intro n l; rfl
  | succ k ih =>
    intro n l
    rw [slashes_succ, List.cons_append, rd_cons, if_pos rfl, ih]
    congr 1; omega

theorem rd_nil (p q : Bool) (n : Nat) : rd p q n [] = (slashes n, []) := by rw [rd]

theorem rd_quote_odd (p q : Bool) (n : Nat) (l : Str) (h : n % 2 = 1) :
    rd p q n ('"' :: l) = front (slashes (n / 2) ++ ['"']) (rd p q 0 l) := by
  rw [rd_cons, if_neg (by decide), if_pos rfl, if_pos h]

theorem rd_pair (n : Nat) (l : Str) (h : n % 2 = 0) :
    rd true true n ('"' :: '"' :: l) = front (slashes (n / 2) ++ ['"']) (rd true true 0 l) := by
  rw [rd_cons, if_neg (by decide), if_pos rfl, if_neg (by omega)]
  simp

theorem rd_toggle (p q : Bool) (n : Nat) (l : Str) (h : n % 2 = 0) (hp : p = true → q = true → l.head? ≠ some '"') :
    rd p q n ('"' :: l) = front (slashes (n / 2)) (rd p (!q) 0 l) := by
  rw [rd_cons, if_neg (by decide), if_pos rfl, if_neg (by omega)]
  cases l with
  | nil => simp [rd_nil, front, slashes_zero]
  | cons d l =>
    simp only
    rw [if_neg]
    rintro ⟨h1, h2, h3⟩
    exact hp h1 h2 (by simp [h3])

theorem rd_blank (p : Bool) (n : Nat) (c : Char) (l : Str) (h : Blank c) : rd p false n (c :: l) = (slashes n, c :: l) := by
  rw [rd_cons, if_neg (by rcases h with h | h <;> subst h <;> decide), if_neg (by rcases h with h | h <;> subst h <;> decide),
    if_pos ⟨rfl, h⟩]

theorem rd_char (p q : Bool) (n : Nat) (c : Char) (l : Str) (hs : c ≠ '\\') (hq : c ≠ '"') (hb : q = true ∨ ¬ Blank c) :
    rd p q n (c :: l) = front (slashes n ++ [c]) (rd p q 0 l) := by
  rw [rd_cons, if_neg hs, if_neg hq, if_neg (by grind)]

theorem rd_plain (p q : Bool) (n : Nat) (l : Str) (hs : l.head? ≠ some '\\') (hq : l.head? ≠ some '"') :
    rd p q n l = front (slashes n) (rd p q 0 l) := by
  cases l with
  | nil => simp [rd_nil, front, slashes_zero]
  | cons c l =>
    have hs' : c ≠ '\\' := fun h => hs (by simp [h])
    have hq' : c ≠ '"' := fun h => hq (by simp [h])
    by_cases hb : q = true ∨ ¬ Blank c
    · rw [rd_char _ _ _ _ _ hs' hq' hb, rd_char _ _ _ _ _ hs' hq' hb]
      simp [front, slashes_zero]
    · have h1 : q = false := by grind
      have h2 : Blank c := by grind
      subst h1
      rw [rd_blank _ _ _ _ h2, rd_blank _ _ _ _ h2]
      simp [front, slashes_zero]

theorem rd_of_reads {p q : Bool} {l a r : Str} (h : Reads p q l a r) : rd p q 0 l = (a, r) := by
  induction h with
  | done q => simp [rd_nil, slashes_zero]
  | blank c l h => rw [rd_blank _ _ _ _ h]; rfl
  | char q c l a r hs hq hb h ih => rw [rd_char _ _ _ _ _ hs hq hb, ih]; rfl
  | plain q n l a r hs hq h ih => rw [rd_slashes, rd_plain _ _ _ _ hs hq, ih, Nat.zero_add]; rfl
  | escaped q n l a r h ih =>
    rw [rd_slashes, rd_quote_odd _ _ _ _ (by omega), ih, show (0 + (2 * n + 1)) / 2 = n by omega]
    simp [front]
  | pair n l a r hp h ih =>
    subst hp
    rw [rd_slashes, rd_pair _ _ (by omega), ih, show (0 + 2 * n) / 2 = n by omega]
    simp [front]
  | toggle q n l a r hp h ih =>
    rw [rd_slashes, rd_toggle _ _ _ _ (by omega) hp, ih, show (0 + 2 * n) / 2 = n by omega]
    simp [front]

theorem reads_of_rd (p : Bool) : ∀ (k : Nat) (q : Bool) (n : Nat) (l : Str), l.length ≤ k →
    Reads p q (slashes n ++ l) (rd p q n l).1 (rd p q n l).2 := by
  intro k
  induction k with
  | zero =>
    intro q n l hl
    have : l = [] := by cases l <;> simp_all
    subst this
    rw [rd_nil, List.append_nil]
    cases n with
    | zero => exact .done q
    | succ n =>
      have := Reads.plain (p := p) q n [] [] [] (by simp) (by simp) (.done q)
      simpa using this
  | succ k ih =>
    intro q n l hl
    cases l with
    | nil => exact ih q n [] (by simp)
    | cons c l =>
      simp only [List.length_cons] at hl
      by_cases hs : c = '\\'
      · subst hs
        have := ih q (n + 1) l (by omega)
        rw [rd_cons, if_pos rfl, slashes_snoc]
        exact this
      by_cases hq : c = '"'
      · subst hq
        by_cases hn : n % 2 = 1
        · rw [rd_quote_odd _ _ _ _ hn]
          have := Reads.escaped (p := p) q (n / 2) l _ _ (ih q 0 l (by omega))
          rw [show 2 * (n / 2) + 1 = n by omega] at this
          simpa [front] using this
        · by_cases hp : p = true ∧ q = true ∧ l.head? = some '"'
          · obtain ⟨h1, h2, h3⟩ := hp
            subst h1; subst h2
            cases l with
            | nil => simp at h3
            | cons d l =>
              simp only [List.head?_cons, Option.some.injEq] at h3
              subst h3
              simp only [List.length_cons] at hl
              rw [rd_pair _ _ (by omega)]
              have := Reads.pair (p := true) (n / 2) l _ _ rfl (ih true 0 l (by omega))
              rw [show 2 * (n / 2) = n by omega] at this
              simpa [front] using this
          · have hp' : p = true → q = true → l.head? ≠ some '"' := fun h1 h2 h3 => hp ⟨h1, h2, h3⟩
            rw [rd_toggle _ _ _ _ (by omega) hp']
            have := Reads.toggle (p := p) q (n / 2) l _ _ hp' (ih (!q) 0 l (by omega))
            rw [show 2 * (n / 2) = n by omega] at this
            exact this
      · have h0 : Reads p q (c :: l) (rd p q 0 (c :: l)).1 (rd p q 0 (c :: l)).2 := by
          by_cases hb : q = true ∨ ¬ Blank c
          · rw [rd_char _ _ _ _ _ hs hq hb]
            exact .char q c l _ _ hs hq hb (ih q 0 l (by omega))
          · have h1 : q = false := by grind
            have h2 : Blank c := by grind
            subst h1
            rw [rd_blank _ _ _ _ h2]
            exact .blank c l h2
        have hs' : (c :: l).head? ≠ some '\\' := by simp [hs]
        have hq' : (c :: l).head? ≠ some '"' := by simp [hq]
        rw [rd_plain _ _ _ _ hs' hq']
        cases n with
        | zero => exact h0
        | succ n => exact .plain q n _ _ _ hs' hq' h0

theorem reads_iff (p q : Bool) (l a r : Str) : Reads p q l a r ↔ rd p q 0 l = (a, r) := by
  constructor
  · exact rd_of_reads
  · intro h
    have := reads_of_rd p l.length q 0 l (Nat.le_refl _)
    rw [h] at this
    exact this

/-- what is left is a suffix -/
theorem reads_suffix {p q : Bool} {l a r : Str} (h : Reads p q l a r) : r <:+ l := by
  induction h with
  | done q => exact List.suffix_refl _
  | blank c l h => exact List.suffix_refl _
  | char q c l a r _ _ _ _ ih => exact ih.trans (List.suffix_cons _ _)
  | plain q n l a r _ _ _ ih => exact ih.trans (List.suffix_append _ _)
  | escaped q n l a r _ ih => exact (ih.trans (List.suffix_cons _ _)).trans (List.suffix_append _ _)
  | pair n l a r _ _ ih => exact ((ih.trans (List.suffix_cons _ _)).trans (List.suffix_cons _ _)).trans (List.suffix_append _ _)
  | toggle q n l a r _ _ ih => exact (ih.trans (List.suffix_cons _ _)).trans (List.suffix_append _ _)

/-- what is left begins with a blank -/
theorem reads_rest {p q : Bool} {l a r : Str} (h : Reads p q l a r) : ∀ c, r.head? = some c → Blank c := by
  induction h with
  | done q => simp
  | blank c l h => intro d hd; simp only [List.head?_cons, Option.some.injEq] at hd; exact hd ▸ h
  | _ => assumption

theorem blanks_split {bs bs' l l' : Str} (hb : ∀ c ∈ bs, Blank c) (hb' : ∀ c ∈ bs', Blank c)
    (hl : ∀ c, l.head? = some c → ¬ Blank c) (hl' : ∀ c, l'.head? = some c → ¬ Blank c) (h : bs ++ l = bs' ++ l') : bs = bs' ∧ l = l' := by
  induction bs generalizing bs' with
  | nil =>
    cases bs' with
    | nil => exact ⟨rfl, h⟩
    | cons b bs' =>
      simp only [List.nil_append, List.cons_append] at h
      exact absurd (hb' b (by simp)) (hl b (by rw [h]; rfl))
  | cons b bs ih =>
    cases bs' with
    | nil =>
      simp only [List.nil_append, List.cons_append] at h
      exact absurd (hb b (by simp)) (hl' b (by rw [← h]; rfl))
    | cons b' bs' =>
      simp only [List.cons_append, List.cons.injEq] at h
      obtain ⟨h1, h2⟩ := ih (fun c hc => hb c (by simp [hc])) (fun c hc => hb' c (by simp [hc])) h.2
      exact ⟨by rw [h.1, h1], h2⟩

theorem splits_unique {p : Bool} {line : Str} {as bs : List Str} (h : Splits p line as) (h' : Splits p line bs) : as = bs := by
  induction h generalizing bs with
  | nil u hu =>
    generalize he : u = w at h'
    cases h' with
    | nil => rfl
    | cons v l a r as hv hne hl h hr =>
      have := blanks_split (l := []) hu hv (by simp) hl (by simpa using he)
      exact absurd this.2.symm hne
  | cons u l a r as hu hne hl h hr ih =>
    generalize he : u ++ l = w at h'
    cases h' with
    | nil v hv =>
      have := blanks_split (l' := []) hu hv hl (by simp) (by simpa using he)
      exact absurd this.2 hne
    | cons v l' a' r' as' hv hne' hl' h' hr' =>
      obtain ⟨_, h2⟩ := blanks_split hu hv hl hl' he
      subst h2
      have h3 := rd_of_reads h
      rw [rd_of_reads h'] at h3
      cases h3
      rw [ih hr']

/-- every line is split -/
theorem splits_exists (p : Bool) : ∀ (k : Nat) (line : Str), line.length ≤ k → ∃ as, Splits p line as := by
  intro k
  induction k with
  | zero =>
    intro line h
    have : line = [] := by cases line <;> simp_all
    subst this
    exact ⟨[], .nil [] (by simp)⟩
  | succ k ih =>
    intro line hlen
    have hsplit : ∃ bs l, line = bs ++ l ∧ (∀ c ∈ bs, Blank c) ∧ ∀ c, l.head? = some c → ¬ Blank c := by
      clear hlen ih
      induction line with
      | nil => exact ⟨[], [], rfl, by simp, by simp⟩
      | cons c line ih =>
        by_cases hc : Blank c
        · obtain ⟨bs, l, h1, h2, h3⟩ := ih
          exact ⟨c :: bs, l, by rw [h1]; rfl, by simpa [hc] using h2, h3⟩
        · exact ⟨[], c :: line, rfl, by simp, by simpa using hc⟩
    obtain ⟨bs, l, he, hb, hl⟩ := hsplit
    by_cases hne : l = []
    · subst hne
      exact ⟨[], by rw [he, List.append_nil]; exact .nil bs hb⟩
    · have hr : Reads p false l (rd p false 0 l).1 (rd p false 0 l).2 := (reads_iff ..).2 rfl
      have hsuf := reads_suffix hr
      have hne' : (rd p false 0 l).2 ≠ l := by
        intro h
        cases l with
        | nil => exact hne rfl
        | cons c l => exact hl c rfl (reads_rest hr c (by rw [h]; rfl))
      have hlt : (rd p false 0 l).2.length < l.length := by
        rcases Nat.lt_or_ge (rd p false 0 l).2.length l.length with h | h
        · exact h
        · exact absurd (hsuf.eq_of_length (by have := hsuf.length_le; omega)) hne'
      obtain ⟨as, has⟩ := ih (rd p false 0 l).2 (by rw [he] at hlen; simp at hlen; omega)
      exact ⟨_, by rw [he]; exact .cons bs l _ _ as hb hne hl hr has⟩

/-- both substitutions at once -/
def esc (n : Nat) : Str → Str
  | [] => slashes (2 * n)
  | c :: cs =>
    if c = '\\' then esc (n + 1) cs
    else if c = '"' then slashes (2 * n + 1) ++ '"' :: esc 0 cs
    else slashes n ++ c :: esc 0 cs

theorem subEnd_slashes (k : Nat) : ∀ (n : Nat) (l : Str), subEnd n (slashes k ++ l) = subEnd (n + k) l := by
  induction k with
  | zero => intro n l; rfl
  | succ k ih =>
    intro n l
    rw [slashes_succ, List.cons_append, subEnd, if_pos rfl, ih]
    congr 1; omega

theorem subQuote_ne (n : Nat) (l : Str) (h : l ≠ []) : subQuote n l ≠ [] := by
  induction l generalizing n with
  | nil => exact absurd rfl h
  | cons c l ih =>
    rw [subQuote]
    split
    · by_cases hl : l = []
      · subst hl; simp [subQuote, slashes]
      · exact ih _ hl
    · split <;> simp

theorem subEnd_subQuote (l : Str) : ∀ (n : Nat), ¬ SlashNewline (slashes n ++ l) → subEnd 0 (subQuote n l) = esc n l := by
  induction l with
  | nil =>
    intro n _
    have := subEnd_slashes n 0 []
    rw [List.append_nil] at this
    rw [subQuote, this, subEnd, esc, slashes_add]
    congr 1; omega
  | cons c l ih =>
    intro n h
    rw [subQuote, esc]
    have h0 : ¬ SlashNewline l := by
      rintro ⟨u, hu⟩
      exact h ⟨slashes n ++ c :: u, by simp [hu]⟩
    split
    · rename_i hc
      subst hc
      exact ih (n + 1) (by rw [slashes_snoc] at h; exact h)
    · rename_i hs
      split
      · rw [List.append_assoc, List.append_assoc, subEnd_slashes, subEnd_slashes, List.cons_append, subEnd, if_pos rfl, List.cons_append,
          subEnd, if_neg (by decide), if_neg (by simp), List.nil_append, ih 0 (by simpa [slashes_zero] using h0)]
        congr 2; omega
      · rw [subEnd_slashes, subEnd, if_neg hs, ih 0 (by simpa [slashes_zero] using h0), Nat.zero_add]
        split
        · rename_i hc
          obtain ⟨h1, h2⟩ := hc
          have hl : l = [] := by
            by_cases hl : l = []
            · exact hl
            · exact absurd h2 (subQuote_ne 0 l hl)
          subst hl; subst h1
          have hn : n = 0 := by
            cases n with
            | zero => rfl
            | succ n =>
              refine absurd ⟨slashes n, ?_⟩ h
              rw [← slashes_add]
              simp [slashes]
          subst hn
          rfl
        · rfl

/-- reading a quoted argument -/
theorem rd_esc (p : Bool) (rest : Str) (hr : ∀ c, rest.head? = some c → Blank c) (l : Str) : ∀ (n : Nat),
    rd p true 0 (esc n l ++ '"' :: rest) = (slashes n ++ l, rest) := by
  have hend : rd p false 0 rest = ([], rest) := by
    cases rest with
    | nil => rw [rd_nil]; rfl
    | cons c rest => rw [rd_blank _ _ _ _ (hr c rfl)]; rfl
  induction l with
  | nil =>
    intro n
    rw [esc, rd_slashes, rd_toggle]
    · simp only [Bool.not_true, hend, front, List.append_nil]
      congr 2; omega
    · omega
    · intro _ _ h
      rcases hr _ h with h' | h' <;> exact absurd h' (by decide)
  | cons c l ih =>
    intro n
    rw [esc]
    split
    · rename_i hc; subst hc
      rw [ih, slashes_snoc]
    · rename_i hs
      split
      · rename_i hc; subst hc
        rw [List.append_assoc, rd_slashes, List.cons_append, rd_quote_odd _ _ _ _ (by omega), ih 0]
        simp only [front, slashes_zero, List.nil_append, List.append_assoc, List.cons_append]
        rw [show (0 + (2 * n + 1)) / 2 = n by omega]
      · rename_i hq
        rw [List.append_assoc, rd_slashes, List.cons_append, rd_char _ _ _ _ _ hs hq (.inl rfl), ih 0]
        simp [front, slashes_zero]

/-- reading an argument that needs no quotes -/
theorem rd_bare (p : Bool) (rest : Str) (hr : ∀ c, rest.head? = some c → Blank c) (l : Str) : ∀ (n : Nat), hasSpecial l = false →
    rd p false n (l ++ rest) = (slashes n ++ l, rest) := by
  induction l with
  | nil =>
    intro n _
    cases rest with
    | nil => rw [List.nil_append, rd_nil, List.append_nil]
    | cons c rest => rw [List.nil_append, rd_blank _ _ _ _ (hr c rfl), List.append_nil]
  | cons c l ih =>
    intro n h
    simp only [hasSpecial, List.any_cons, Bool.or_eq_false_iff, beq_eq_false_iff_ne] at h
    have hl : hasSpecial l = false := h.2
    by_cases hs : c = '\\'
    · subst hs
      rw [List.cons_append, rd_cons, if_pos rfl, ih (n + 1) hl, slashes_snoc]
    · rw [List.cons_append, rd_char _ _ _ _ _ hs h.1.1.1.1.2 (.inr ?_), ih 0 hl]
      · simp [front, slashes_zero]
      · rintro (hb | hb)
        · exact h.1.1.1.1.1 hb
        · exact h.1.1.1.2 hb

theorem rd_quote (p : Bool) (a rest : Str) (ha : ¬ SlashNewline a) (hr : ∀ c, rest.head? = some c → Blank c) :
    rd p false 0 (quoteArg a ++ rest) = (a, rest) := by
  unfold quoteArg
  split
  · rename_i h
    exact rd_bare p rest hr a 0 h.2
  · rw [List.cons_append, rd_toggle _ _ _ _ rfl (by intro _ h; cases h), subEnd_subQuote a 0 (by simpa [slashes_zero] using ha),
      List.append_assoc]
    have := rd_esc p rest hr a 0
    simp only [slashes_zero, List.nil_append] at this
    simp only [Bool.not_false, List.singleton_append, this]
    rfl

theorem quote_head (a : Str) : quoteArg a ≠ [] ∧ ∀ c, (quoteArg a).head? = some c → ¬ Blank c := by
  unfold quoteArg
  split
  · rename_i h
    refine ⟨h.1, ?_⟩
    intro c hc hb
    have hm := List.mem_of_mem_head? hc
    have h2 := h.2
    simp only [hasSpecial, List.any_eq_false] at h2
    have := h2 c hm
    rcases hb with hb | hb <;> subst hb <;> simp at this
  · refine ⟨by simp, ?_⟩
    intro c hc
    simp only [List.head?_cons, Option.some.injEq] at hc
    subst hc
    rintro (h | h) <;> exact absurd h (by decide)

theorem splits_join (p : Bool) (args : List Str) (h : ∀ a ∈ args, ¬ SlashNewline a) : Splits p (commandLine args) args := by
  induction args with
  | nil => exact .nil [] (by simp)
  | cons a args ih =>
    have hq := quote_head a
    cases args with
    | nil =>
      have := rd_quote p a [] (h a (by simp)) (by simp)
      rw [List.append_nil] at this
      have := Splits.cons (p := p) [] (quoteArg a) a [] [] (by simp) hq.1 hq.2 ((reads_iff ..).2 this) (.nil [] (by simp))
      simpa [commandLine, join] using this
    | cons b args =>
      have hb : ∀ c, (' ' :: commandLine (b :: args)).head? = some c → Blank c := by
        intro c hc; simp only [List.head?_cons, Option.some.injEq] at hc; exact .inl hc.symm
      have h1 := rd_quote p a (' ' :: commandLine (b :: args)) (h a (by simp)) hb
      have h2 := ih (fun x hx => h x (by simp at hx ⊢; grind))
      have h3 : Splits p (' ' :: commandLine (b :: args)) (b :: args) := by
        generalize commandLine (b :: args) = w at h2
        cases h2 with
        | cons bs l a' r as hb hne hl h hr =>
          exact Splits.cons (p := p) (' ' :: bs) l _ _ _ (by intro c hc; simp only [List.mem_cons] at hc; rcases hc with rfl | hc; exact .inl rfl; exact hb c hc) hne hl h hr
      have := Splits.cons (p := p) [] (quoteArg a ++ ' ' :: commandLine (b :: args)) a _ _ (by simp) (by simp)
        (by
          intro c hc
          apply hq.2 c
          cases hqa : quoteArg a with
          | nil => exact absurd hqa hq.1
          | cons x xs => rw [hqa] at hc; simpa using hc)
        ((reads_iff ..).2 h1) h3
      simpa [commandLine, join] using this

end WinQuote
