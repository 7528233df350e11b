import Verif.EvalName.Parse
/-!
The representations of keys are literals for them.
-/

namespace EvalName

theorem hexVal_hexDigit {d : Nat} (h : d < 16) : hexVal (hexDigit d) = some d := by
  have : d = 0 ∨ d = 1 ∨ d = 2 ∨ d = 3 ∨ d = 4 ∨ d = 5 ∨ d = 6 ∨ d = 7 ∨ d = 8 ∨ d = 9 ∨ d = 10 ∨ d = 11 ∨
      d = 12 ∨ d = 13 ∨ d = 14 ∨ d = 15 := by omega
  rcases this with h|h|h|h|h|h|h|h|h|h|h|h|h|h|h|h <;> subst h <;> decide

theorem readHex_snoc (w : Nat) : ∀ (acc : Nat) (s : Str) (n : Nat) (d : Nat) (r : Str), d < 16 →
    readHex w acc s = some (n, []) → readHex (w + 1) acc (s ++ hexDigit d :: r) = some (n * 16 + d, r) := by
  induction w with
  | zero =>
    intro acc s n d r hd h
    simp only [readHex, Option.some.injEq, Prod.mk.injEq] at h
    obtain ⟨rfl, rfl⟩ := h
    simp [readHex, hexVal_hexDigit hd]
  | succ w ih =>
    intro acc s n d r hd h
    cases s with
    | nil => simp [readHex] at h
    | cons c s =>
      rw [readHex] at h
      rw [List.cons_append, readHex]
      cases hc : hexVal c with
      | none => rw [hc] at h; cases h
      | some v => rw [hc] at h; exact ih _ _ _ _ _ hd h

theorem readHex_hexStr (w : Nat) : ∀ n, n < 16 ^ w → readHex w 0 (hexStr w n) = some (n, []) := by
  induction w with
  | zero => intro n h; simp at h; subst h; rfl
  | succ w ih =>
    intro n h
    have h1 : n / 16 < 16 ^ w := by rw [Nat.div_lt_iff_lt_mul (by decide)]; rw [Nat.pow_succ] at h; exact h
    have := readHex_snoc w 0 (hexStr w (n / 16)) (n / 16) (n % 16) [] (Nat.mod_lt _ (by decide)) (ih _ h1)
    rw [hexStr, this]
    congr 2
    omega

theorem readHex_of {w n : Nat} (r : Str) (h : n < 16 ^ w) : readHex w 0 (hexStr w n ++ r) = some (n, r) := by
  have := readHex_app r _ _ _ _ _ (readHex_hexStr w n h)
  simpa using this

theorem charOf_toNat (c : Char) : charOf c.toNat = some c := by
  have h : c.toNat.isValidChar := c.valid
  simp [charOf, h]

theorem toNat_lt (c : Char) : c.toNat < 16 ^ 8 := by
  have h : c.toNat.isValidChar := c.valid
  rcases h with h | ⟨_, h⟩ <;> omega

/-- One character of a `repr` is read as that character. -/
theorem readChar_escape (p : Char → Bool) {q : Char} (hq : q = '\'' ∨ q = '"') (c : Char) (r : Str) :
    readChar q (escape p q c ++ r) = some (c, r) := by
  unfold escape
  split
  · rename_i h
    have : c = '\\' ∨ c = '\'' ∨ c = '"' := by
      rcases h with h | h
      · exact .inl h
      · subst h; exact .inr hq
    simp [readChar, readEscape, this]
  · rename_i h
    have hb : c ≠ '\\' := fun hc => h (.inl hc)
    have hcq : c ≠ q := fun hc => h (.inr hc)
    split
    · rename_i h1; subst h1; simp [readChar, readEscape]
    · rename_i h1
      split
      · rename_i h2; subst h2; simp [readChar, readEscape]
      · rename_i h2
        split
        · rename_i h3; subst h3; simp [readChar, readEscape]
        · split
          · simp [readChar, hb, hcq, h1, h2]
          · split
            · rename_i h4
              have := readHex_of (w := 2) (n := c.toNat) r (by omega)
              simp [readChar, readEscape, hexWidth, this, charOf_toNat]
            · split
              · rename_i h4
                have := readHex_of (w := 4) (n := c.toNat) r (by omega)
                simp [readChar, readEscape, hexWidth, this, charOf_toNat]
              · have := readHex_of (w := 8) (n := c.toNat) r (toNat_lt c)
                simp [readChar, readEscape, hexWidth, this, charOf_toNat]

theorem body_flatMap (p : Char → Bool) {q : Char} (hq : q = '\'' ∨ q = '"') (s : Str) :
    Body q (s.flatMap (escape p q) ++ [q]) s := by
  induction s with
  | nil => exact .close
  | cons c s ih =>
    rw [List.flatMap_cons, List.append_assoc]
    exact .char (readChar_escape p hq c _) ih

theorem lit_reprStr (p : Char → Bool) (s : Str) : Lit (reprStr p s) (.str s) := by
  have hq : quoteOf s = '\'' ∨ quoteOf s = '"' := by unfold quoteOf; split <;> simp
  exact .str hq (body_flatMap p hq s)

theorem natStr_head (n : Nat) : (Py.natStr n).head? = some '0' → n = 0 := by
  induction n using Py.natStr.induct with
  | case1 n h =>
    rw [Py.natStr, if_pos h]
    have : n = 0 ∨ n = 1 ∨ n = 2 ∨ n = 3 ∨ n = 4 ∨ n = 5 ∨ n = 6 ∨ n = 7 ∨ n = 8 ∨ n = 9 := by omega
    rcases this with h|h|h|h|h|h|h|h|h|h <;> subst h <;> decide
  | case2 n h ih =>
    rw [Py.natStr, if_neg h]
    intro hh
    have hne := Py.natStr_ne_nil (n / 10)
    cases hl : Py.natStr (n / 10) with
    | nil => exact absurd hl hne
    | cons c r =>
      rw [hl] at hh ih
      have := ih (by simpa using hh)
      omega

theorem natOf_natStr (n : Nat) : natOf (Py.natStr n) = n := by
  obtain ⟨k, hk⟩ := Py.natStr_foldl n 0
  simpa [natOf] using hk

theorem decimal_natStr (n : Nat) : Decimal (Py.natStr n) := by
  refine ⟨Py.natStr_ne_nil n, Py.natStr_digits n, fun h => ?_⟩
  have := natStr_head n h
  subst this
  rw [Py.natStr]
  rfl

theorem lit_natStr (n : Nat) : Lit (Py.natStr n) (.int n) := by
  have := Lit.nat (decimal_natStr n)
  rwa [natOf_natStr] at this

theorem lit_intStr (i : Int) : Lit (Py.intStr i) (.int i) := by
  cases i with
  | ofNat n => exact lit_natStr n
  | negSucc n =>
    have := Lit.neg (decimal_natStr (n + 1))
    rw [natOf_natStr] at this
    exact this

mutual
theorem lit_repr (p : Char → Bool) : ∀ k : Key, k.Readable → Lit (reprKey p k) k
  | .int n, _ => by rw [reprKey]; exact lit_intStr n
  | .str s, _ => by rw [reprKey]; exact lit_reprStr p s
  | .none, _ => by rw [reprKey]; exact .none
  | .bool true, _ => by rw [reprKey]; exact .true
  | .bool false, _ => by rw [reprKey]; exact .false
  | .tuple [], _ => by rw [reprKey]; exact .unit
  | .tuple [k], h => by rw [reprKey]; exact .single (lit_repr p k h.1)
  | .tuple (k :: k' :: l), h => by
      rw [reprKey]
      · exact .tuple (lit_repr p k h.1) (rest_repr p (k' :: l) h.2)
      · simp
  | .other _ _ _, h => h.elim
theorem rest_repr (p : Char → Bool) : ∀ l : List Key, ReadableAll l → Rest (reprRest p l) l
  | [], _ => .close
  | k :: l, h => .more (lit_repr p k h.1) (rest_repr p l h.2)
end

/-! ### Looking keys up -/

mutual
theorem same_refl : ∀ k : Key, k.same k = true
  | .int _ => by simp [Key.same]
  | .str _ => by simp [Key.same]
  | .none => by simp [Key.same]
  | .bool _ => by simp [Key.same]
  | .tuple l => by rw [Key.same]; exact sameAll_refl l
  | .other _ _ _ => by simp [Key.same]
theorem sameAll_refl : ∀ l : List Key, sameAll l l = true
  | [] => rfl
  | k :: l => by rw [sameAll, same_refl k, sameAll_refl l]; rfl
end

theorem lookup_of {items : List (Key × Nat)}
    (h : items.Pairwise fun a b => a.1.norm.same b.1.norm = false) {x : Key × Nat} (hx : x ∈ items) :
    lookup items x.1 = some x.2 := by
  induction items with
  | nil => cases hx
  | cons y l ih =>
    rw [List.pairwise_cons] at h
    unfold lookup
    rw [List.find?_cons]
    rcases List.mem_cons.mp hx with rfl | hm
    · rw [same_refl]; rfl
    · rw [h.1 x hm]
      exact ih h.2 hm

end EvalName
