import Verif.Resolver.Spec
/-!
**C42.** Fully expanding a list, tuple or deque (initial items, then the 'more' buckets) yields each element exactly once with its
right index, and each index label resolves to that element.
-/

namespace Resolver

open Spec
open Py (slice slice_eq slice_drop slice_length)

/-! ### Numerals -/

theorem parse_digits (s : Str) (hne : s ≠ []) (hd : ∀ c ∈ s, Py.isDigit c = true) :
    Py.parseInt s = some ((s.foldl (fun x c => x * 10 + Py.digitVal c) 0 : Nat) : Int) := by
  unfold Py.parseInt
  rw [Py.strip_eq_self fun c hc => Py.not_isSpace_of_isDigit (hd c hc)]
  cases s with
  | nil => exact absurd rfl hne
  | cons c cs =>
    have hc := hd c (by simp)
    have e1 : c ≠ '-' := by rintro rfl; exact absurd hc (by decide)
    have e2 : c ≠ '+' := by rintro rfl; exact absurd hc (by decide)
    have h := Py.parseDigits_append (c :: cs) [] 0 false hd
    rw [List.append_nil] at h
    split
    · simp_all
    · simp_all
    · rw [h]
      simp [Py.parseDigits]

theorem foldl_zeros (b : Nat) (v : Char → Nat) (hv : v '0' = 0) (n : Nat) (s : Str) :
    (List.replicate n '0' ++ s).foldl (fun x c => x * b + v c) 0 = s.foldl (fun x c => x * b + v c) 0 := by
  induction n with
  | zero => rfl
  | succ n ih => rw [List.replicate_succ, List.cons_append, List.foldl_cons, hv]; simpa using ih

theorem parse_decLabel (len i : Nat) : Py.parseInt (decLabel len i) = some (i : Int) := by
  unfold decLabel zeros
  rw [parse_digits]
  · rw [foldl_zeros 10 Py.digitVal rfl]
    obtain ⟨k, hk⟩ := Py.natStr_foldl i 0
    rw [hk]
    simp
  · intro h
    exact Py.natStr_ne_nil i (List.append_eq_nil_iff.1 h).2
  · intro c hc
    rcases List.mem_append.1 hc with hc | hc
    · rw [(List.mem_replicate.1 hc).2]
      rfl
    · exact Py.natStr_digits i c hc

theorem hexVal_hexDigit {d : Nat} (h : d < 16) : hexVal (hexDigit d) = d := by
  have : d = 0 ∨ d = 1 ∨ d = 2 ∨ d = 3 ∨ d = 4 ∨ d = 5 ∨ d = 6 ∨ d = 7 ∨ d = 8 ∨ d = 9 ∨ d = 10 ∨ d = 11 ∨ d = 12 ∨ d = 13 ∨
    d = 14 ∨ d = 15 := by omega
  rcases this with rfl | rfl | rfl | rfl | rfl | rfl | rfl | rfl | rfl | rfl | rfl | rfl | rfl | rfl | rfl | rfl <;> rfl

theorem hexStr_foldl (n : Nat) (acc : Nat) : ∃ k, (hexStr n).foldl (fun x c => x * 16 + hexVal c) acc = acc * 16 ^ k + n := by
  induction n using hexStr.induct generalizing acc with
  | case1 n h =>
    rw [hexStr, if_pos h]
    exact ⟨1, by simp [hexVal_hexDigit h]⟩
  | case2 n h ih =>
    rw [hexStr, if_neg h]
    obtain ⟨k, hk⟩ := ih acc
    refine ⟨k + 1, ?_⟩
    have hd : n % 16 < 16 := by omega
    rw [List.foldl_append, hk]
    simp only [List.foldl_cons, List.foldl_nil, hexVal_hexDigit hd]
    rw [Nat.add_mul, Nat.pow_succ, ← Nat.mul_assoc]
    omega

theorem numeral_label (hex : Bool) (len i : Nat) : Numeral (label hex len i) i := by
  cases hex with
  | false => exact .inl (parse_decLabel len i)
  | true =>
    refine .inr ⟨_, rfl, ?_⟩
    unfold zeros
    rw [foldl_zeros 16 hexVal rfl]
    obtain ⟨k, hk⟩ := hexStr_foldl i 0
    rw [hk]
    simp

/-! ### The rows of a part of the sequence -/

/-- the rows for the items `seg` from the index `i` -/
def At {α : Type} : Nat → List α → List (Row α) → Prop
  | _, [], rows => rows = []
  | _, _ :: _, [] => False
  | i, a :: as, r :: rs => r.val = .elem a ∧ r.evalName = some (evalName i) ∧ Numeral r.name i ∧ At (i + 1) as rs

theorem at_append {α : Type} {i : Nat} {s s' : List α} {r r' : List (Row α)} (h : At i s r) (h' : At (i + s.length) s' r') :
    At i (s ++ s') (r ++ r') := by
  induction s generalizing i r with
  | nil =>
    simp only [At] at h
    subst h
    exact h'
  | cons a s ih =>
    cases r with
    | nil => exact h.elim
    | cons x r =>
      obtain ⟨h1, h2, h3, h4⟩ := h
      refine ⟨h1, h2, h3, ih h4 ?_⟩
      have : i + (a :: s).length = i + 1 + s.length := by simp; omega
      rw [← this]
      exact h'

theorem at_range {α : Type} (hex : Bool) (len i : Nat) (s : List α) : At i s (rangeRows hex len i s) := by
  induction s generalizing i with
  | nil => rfl
  | cons a s ih => exact ⟨rfl, rfl, numeral_label hex len i, ih (i + 1)⟩

theorem at_shows {α : Type} {l : List α} {out : List (Row α)} (h : At 0 l out) : Shows l out := by
  have key : ∀ (l : List α) (out : List (Row α)) (k : Nat), At k l out → out.map (·.val) = l.map .elem ∧
      ∀ i row, out[i]? = some row → Numeral row.name (k + i) ∧ row.evalName = some (evalName (k + i)) := by
    intro l
    induction l with
    | nil =>
      intro out k h
      simp only [At] at h
      subst h
      exact ⟨rfl, by simp⟩
    | cons a l ih =>
      intro out k h
      cases out with
      | nil => exact h.elim
      | cons x out =>
        obtain ⟨h1, h2, h3, h4⟩ := h
        obtain ⟨h5, h6⟩ := ih out (k + 1) h4
        refine ⟨by simp [h1, h5], ?_⟩
        intro i row hi
        cases i with
        | zero =>
          simp only [List.getElem?_cons_zero, Option.some.injEq] at hi
          subst hi
          exact ⟨h3, h2⟩
        | succ i =>
          simp only [List.getElem?_cons_succ] at hi
          have := h6 i row hi
          have he : k + 1 + i = k + (i + 1) := by omega
          rw [he] at this
          exact this
  have := key l out 0 h
  simp only [Nat.zero_add] at this
  exact this

/-- rows of items are not changed by opening all rows -/
theorem expand_at {α : Type} {c : Cfg} {sl : Bool} {l : List α} {i : Nat} {seg : List α} {rows out : List (Row α)} (h : At i seg rows) :
    Expand c sl l rows out ↔ out = rows := by
  induction seg generalizing i rows out with
  | nil =>
    simp only [At] at h
    subst h
    constructor
    · intro h; cases h; rfl
    · rintro rfl; exact .nil
  | cons a seg ih =>
    cases rows with
    | nil => exact h.elim
    | cons r rows =>
      obtain ⟨h1, h2, h3, h4⟩ := h
      obtain ⟨name, val, e⟩ := r
      simp only at h1
      subst h1
      constructor
      · intro h
        cases h with
        | item _ _ _ _ out h => rw [(ih h4).1 h]
        | opened _ _ _ _ _ _ _ _ hv => exact absurd rfl (hv a)
      · rintro rfl
        exact .item _ _ _ _ _ ((ih h4).2 rfl)

theorem expand_append {α : Type} {c : Cfg} {sl : Bool} {l : List α} {rows rows' out : List (Row α)} :
    Expand c sl l (rows ++ rows') out ↔ ∃ o o', Expand c sl l rows o ∧ Expand c sl l rows' o' ∧ out = o ++ o' := by
  induction rows generalizing out with
  | nil =>
    constructor
    · intro h; exact ⟨[], out, .nil, h, rfl⟩
    · rintro ⟨o, o', h1, h2, rfl⟩
      cases h1
      exact h2
  | cons r rows ih =>
    constructor
    · intro h
      rw [List.cons_append] at h
      cases h with
      | item name a e _ out h =>
        obtain ⟨o, o', h1, h2, rfl⟩ := ih.1 h
        exact ⟨_, o', .item name a e _ _ h1, h2, rfl⟩
      | count name n e _ out h =>
        obtain ⟨o, o', h1, h2, rfl⟩ := ih.1 h
        exact ⟨_, o', .count name n e _ _ h1, h2, rfl⟩
      | opened name v e fuel sub _ out out' hv hv' hs h h' =>
        obtain ⟨o, o', h1, h2, rfl⟩ := ih.1 h'
        exact ⟨_, o', .opened name v e fuel sub _ _ _ hv hv' hs h h1, h2, by simp⟩
    · rintro ⟨o, o', h1, h2, rfl⟩
      rw [List.cons_append]
      cases h1 with
      | item name a e _ out h => exact .item name a e _ _ (ih.2 ⟨_, _, h, h2, rfl⟩)
      | count name n e _ out h => exact .count name n e _ _ (ih.2 ⟨_, _, h, h2, rfl⟩)
      | opened name v e fuel sub _ out out' hv hv' hs h h' =>
        rw [List.append_assoc]
        exact .opened name v e fuel sub _ _ _ hv hv' hs h (ih.2 ⟨_, _, h', h2, rfl⟩)

/-- opening a range -/
theorem expand_range {α : Type} {c : Cfg} {l : List α} (a b : Nat) (name : Str) (e : Option Str) (out : List (Row α)) :
    Expand c true l [⟨name, .range a b, e⟩] out ↔ out = rangeRows false l.length a (slice l a b) := by
  constructor
  · intro h
    cases h with
    | opened _ _ _ fuel sub _ out out' hv hv' hs h h' =>
      cases h'
      simp only [children, rangeContents, if_true, Option.some.injEq, Int.toNat_natCast] at hs
      subst hs
      rw [(expand_at (at_range false l.length a (slice l a b))).1 h]
      simp
  · rintro rfl
    have h := Expand.opened (c := c) (slices := true) (l := l) name (.range a b) e 0 (rangeRows false l.length a (slice l a b)) [] _ []
      (by intro x h; cases h) (by intro x h; cases h) (by simp [children, rangeContents])
      ((expand_at (at_range false l.length a (slice l a b))).2 rfl) .nil
    simpa using h

/-- the buckets from `a` to the end -/
theorem expand_buckets {α : Type} {c : Cfg} {l : List α} (hb : 1 ≤ c.bucket) (fuel : Nat) (remaining : Int) (a b : Nat)
    (h : (remaining = (l.length : Int) - a ∧ a ≤ l.length ∧ (b : Int) = a + min c.bucket remaining) ∨ (remaining ≤ 0 ∧ a = l.length))
    (rows out : List (Row α)) (hr : bucketLoop c.bucket fuel remaining a b = some rows) :
    Expand c true l rows out → At a (l.drop a) out := by
  induction fuel generalizing remaining a b rows out with
  | zero => cases hr
  | succ fuel ih =>
    rw [bucketLoop] at hr
    split at hr
    · rename_i hpos
      rcases h with ⟨h1, h2, h3⟩ | ⟨h1, _⟩
      · obtain ⟨rest, hrest, rfl⟩ := Option.map_eq_some_iff.1 hr
        intro hex
        obtain ⟨o, o', e1, e2, rfl⟩ := expand_append (rows := [_]).1 hex
        have hbl : b ≤ l.length := by omega
        have hab : a ≤ b := by omega
        have e1 := (expand_range a b _ _ _).1 e1
        subst e1
        have hstep : At b (l.drop b) o' := by
          by_cases hlast : remaining - c.bucket > 0
          · obtain ⟨b', hb'⟩ : ∃ b' : Nat, (b' : Int) = (b : Int) + min c.bucket (remaining - c.bucket) :=
              ⟨((b : Int) + min c.bucket (remaining - c.bucket)).toNat, by omega⟩
            rw [← hb'] at hrest
            exact ih _ b b' (.inl ⟨by omega, hbl, hb'⟩) rest o' hrest e2
          · have hbe : b = l.length := by omega
            have hnil : rest = [] := by
              cases fuel with
              | zero => cases hrest
              | succ fuel =>
                rw [bucketLoop, if_neg (by omega)] at hrest
                exact (Option.some.inj hrest).symm
            subst hnil
            cases e2
            rw [hbe, List.drop_length]
            rfl
        rw [← slice_drop l a b hbl hab]
        refine at_append (at_range _ _ _ _) ?_
        rw [slice_length l a b hbl hab]
        have : a + (b - a) = b := by omega
        rw [this]
        exact hstep
      · omega
    · rename_i hpos
      have := Option.some.inj hr
      subst this
      intro hex
      cases hex
      have : a = l.length := by
        rcases h with ⟨h1, h2, _⟩ | ⟨_, h2⟩
        · omega
        · exact h2
      rw [this, List.drop_length]
      rfl

theorem buckets_end {α : Type} {c : Cfg} {l : List α} (hb : 1 ≤ c.bucket) (fuel : Nat) (remaining : Int) (a b : Nat)
    (h : (remaining = (l.length : Int) - a ∧ a ≤ l.length ∧ (b : Int) = a + min c.bucket remaining) ∨ (remaining ≤ 0 ∧ a = l.length))
    (hf : remaining.toNat < fuel) : ∃ rows out, bucketLoop (α := α) c.bucket fuel remaining a b = some rows ∧ Expand c true l rows out := by
  induction fuel generalizing remaining a b with
  | zero => omega
  | succ fuel ih =>
    rw [bucketLoop]
    split
    · rename_i hpos
      rcases h with ⟨h1, h2, h3⟩ | ⟨h1, _⟩
      · have hbl : b ≤ l.length := by omega
        have hrest : ∃ rows out, bucketLoop (α := α) c.bucket fuel (remaining - c.bucket) b (b + min c.bucket (remaining - c.bucket)) = some rows ∧
            Expand c true l rows out := by
          by_cases hlast : remaining - c.bucket > 0
          · obtain ⟨b', hb'⟩ : ∃ b' : Nat, (b' : Int) = (b : Int) + min c.bucket (remaining - c.bucket) :=
              ⟨((b : Int) + min c.bucket (remaining - c.bucket)).toNat, by omega⟩
            rw [← hb']
            exact ih _ b b' (.inl ⟨by omega, hbl, hb'⟩) (by omega)
          · cases fuel with
            | zero => omega
            | succ fuel =>
              rw [bucketLoop, if_neg (by omega)]
              exact ⟨[], [], rfl, .nil⟩
        obtain ⟨rows, out, e1, e2⟩ := hrest
        refine ⟨_, _, by rw [e1]; rfl, expand_append (rows := [_]).2 ⟨_, _, (expand_range a b _ _ _).2 rfl, e2, rfl⟩⟩
      · omega
    · exact ⟨[], [], rfl, .nil⟩

/-- opening `MoreItems` -/
theorem expand_more {α : Type} {c : Cfg} {l : List α} (hb : 1 ≤ c.bucket) (h : Nat) (hl : h ≤ l.length) (name : Str) (e : Option Str) :
    (∃ out, Expand c true l [⟨name, .more h, e⟩] out) ∧ ∀ out, Expand c true l [⟨name, .more h, e⟩] out → At h (l.drop h) out := by
  obtain ⟨b, hbd⟩ : ∃ b : Nat, (b : Int) = (h : Int) + min c.bucket ((l.length : Int) - h) :=
    ⟨((h : Int) + min c.bucket ((l.length : Int) - h)).toNat, by omega⟩
  constructor
  · obtain ⟨rows, out, h1, h2⟩ := buckets_end (c := c) (l := l) hb (l.length + 1) ((l.length : Int) - h) h b (.inl ⟨rfl, hl, hbd⟩) (by omega)
    refine ⟨out ++ [], .opened _ _ _ (l.length + 1) rows [] out [] (by intro x h; cases h) (by intro x h; cases h) ?_ h2 .nil⟩
    rw [children, moreContents, ← hbd]
    exact h1
  · intro out hex
    cases hex with
    | opened _ _ _ fuel sub _ out out' hv hv' hs h1 h2 =>
      cases h2
      rw [List.append_nil]
      rw [children, moreContents, ← hbd] at hs
      exact expand_buckets hb fuel _ h b (.inl ⟨rfl, hl, hbd⟩) sub out hs h1

/-- the rows for the first items -/
theorem seqLoop_eq {α : Type} (c : Cfg) (hi : 1 ≤ c.initial) (hex : Bool) (len i : Nat) (l : List α) (hl : (i : Int) < c.initial) :
    seqLoop c hex len i l = rangeRows hex len i (l.take (c.initial.toNat - i)) ++
      (if c.initial ≤ (i : Int) + l.length then
        [⟨c!"more", if (len : Int) - c.initial < c.bucket then .range c.initial len else .more c.initial, none⟩]
      else []) := by
  induction l generalizing i with
  | nil =>
    rw [if_neg (by simp; omega)]
    simp [seqLoop, rangeRows]
  | cons a l ih =>
    rw [seqLoop]
    have htake : ∃ k, c.initial.toNat - i = k + 1 := ⟨c.initial.toNat - i - 1, by omega⟩
    obtain ⟨k, hk⟩ := htake
    rw [hk, List.take_succ_cons, rangeRows, List.cons_append]
    congr 1
    split
    · rename_i hge
      have : k = 0 := by omega
      subst this
      have hp : c.initial ≤ (i : Int) + ((a :: l).length : Nat) := by simp only [List.length_cons]; omega
      rw [if_pos hp]
      rfl
    · rename_i hge
      rw [ih (i + 1) (by omega)]
      have : c.initial.toNat - (i + 1) = k := by omega
      rw [this]
      congr 1
      simp only [List.length_cons]
      have : (c.initial ≤ ((i + 1 : Nat) : Int) + l.length) = (c.initial ≤ (i : Int) + ((l.length + 1 : Nat) : Int)) := by
        apply propext
        omega
      simp only [this]

/-- **C42.** For a list or a tuple of any length, with at least one item shown at once and at least one in a bucket: opening all
rows ends and shows each item exactly once, in order, under its index. -/
theorem c42_all_items {α : Type} (c : Cfg) (hi : 1 ≤ c.initial) (hb : 1 ≤ c.bucket) (hex : Bool) (l : List α) :
    (∃ out, Expand c true l (seqContents c hex l) out) ∧ ∀ out, Expand c true l (seqContents c hex l) out → Shows l out := by
  have hloop := seqLoop_eq c hi hex l.length 0 l (by omega)
  simp only [Nat.sub_zero] at hloop
  obtain ⟨n, hn⟩ : ∃ n : Nat, c.initial = n := ⟨c.initial.toNat, by omega⟩
  have hcount : ∀ (o : List (Row α)), Expand c true l [⟨c!"len()", .count l.length, none⟩] o ↔ o = [] := by
    intro o
    constructor
    · intro h
      cases h with
      | count _ _ _ _ _ h => cases h; rfl
      | opened _ _ _ _ _ _ _ _ _ hv => exact absurd rfl (hv _)
    · rintro rfl
      exact .count _ _ _ _ _ .nil
  have hmore : ∀ (hle : n ≤ l.length), ∃ rows : List (Row α),
      (if c.initial ≤ ((0 : Nat) : Int) + l.length then
        [(⟨c!"more", if (l.length : Int) - c.initial < c.bucket then .range c.initial l.length else .more c.initial, none⟩ : Row α)]
      else []) = rows ∧ (∃ out, Expand c true l rows out) ∧ ∀ out, Expand c true l rows out → At n (l.drop n) out := by
    intro hle
    refine ⟨_, rfl, ?_⟩
    rw [if_pos (by omega), hn]
    split
    · constructor
      · exact ⟨_, (expand_range n l.length _ _ _).2 rfl⟩
      · intro out h
        rw [(expand_range n l.length _ _ _).1 h]
        have := slice_drop l n l.length (Nat.le_refl _) hle
        rw [List.drop_length, List.append_nil] at this
        rw [this]
        exact at_range _ _ _ _
    · exact expand_more hb n hle _ _
  have htn : c.initial.toNat = n := by omega
  rw [htn] at hloop
  unfold seqContents
  rw [hloop]
  by_cases hle : n ≤ l.length
  · obtain ⟨rows, hrows, ⟨o2, ho2⟩, hall⟩ := hmore hle
    rw [hrows]
    constructor
    · exact ⟨_, expand_append.2 ⟨_, _, expand_append.2 ⟨_, _, (expand_at (at_range hex l.length 0 (l.take n))).2 rfl, ho2, rfl⟩, (hcount _).2 rfl, rfl⟩⟩
    · intro out h
      obtain ⟨o, o', h1, h2, rfl⟩ := expand_append.1 h
      obtain ⟨p, p', h3, h4, rfl⟩ := expand_append.1 h1
      rw [(hcount _).1 h2, List.append_nil]
      rw [(expand_at (at_range hex l.length 0 (l.take n))).1 h3]
      apply at_shows
      have := at_append (at_range hex l.length 0 (l.take n)) (s' := l.drop n) (r' := p') (by
        rw [List.length_take, Nat.min_eq_left hle, Nat.zero_add]
        exact hall p' h4)
      rw [List.take_append_drop] at this
      exact this
  · rw [if_neg (by omega), List.append_nil]
    have htake : l.take n = l := List.take_of_length_le (by omega)
    rw [htake]
    constructor
    · exact ⟨_, expand_append.2 ⟨_, _, (expand_at (at_range hex l.length 0 l)).2 rfl, (hcount _).2 rfl, rfl⟩⟩
    · intro out h
      obtain ⟨o, o', h1, h2, rfl⟩ := expand_append.1 h
      rw [(hcount _).1 h2, List.append_nil]
      rw [(expand_at (at_range hex l.length 0 l)).1 h1]
      exact at_shows (at_range hex l.length 0 l)

/-! ### Names resolve to items -/

theorem index_nat {α : Type} (l : List α) (i : Nat) : index l (i : Int) = l[i]? := by
  unfold index
  rw [if_neg (by omega)]
  simp

/-- **C42.** The name of an item, a decimal index, resolves to the item: in the sequence and below `more`. -/
theorem c42_resolves {α : Type} (c : Cfg) (l : List α) (i : Nat) (a : α) (h : l[i]? = some a) :
    resolve c l (decLabel l.length i) = some (.elem a) ∧ resolveRange l (decLabel l.length i) = some (.elem a) := by
  unfold resolve resolveRange
  rw [parse_decLabel]
  simp only [Option.bind_some, index_nat, h, Option.map_some, and_self]

/-- **C42.** The name of a bucket resolves to the bucket. -/
theorem c42_resolves_bucket {α : Type} (a b : Int) : resolveMore (α := α) (rangeName a b) = some (.range a b) := by
  have hns : ∀ i : Int, ':' ∉ Py.intStr i := by
    intro i hm
    cases i with
    | ofNat n => exact absurd (Py.natStr_digits n _ hm) (by decide)
    | negSucc n =>
      simp only [Py.intStr, List.mem_cons] at hm
      rcases hm with hm | hm
      · cases hm
      · exact absurd (Py.natStr_digits _ _ hm) (by decide)
  unfold resolveMore rangeName
  have : ((('[' :: (Py.intStr a ++ ':' :: (Py.intStr b ++ [']']))).take (('[' :: (Py.intStr a ++ ':' :: (Py.intStr b ++ [']']))).length - 1)).drop 1) =
      Py.intStr a ++ ':' :: Py.intStr b := by
    have e : '[' :: (Py.intStr a ++ ':' :: (Py.intStr b ++ [']'])) = ('[' :: (Py.intStr a ++ ':' :: Py.intStr b)) ++ [']'] := by simp
    rw [e, List.length_append, List.length_singleton, Nat.add_sub_cancel, List.take_left]
    rfl
  rw [this, Py.split1_append _ _ _ (hns a), Py.split1_of_not_mem _ _ (hns b)]
  simp only [Py.parseInt_intStr, Option.bind_some, Option.map_some]

/-- The rows of the XML protocol (`get_dictionary`) are the same, except that the remaining items are always in buckets. -/
theorem c42_dictionary {α : Type} (c : Cfg) (len i : Nat) (l : List α) :
    dictLoop c len i l = (seqLoop c false len i l).map fun r => (r.name, if r.evalName = none then .more c.initial else r.val) := by
  induction l generalizing i with
  | nil => rfl
  | cons a l ih =>
    rw [dictLoop, seqLoop]
    split
    · simp [label]
    · simp [label, ih]

/-! ### What the provisos exclude -/

/-- With `PYDEVD_CONTAINER_INITIAL_EXPANDED_ITEMS=0` the first item is shown twice. -/
theorem c42_initial_zero : Expand ⟨0, 1000⟩ true [10, 20] (seqContents ⟨0, 1000⟩ false [10, 20])
    [⟨c!"0", .elem 10, some c!"[0]"⟩, ⟨c!"0", .elem 10, some c!"[0]"⟩, ⟨c!"1", .elem 20, some c!"[1]"⟩] := by
  have h1 : seqContents ⟨0, 1000⟩ false [10, 20] =
      [⟨c!"0", .elem 10, some c!"[0]"⟩, ⟨c!"more", .range 0 2, none⟩, ⟨c!"len()", .count 2, none⟩] := by decide +kernel
  have h2 : children ⟨0, 1000⟩ true 0 [10, 20] (.range 0 2) =
      some [⟨c!"0", .elem 10, some c!"[0]"⟩, ⟨c!"1", .elem 20, some c!"[1]"⟩] := by decide +kernel
  rw [h1]
  exact .item _ _ _ _ _ (.opened _ _ _ 0 _ _ _ [] (by intro x h; cases h) (by intro x h; cases h) h2
    (.item _ _ _ _ _ (.item _ _ _ _ _ .nil)) (.count _ _ _ _ _ .nil))

/-- With `PYDEVD_CONTAINER_BUCKET_SIZE=0` opening `more` of a longer sequence never ends. -/
theorem c42_bucket_zero (l : List Nat) (h : 100 < l.length) (fuel : Nat) : moreContents (α := Nat) ⟨100, 0⟩ fuel l 100 = none := by
  have key : ∀ fuel (r a b : Int), 0 < r → bucketLoop (α := Nat) 0 fuel r a b = none := by
    intro fuel
    induction fuel with
    | zero => intros; rfl
    | succ fuel ih =>
      intro r a b hr
      rw [bucketLoop, if_pos hr, ih _ _ _ (by omega)]
      rfl
  exact key fuel _ _ _ (by omega)

theorem expand_mem {α : Type} {c : Cfg} {sl : Bool} {l : List α} {rows out : List (Row α)} (h : Expand c sl l rows out) (r : Row α)
    (hr : r ∈ rows) : ∃ o, Expand c sl l [r] o := by
  obtain ⟨s, t, rfl⟩ := List.append_of_mem hr
  obtain ⟨_, _, _, h2, _⟩ := expand_append.1 h
  obtain ⟨o, _, h3, _, _⟩ := expand_append (rows := [r]).1 h2
  exact ⟨o, h3⟩

theorem no_slices {α : Type} {c : Cfg} {l : List α} (name : Str) (a b : Int) (e : Option Str) (out : List (Row α)) :
    ¬ Expand c false l [⟨name, .range a b, e⟩] out := by
  intro h
  cases h with
  | opened _ _ _ _ _ _ _ _ _ _ hs => cases hs

/-- A deque has no slices: below `more` there is an error instead of the items, so a deque with at least as many items as are
shown at once is never shown completely. -/
theorem c42_deque_fails {α : Type} (c : Cfg) (hi : 1 ≤ c.initial) (hb : 1 ≤ c.bucket) (hex : Bool) (l : List α)
    (hl : c.initial ≤ l.length) (out : List (Row α)) : ¬ Expand c false l (seqContents c hex l) out := by
  intro h
  unfold seqContents at h
  rw [seqLoop_eq c hi hex l.length 0 l (by omega), if_pos (by omega)] at h
  obtain ⟨o, ho⟩ := expand_mem h _ (List.mem_append_left _ (List.mem_append_right _ (List.mem_singleton.2 rfl)))
  split at ho
  · exact no_slices _ _ _ _ _ ho
  · cases ho with
    | opened _ _ _ fuel sub _ _ _ _ _ hs h1 h2 =>
      rw [children, moreContents] at hs
      cases fuel with
      | zero => cases hs
      | succ fuel =>
        rw [bucketLoop, if_pos (by omega)] at hs
        obtain ⟨rest, _, rfl⟩ := Option.map_eq_some_iff.1 hs
        obtain ⟨o, ho⟩ := expand_mem h1 _ (List.mem_cons_self)
        exact no_slices _ _ _ _ _ ho

/-- Below `more` the names are decimal although hexadecimal names were asked for. -/
theorem c42_hex_more : (seqContents ⟨1, 10⟩ true [7, 8]).map (·.name) = [c!"0x0", c!"more", c!"len()"] ∧
    (children ⟨1, 10⟩ true 9 [7, 8] (.range 1 2)).map (·.map (·.name)) = some [c!"1"] := by decide +kernel

/-- A hexadecimal name does not resolve to the item. -/
theorem c42_hex_name : label true 2 1 = c!"0x1" ∧ resolve ⟨100, 1000⟩ [7, 8] c!"0x1" = none := by decide +kernel

/-! ### Cases -/

example : seqContents ⟨2, 2⟩ false [10, 20, 30, 40, 50] = [⟨c!"0", .elem 10, some c!"[0]"⟩, ⟨c!"1", .elem 20, some c!"[1]"⟩,
    ⟨c!"more", .more 2, none⟩, ⟨c!"len()", .count 5, none⟩] := by decide +kernel

example : moreContents (α := Nat) ⟨2, 2⟩ 9 [10, 20, 30, 40, 50] 2 =
    some [⟨c!"[2:4]", .range 2 4, none⟩, ⟨c!"[4:5]", .range 4 5, none⟩] := by decide +kernel

example : decLabel 1000 7 = c!"007" ∧ hexLabel 1000 10 = c!"0x00a" := by decide +kernel

end Resolver
