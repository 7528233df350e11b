import Verif.SafeRepr.Spec
/-!
C38 (representations are bounded, and exact when short).
-/

namespace SafeRepr
open Spec

/-! ### Bound -/

/-- at most ten characters are written for one (`\U0010ffff`) -/
def ShortEsc (esc : Char → Str) : Prop := ∀ c, (esc c).length ≤ 10

/-- the names of types (with the digits of lengths) are at most `T` long -/
def ShortNames (heap : Heap) (T : Nat) : Prop :=
  ∀ id r iter name len, heap id = .other r iter name len → name.length + (Py.natStr (len.getD 0)).length ≤ T

theorem pyStr_length {esc : Char → Str} (h : ShortEsc esc) (b : Bool) (s : Str) : (pyStr esc b s).length ≤ 10 * s.length + 3 := by
  have h1 : ∀ q : Char, (s.flatMap fun c => if c = '\'' ∧ q = '\'' then ['\\', '\''] else esc c).length ≤ 10 * s.length := by
    intro q
    induction s with
    | nil => simp
    | cons c s ih =>
      rw [List.flatMap_cons, List.length_append, List.length_cons]
      have : (if c = '\'' ∧ q = '\'' then ['\\', '\''] else esc c).length ≤ 10 := by
        split
        · simp
        · exact h c
      omega
  have h2 := h1 (quoteOf s)
  unfold pyStr
  simp only [List.length_append, List.length_cons, List.length_nil]
  cases b <;> simp only [Bool.false_eq_true, if_false, if_true, List.length_nil, List.length_cons] <;> omega

theorem dropWhile_length (p : Char → Bool) (s : Str) : (s.dropWhile p).length ≤ s.length := (List.dropWhile_sublist p).length_le

theorem beforeLastQuote_length {s t : Str} (h : beforeLastQuote s = some t) : t.length ≤ s.length := by
  unfold beforeLastQuote at h
  split at h
  · cases h
    rw [List.length_reverse, List.length_drop]
    have := dropWhile_length (· ≠ '\'') s.reverse
    rw [List.length_reverse] at this
    omega
  · cases h

theorem afterFirstQuote_length {s t : Str} (h : afterFirstQuote s = some t) : t.length ≤ s.length := by
  unfold afterFirstQuote at h
  split at h
  · cases h
    rw [List.length_drop]
    have := dropWhile_length (· ≠ '\'') s
    omega
  · cases h

theorem counts (limit : Nat) : leftCount limit + rightCount limit ≤ limit + 2 := by
  unfold leftCount rightCount; omega

theorem lastN_length (n : Nat) (s : Str) : (lastN n s).length ≤ n := by
  unfold lastN; rw [List.length_drop]; omega

theorem cut_length (limit : Nat) (r : Str) : (cut limit r).length ≤ limit + 5 := by
  unfold cut
  split
  · omega
  · simp only [List.length_append, List.length_take, List.length_cons, List.length_nil]
    have := counts limit
    have := lastN_length (rightCount limit) r
    omega

theorem reprText_length (cfg : Cfg) (h : ShortEsc cfg.esc) (inner b : Bool) (s : Str) :
    (reprText cfg inner b s).length ≤ 10 * (if inner then cfg.inner else cfg.outer) + 29 := by
  unfold reprText
  simp only
  generalize (if inner then cfg.inner else cfg.outer) = limit
  split
  · have := pyStr_length h b s; omega
  · split
    · rename_i p1 p2 h1 h2
      have h3 := beforeLastQuote_length h1
      have h4 := afterFirstQuote_length h2
      have h5 := pyStr_length h b (s.take (leftCount limit))
      have h6 := pyStr_length h b (lastN (rightCount limit) s)
      have h7 := lastN_length (rightCount limit) s
      have h8 := counts limit
      have h9 : (s.take (leftCount limit)).length ≤ leftCount limit := by rw [List.length_take]; omega
      simp only [List.length_append, List.length_cons, List.length_nil]
      omega
    · have := cut_length limit (pyStr cfg.esc b s); omega

theorem reprOther_length (cfg : Cfg) (heap : Heap) (T : Nat) (hT : ShortNames heap T) (inner : Bool) (id : Id) {r iter name len}
    (hid : heap id = .other r iter name len) :
    (reprOther cfg heap inner id r name len).length ≤ 10 * (if inner then cfg.inner else cfg.outer) + T + 29 := by
  unfold reprOther
  have hn := hT id r iter name len hid
  split
  · unfold reprLong
    cases len with
    | none => simp only [List.length_append, List.length_cons, List.length_nil]; omega
    | some n => simp only [List.length_append, List.length_cons, List.length_nil, Option.getD_some] at hn ⊢; omega
  · have := cut_length (if inner then cfg.inner else cfg.outer) r; omega

theorem reprDeep_length (cfg : Cfg) (hesc : ShortEsc cfg.esc) (heap : Heap) (T : Nat) (hT : ShortNames heap T) (inner : Bool) (id : Id) :
    (reprDeep cfg heap inner id).length ≤ 10 * (if inner then cfg.inner else cfg.outer) + T + 29 := by
  unfold reprDeep
  split
  · rename_i k _ _; cases k <;> simp [Kind.prefix, Kind.suffix] <;> omega
  · rename_i o _ _
    split <;> cases o <;> simp [dictPrefix, dictSuffix] <;> omega
  · rename_i b s _
    have := reprText_length cfg hesc inner b s; omega
  · rename_i h
    exact reprOther_length cfg heap T hT inner id h

theorem loop_length (f : Id → Str) (B : Nat) (hf : ∀ x, (f x).length ≤ B) : ∀ (items : List Id) (count : Nat) (comma : Bool),
    (loop f count comma items).1.length ≤ (count - 1) * (B + 2) + 5 := by
  intro items
  induction items with
  | nil => intro count comma; simp [loop]
  | cons x xs ih =>
    intro count comma
    rw [loop]
    simp only
    split
    · cases comma <;> simp <;> omega
    · rename_i hc
      have h1 := ih (count - 1) true
      have h2 := hf x
      obtain ⟨m, hm⟩ : ∃ m, count = m + 2 := ⟨count - 2, by omega⟩
      subst hm
      simp only [Nat.add_sub_cancel, show m + 2 - 1 = m + 1 by omega] at h1 ⊢
      rw [Nat.succ_mul]
      cases comma <;> simp only [List.length_append, List.length_cons, List.length_nil, Bool.false_eq_true, if_false, if_true] <;> omega

theorem dictLoop_length (f : (Id × Option Id) → Str) (B : Nat) (hf : ∀ x, (f x).length ≤ B) : ∀ (items : List (Id × Option Id)) (count : Nat) (comma : Bool),
    (dictLoop f count comma items).length ≤ (count - 1) * (B + 2) + 5 := by
  intro items
  induction items with
  | nil => intro count comma; simp [dictLoop]
  | cons x xs ih =>
    intro count comma
    rw [dictLoop]
    split
    · cases comma <;> simp <;> omega
    · rename_i hc
      have h1 := ih (count - 1) true
      have h2 := hf x
      obtain ⟨m, hm⟩ : ∃ m, count = m + 2 := ⟨count - 2, by omega⟩
      subst hm
      simp only [Nat.add_sub_cancel, show m + 2 - 1 = m + 1 by omega] at h1 ⊢
      rw [Nat.succ_mul]
      cases comma <;> simp only [List.length_append, List.length_cons, List.length_nil, Bool.false_eq_true, if_false, if_true] <;> omega

theorem bound_deep (cfg : Cfg) (T : Nat) (lims : List Nat) (inner : Bool) :
    10 * (if inner then cfg.inner else cfg.outer) + T + 29 ≤ bound cfg T lims inner := by
  cases lims <;> simp only [bound] <;> omega

theorem reprObj_length (cfg : Cfg) (hesc : ShortEsc cfg.esc) (heap : Heap) (T : Nat) (hT : ShortNames heap T) : ∀ (lims : List Nat) (inner : Bool) (id : Id),
    (reprObj cfg heap lims inner id).length ≤ bound cfg T lims inner := by
  intro lims
  induction lims with
  | nil => intro inner id; exact reprDeep_length cfg hesc heap T hT inner id
  | cons c ls ih =>
    intro inner id
    have hitem : ∀ x, (if x = id then reprDeep cfg heap true x else reprObj cfg heap ls true x).length ≤ bound cfg T ls true := by
      intro x
      split
      · exact Nat.le_trans (reprDeep_length cfg hesc heap T hT true x) (bound_deep cfg T ls true)
      · exact ih true x
    rw [reprObj]
    split
    · rename_i k items _
      have h1 := loop_length _ _ hitem items c false
      simp only
      generalize loop (fun x => if x = id then reprDeep cfg heap true x else reprObj cfg heap ls true x) c false items = r at h1
      have h2 : (if k.comma ∧ r.2.any (fun count => count + 1 = c) then c!"," else []).length ≤ 1 := by split <;> simp
      have h3 : k.prefix.length + k.suffix.length ≤ 15 := by cases k <;> decide
      have h4 : (c - 1) * (bound cfg T ls true + 2) ≤ c * (2 * bound cfg T ls true + 8) := Nat.mul_le_mul (by omega) (by omega)
      simp only [bound, List.length_append]
      omega
    · rename_i o pairs _
      have h3 : (dictPrefix o).length + (dictSuffix o).length ≤ 15 := by cases o <;> decide
      split
      · simp only [bound, List.length_append]; omega
      · have hB := bound_deep cfg T ls true
        have hp : ∀ p, (dictItem o (reprObj cfg heap ls true) (fun v => if v = id then reprDeep cfg heap true v else reprObj cfg heap ls true v) p).length ≤
            2 * bound cfg T ls true + 4 := by
          intro p
          have hk := ih true p.1
          have hv : (valueText (fun v => if v = id then reprDeep cfg heap true v else reprObj cfg heap ls true v) p.2).length ≤ bound cfg T ls true := by
            unfold valueText
            split
            · simp only [List.length_cons, List.length_nil]; omega
            · rename_i v _; exact hitem v
          unfold dictItem
          cases o <;> simp only [List.length_append, List.length_cons, List.length_nil, Bool.false_eq_true, if_false, if_true] <;> omega
        have h1 := dictLoop_length _ _ hp pairs c false
        have h4 : (c - 1) * (2 * bound cfg T ls true + 4 + 2) ≤ c * (2 * bound cfg T ls true + 8) := Nat.mul_le_mul (by omega) (by omega)
        simp only [bound, List.length_append]
        omega
    · rename_i b s _
      have := reprText_length cfg hesc inner b s
      have := bound_deep cfg T (c :: ls) inner
      omega
    · rename_i h
      exact Nat.le_trans (reprOther_length cfg heap T hT inner id h) (bound_deep cfg T (c :: ls) inner)

/-- The text of any value, in any graph of objects, however large, deep or cyclic, is within a bound given by the
limits. -/
theorem c38_bounded (cfg : Cfg) (hesc : ShortEsc cfg.esc) (heap : Heap) (T : Nat) (hT : ShortNames heap T) (id : Id) :
    (safeRepr cfg heap id).length ≤ bound cfg T cfg.limits false := reprObj_length cfg hesc heap T hT cfg.limits false id

/-- with the default limits -/
theorem c38_default_bound (esc : Char → Str) (hesc : ShortEsc esc) (heap : Heap) (T : Nat) (hT : ShortNames heap T) (id : Id) :
    (safeRepr { esc := esc } heap id).length ≤ 7115349 + 4921 * T := by
  have := c38_bounded { esc := esc } hesc heap T hT id
  simp only [bound, Bool.false_eq_true, if_false, if_true] at this
  omega

/-! ### Exact when short -/

theorem join_cons (x : Str) (l : List Str) : Spec.join (x :: l) = if l = [] then x else x ++ c!", " ++ Spec.join l := by
  cases l with
  | nil => rfl
  | cons y l => rfl

theorem loop_all (f : Id → Str) : ∀ (items : List Id) (count : Nat) (comma : Bool), items.length < count →
    loop f count comma items = ((if comma ∧ items ≠ [] then c!", " else []) ++ Spec.join (items.map f), some (count - items.length)) := by
  intro items
  induction items with
  | nil => intro count comma _; simp [loop, Spec.join]
  | cons x xs ih =>
    intro count comma h
    simp only [List.length_cons] at h
    rw [loop]
    simp only
    rw [if_neg (by omega), ih (count - 1) true (by omega)]
    simp only [List.map_cons, join_cons, List.length_cons]
    rw [show count - 1 - xs.length = count - (xs.length + 1) by omega]
    cases comma <;> cases xs <;> simp [Spec.join]

theorem dictLoop_all (f : (Id × Option Id) → Str) : ∀ (items : List (Id × Option Id)) (count : Nat) (comma : Bool), items.length < count →
    dictLoop f count comma items = (if comma ∧ items ≠ [] then c!", " else []) ++ Spec.join (items.map f) := by
  intro items
  induction items with
  | nil => intro count comma _; simp [dictLoop, Spec.join]
  | cons x xs ih =>
    intro count comma h
    simp only [List.length_cons] at h
    rw [dictLoop]
    rw [if_neg (by omega), ih (count - 1) true (by omega)]
    simp only [List.map_cons, join_cons]
    cases comma <;> cases xs <;> simp [Spec.join]

theorem isLong_small (cfg : Cfg) (heap : Heap) : ∀ (lims : List Nat) (id : Id), Small cfg heap lims id → isLong cfg heap lims id = false := by
  intro lims
  induction lims with
  | nil =>
    intro id h
    simp only [Small] at h
    simp only [isLong]
    cases ho : heap id with
    | text b s => simp only [ho] at h; simp [longText, iterItems, h]
    | coll k items => simp only [ho] at h; subst h; simp [longText, iterItems]
    | dict o pairs => simp [ho] at h
    | other r iter name len => simp only [ho] at h; subst h; simp [longText, iterItems]
  | cons c ls ih =>
    intro id h
    simp only [Small] at h
    simp only [isLong]
    have hany : ∀ items : List Id, items.length ≤ c → (∀ x ∈ items, Small cfg heap ls x) → (decide (items.length > c) || items.any fun x => isLong cfg heap ls x) = false := by
      intro items h1 h2
      rw [Bool.or_eq_false_iff]
      refine ⟨by simpa using h1, ?_⟩
      rw [List.any_eq_false]
      intro x hx; rw [ih x (h2 x hx)]; simp
    cases ho : heap id with
    | text b s => simp only [ho] at h; simp [longText, iterItems, h]
    | coll k items =>
      simp only [ho] at h
      cases k with
      | deque => simp [longText, iterItems]
      | _ =>
        simp only [reduceCtorEq, false_or] at h
        simp only [longText, iterItems, Bool.false_or]
        exact hany items h.1 h.2
    | dict o pairs =>
      simp only [ho] at h
      simp only [longText, iterItems, Bool.false_or]
      exact hany _ (by simpa using h.1) (by intro x hx; obtain ⟨p, hp, rfl⟩ := List.mem_map.1 hx; exact h.2 p hp)
    | other r iter name len =>
      simp only [ho] at h
      cases iter with
      | none => simp [longText, iterItems]
      | some items =>
        simp only at h
        simp only [longText, iterItems, Bool.false_or]
        exact hany items h.1 h.2

theorem all_map (f : Id → Option Str) (g : Id → Str) (l : List Id) (h : ∀ x ∈ l, f x = some (g x)) : Spec.all (l.map f) = some (l.map g) := by
  induction l with
  | nil => rfl
  | cons x l ih =>
    rw [List.map_cons, h x (by simp), Spec.all, ih fun y hy => h y (by simp [hy])]
    rfl

theorem all_map_pairs (f : (Id × Option Id) → Option Str) (g : (Id × Option Id) → Str) (l : List (Id × Option Id)) (h : ∀ x ∈ l, f x = some (g x)) :
    Spec.all (l.map f) = some (l.map g) := by
  induction l with
  | nil => rfl
  | cons x l ih =>
    rw [List.map_cons, h x (by simp), Spec.all, ih fun y hy => h y (by simp [hy])]
    rfl

/-- a value within the limits does not contain itself -/
theorem not_self_coll (cfg : Cfg) (heap : Heap) {id : Id} {k items} (ho : heap id = .coll k items) (hin : id ∈ items) :
    ∀ lims inner, ¬ Fits cfg heap lims inner id := by
  intro lims
  induction lims with
  | nil => intro inner h; simp [Fits, ho] at h
  | cons c ls ih =>
    intro inner h
    simp only [Fits, ho] at h
    exact ih true (h.2.2 id hin)

theorem not_self_dict (cfg : Cfg) (heap : Heap) {id : Id} {o pairs k} (ho : heap id = .dict o pairs) (hin : (k, some id) ∈ pairs) :
    ∀ lims inner, ¬ Fits cfg heap lims inner id := by
  intro lims
  induction lims with
  | nil => intro inner h; simp only [Fits, ho] at h; rw [h.1] at hin; cases hin
  | cons c ls ih =>
    intro inner h
    simp only [Fits, ho] at h
    obtain ⟨_, v, hv, hf⟩ := h.2.2 _ hin
    cases hv
    exact ih true hf

theorem exact_text (cfg : Cfg) (inner b : Bool) (s : Str) (h : s.length ≤ (if inner then cfg.inner else cfg.outer)) : reprText cfg inner b s = pyStr cfg.esc b s := by
  unfold reprText
  simp only
  rw [if_pos h]

theorem exact_other (cfg : Cfg) (heap : Heap) (inner : Bool) (id : Id) (r name : Str) (len : Option Nat) (hs : Small cfg heap cfg.limits id)
    (h : r.length ≤ (if inner then cfg.inner else cfg.outer)) : reprOther cfg heap inner id r name len = r := by
  unfold reprOther
  rw [isLong_small cfg heap _ _ hs]
  simp only [Bool.false_eq_true, if_false]
  unfold cut
  rw [if_pos h]

/-- A value within the limits is shown exactly as Python's `repr` shows it. -/
theorem c38_exact (cfg : Cfg) (heap : Heap) : ∀ (lims : List Nat) (inner : Bool) (id : Id), Fits cfg heap lims inner id →
    ∀ n, lims.length < n → pyRepr cfg.esc heap n id = some (reprObj cfg heap lims inner id) := by
  intro lims
  induction lims with
  | nil =>
    intro inner id h n hn
    obtain ⟨n, rfl⟩ : ∃ m, n = m + 1 := ⟨n - 1, by simp at hn; omega⟩
    simp only [Fits] at h
    rw [pyRepr]
    simp only [reprObj, reprDeep]
    cases ho : heap id with
    | text b s => simp only [ho] at h ⊢; rw [exact_text cfg inner b s h]
    | coll k items => simp [ho] at h
    | dict o pairs => simp only [ho] at h; obtain ⟨rfl, rfl⟩ := h; rfl
    | other r iter name len => simp only [ho] at h ⊢; rw [exact_other cfg heap inner id r name len h.1 h.2]
  | cons c ls ih =>
    intro inner id h n hn
    have hself := h
    obtain ⟨n, rfl⟩ : ∃ m, n = m + 1 := ⟨n - 1, by simp at hn; omega⟩
    simp only [List.length_cons, Nat.add_lt_add_iff_right] at hn
    simp only [Fits] at h
    rw [reprObj]
    cases ho : heap id with
    | text b s => rw [pyRepr]; simp only [ho] at h ⊢; rw [exact_text cfg inner b s h]
    | other r iter name len => rw [pyRepr]; simp only [ho] at h ⊢; rw [exact_other cfg heap inner id r name len h.1 h.2]
    | coll k items =>
      simp only [ho] at h
      have hne : ∀ x ∈ items, x ≠ id := by rintro x hx rfl; exact not_self_coll cfg heap ho hx _ _ hself
      have hmap : items.map (fun x => if x = id then reprDeep cfg heap true x else reprObj cfg heap ls true x) = items.map (reprObj cfg heap ls true) := by
        apply List.map_congr_left; intro x hx; rw [if_neg (hne x hx)]
      have hall := all_map (pyRepr cfg.esc heap n) (reprObj cfg heap ls true) items fun x hx => ih true x (h.2.2 x hx) n hn
      have hl := loop_all (fun x => if x = id then reprDeep cfg heap true x else reprObj cfg heap ls true x) items c false h.1
      simp only [Bool.false_eq_true, false_and, if_false, List.nil_append, hmap] at hl
      simp only [hl]
      rw [pyRepr]
      have h1 := h.1
      cases k with
      | list => simp only [ho, hall, Option.map_some, Kind.prefix, Kind.suffix, Kind.comma, Bool.false_eq_true, false_and, if_false, List.append_nil]
      | deque => simp only [ho, hall, Option.map_some, Kind.prefix, Kind.suffix, Kind.comma, Bool.false_eq_true, false_and, if_false, List.append_nil]
      | set =>
        have hnil : items ≠ [] := fun hi => (h.2.1 hi).1 rfl
        simp only [ho, hall, Option.map_some, Kind.prefix, Kind.suffix, Kind.comma, Bool.false_eq_true, false_and, if_false, List.append_nil,
          List.map_eq_nil_iff, hnil]
      | frozenset =>
        have hnil : items ≠ [] := fun hi => (h.2.1 hi).2 rfl
        simp only [ho, hall, Option.map_some, Kind.prefix, Kind.suffix, Kind.comma, Bool.false_eq_true, false_and, if_false, List.append_nil,
          List.map_eq_nil_iff, hnil]
      | tuple =>
        have hiff : (c - items.length + 1 = c) ↔ items.length = 1 := by omega
        simp only [ho, hall, Option.map_some, Kind.prefix, Kind.suffix, Kind.comma, List.length_map, true_and, Option.any_some, decide_eq_true_eq, hiff]
        split <;> simp
    | dict o pairs =>
      simp only [ho] at h
      have hne : ∀ p ∈ pairs, ∀ v, p.2 = some v → v ≠ id := by
        rintro ⟨k, w⟩ hp v hv rfl
        simp only at hv
        subst hv
        exact not_self_dict cfg heap ho hp _ _ hself
      by_cases hnil : pairs = []
      · subst hnil
        have ho2 := h.2.1 rfl
        subst ho2
        rw [pyRepr, ho]
        rfl
      · have hmap : pairs.map (dictItem o (reprObj cfg heap ls true) fun v => if v = id then reprDeep cfg heap true v else reprObj cfg heap ls true v) =
            pairs.map (dictItem o (reprObj cfg heap ls true) (reprObj cfg heap ls true)) := by
          apply List.map_congr_left
          intro p hp
          obtain ⟨_, v, hv, _⟩ := h.2.2 p hp
          unfold dictItem
          rw [hv]
          simp only [valueText, if_neg (hne p hp v hv)]
        have hl := dictLoop_all (dictItem o (reprObj cfg heap ls true) fun v => if v = id then reprDeep cfg heap true v else reprObj cfg heap ls true v) pairs c false h.1
        simp only [Bool.false_eq_true, false_and, if_false, List.nil_append, hmap] at hl
        simp only [if_neg hnil, hl]
        rw [pyRepr]
        cases o with
        | false =>
          have hall := all_map_pairs (fun p => do some ((← pyRepr cfg.esc heap n p.1) ++ c!": " ++ (← pyRepr cfg.esc heap n (← p.2))))
            (dictItem false (reprObj cfg heap ls true) (reprObj cfg heap ls true)) pairs (by
              intro p hp
              obtain ⟨hk, v, hv, hf⟩ := h.2.2 p hp
              simp [dictItem, hv, valueText, ih true p.1 hk n hn, ih true v hf n hn])
          simp only [ho, hall, Option.map_some, dictPrefix, dictSuffix, Bool.false_eq_true, if_false]
        | true =>
          have hall := all_map_pairs (fun p => do some (c!"(" ++ (← pyRepr cfg.esc heap n p.1) ++ c!", " ++ (← pyRepr cfg.esc heap n (← p.2)) ++ c!")"))
            (dictItem true (reprObj cfg heap ls true) (reprObj cfg heap ls true)) pairs (by
              intro p hp
              obtain ⟨hk, v, hv, hf⟩ := h.2.2 p hp
              simp [dictItem, hv, valueText, ih true p.1 hk n hn, ih true v hf n hn])
          simp only [ho, hall, Option.map_some, dictPrefix, dictSuffix, if_true, List.map_eq_nil_iff, hnil, if_false]

/-! ### Beyond the limits -/

theorem loop_cut (f : Id → Str) : ∀ (items : List Id) (count : Nat) (comma : Bool), 1 ≤ count → count ≤ items.length →
    loop f count comma items = ((if comma then c!", " else []) ++ Spec.join ((items.take (count - 1)).map f ++ [c!"..."]), none) := by
  intro items
  induction items with
  | nil => intro count comma h1 h2; simp at h2; omega
  | cons x xs ih =>
    intro count comma h1 h2
    simp only [List.length_cons] at h2
    rw [loop]
    simp only
    split
    · rename_i hc; rw [hc]; simp [Spec.join]
    · rename_i hc
      rw [ih (count - 1) true (by omega) (by omega)]
      obtain ⟨m, rfl⟩ : ∃ m, count = m + 2 := ⟨count - 2, by omega⟩
      simp only [show m + 2 - 1 = m + 1 by omega, show m + 1 - 1 = m by omega, List.take_succ_cons, List.map_cons, List.cons_append, join_cons]
      simp

/-- A collection with at least as many items as the limit shows the first ones (one less than the limit) in order and
then dots. In particular a collection with exactly as many items as the limit is cut. -/
theorem c38_long_collection (cfg : Cfg) (heap : Heap) (c : Nat) (ls : List Nat) (inner : Bool) (id : Id) (k : Kind) (items : List Id)
    (ho : heap id = .coll k items) (hc : 1 ≤ c) (hlen : c ≤ items.length) (hne : id ∉ items) :
    reprObj cfg heap (c :: ls) inner id =
      k.prefix ++ Spec.join ((items.take (c - 1)).map (reprObj cfg heap ls true) ++ [c!"..."]) ++ k.suffix := by
  rw [reprObj, ho]
  have hl := loop_cut (fun x => if x = id then reprDeep cfg heap true x else reprObj cfg heap ls true x) items c false hc hlen
  have hmap : (items.take (c - 1)).map (fun x => if x = id then reprDeep cfg heap true x else reprObj cfg heap ls true x) =
      (items.take (c - 1)).map (reprObj cfg heap ls true) := by
    apply List.map_congr_left
    intro x hx
    rw [if_neg (by rintro rfl; exact hne (List.mem_of_mem_take hx))]
  simp only [hl, hmap, Bool.false_eq_true, if_false, List.nil_append, Option.any_none, and_false, List.append_nil]

theorem dictLoop_cut (f : (Id × Option Id) → Str) : ∀ (items : List (Id × Option Id)) (count : Nat) (comma : Bool), 1 ≤ count → count ≤ items.length →
    dictLoop f count comma items = (if comma then c!", " else []) ++ Spec.join ((items.take (count - 1)).map f ++ [c!"..."]) := by
  intro items
  induction items with
  | nil => intro count comma h1 h2; simp at h2; omega
  | cons x xs ih =>
    intro count comma h1 h2
    simp only [List.length_cons] at h2
    rw [dictLoop]
    split
    · rename_i hc; rw [hc]; simp [Spec.join]
    · rename_i hc
      rw [ih (count - 1) true (by omega) (by omega)]
      obtain ⟨m, rfl⟩ : ∃ m, count = m + 2 := ⟨count - 2, by omega⟩
      simp only [show m + 2 - 1 = m + 1 by omega, show m + 1 - 1 = m by omega, List.take_succ_cons, List.map_cons, List.cons_append, join_cons]
      simp

/-- The same for a dict: its first items in order, then dots. -/
theorem c38_long_dict (cfg : Cfg) (heap : Heap) (c : Nat) (ls : List Nat) (inner : Bool) (id : Id) (pairs : List (Id × Id))
    (ho : heap id = .dict false (pairs.map fun p => (p.1, some p.2))) (hc : 1 ≤ c) (hlen : c ≤ pairs.length) (hne : ∀ p ∈ pairs, p.2 ≠ id) :
    reprObj cfg heap (c :: ls) inner id =
      c!"{" ++ Spec.join ((pairs.take (c - 1)).map (fun p => reprObj cfg heap ls true p.1 ++ c!": " ++ reprObj cfg heap ls true p.2) ++ [c!"..."]) ++ c!"}" := by
  rw [reprObj, ho]
  have hnil : pairs.map (fun p => (p.1, some p.2)) ≠ [] := by
    intro h; rw [List.map_eq_nil_iff] at h; subst h; simp at hlen; omega
  simp only [if_neg hnil]
  rw [dictLoop_cut _ _ c false hc (by simpa using hlen), ← List.map_take, List.map_map]
  have hmap : (pairs.take (c - 1)).map ((dictItem false (reprObj cfg heap ls true) fun v => if v = id then reprDeep cfg heap true v else reprObj cfg heap ls true v) ∘
      fun p => (p.1, some p.2)) = (pairs.take (c - 1)).map (fun p => reprObj cfg heap ls true p.1 ++ c!": " ++ reprObj cfg heap ls true p.2) := by
    apply List.map_congr_left
    intro p hp
    simp [dictItem, valueText, hne p (List.mem_of_mem_take hp)]
  rw [hmap]
  simp [dictPrefix, dictSuffix]

/-- What is shown of the contents of a collection nested too deep: only dots. -/
theorem c38_too_deep (cfg : Cfg) (heap : Heap) (inner : Bool) (id : Id) (k : Kind) (items : List Id) (ho : heap id = .coll k items) :
    reprObj cfg heap [] inner id = k.prefix ++ c!"..." ++ k.suffix := by
  simp [reprObj, reprDeep, ho]

/-- A list that contains itself shows dots for itself, as Python does. -/
theorem c38_self (cfg : Cfg) (heap : Heap) (c : Nat) (ls : List Nat) (inner : Bool) (id : Id) (ho : heap id = .coll .list [id]) (hc : 2 ≤ c) :
    reprObj cfg heap (c :: ls) inner id = c!"[[...]]" := by
  rw [reprObj, ho]
  have hl := loop_all (fun x => if x = id then reprDeep cfg heap true x else reprObj cfg heap ls true x) [id] c false hc
  simp only [hl]
  simp [Kind.prefix, Kind.suffix, Kind.comma, Spec.join, reprDeep, ho]

theorem beforeLastQuote_append (s t : Str) (h : '\'' ∉ t) : beforeLastQuote (s ++ '\'' :: t) = some s := by
  unfold beforeLastQuote
  rw [if_pos (by simp)]
  congr 1
  have h2 : ∀ l : Str, '\'' ∉ l → ∀ r, (l ++ '\'' :: r).dropWhile (· ≠ '\'') = '\'' :: r := by
    intro l hl r
    induction l with
    | nil => simp
    | cons c l ih =>
      simp only [List.mem_cons, not_or] at hl
      rw [List.cons_append, List.dropWhile_cons, if_pos (by simpa using Ne.symm hl.1), ih hl.2]
  have e : (s ++ '\'' :: t).reverse = t.reverse ++ '\'' :: s.reverse := by simp
  rw [e, h2 t.reverse (by simpa using h)]
  simp

theorem afterFirstQuote_append (s t : Str) (h : '\'' ∉ s) : afterFirstQuote (s ++ '\'' :: t) = some t := by
  unfold afterFirstQuote
  rw [if_pos (by simp)]
  congr 1
  induction s with
  | nil => simp
  | cons c s ih =>
    simp only [List.mem_cons, not_or] at h
    rw [List.cons_append, List.dropWhile_cons, if_pos (by simpa using Ne.symm h.1), ih h.2]

theorem pyStr_noquote {esc : Char → Str} (b : Bool) {s : Str} (h : '\'' ∉ s) :
    pyStr esc b s = (if b then ['b'] else []) ++ '\'' :: s.flatMap esc ++ ['\''] := by
  unfold pyStr
  have hq : quoteOf s = '\'' := by unfold quoteOf; rw [if_neg (by simp [h])]
  rw [hq]
  congr 2
  congr 1
  have : ∀ t : Str, '\'' ∉ t → (t.flatMap fun c => if c = '\'' ∧ '\'' = '\'' then ['\\', '\''] else esc c) = t.flatMap esc := by
    intro t ht
    induction t with
    | nil => rfl
    | cons c t ih =>
      simp only [List.mem_cons, not_or] at ht
      rw [List.flatMap_cons, List.flatMap_cons, ih ht.2, if_neg (by simp [Ne.symm ht.1])]
  exact this s h

/-- A text without single quotes that is longer than the limit shows its beginning and its end. -/
theorem c38_long_text (cfg : Cfg) (inner b : Bool) (s : Str) (limit : Nat) (hl : limit = if inner then cfg.inner else cfg.outer)
    (hlong : limit < s.length) (hq : '\'' ∉ s) :
    reprText cfg inner b s = (if b then ['b'] else []) ++ c!"'" ++ (s.take (max 1 (2 * limit / 3))).flatMap cfg.esc ++ c!"..." ++
      (s.drop (s.length - max 1 (limit / 3))).flatMap cfg.esc ++ c!"'" := by
  unfold reprText
  simp only [← hl]
  rw [if_neg (by omega)]
  have h1 : '\'' ∉ s.take (leftCount limit) := fun h => hq (List.mem_of_mem_take h)
  have h2 : '\'' ∉ lastN (rightCount limit) s := fun h => hq (List.mem_of_mem_drop h)
  rw [pyStr_noquote b h1, pyStr_noquote b h2]
  rw [beforeLastQuote_append _ [] (by simp)]
  have e : (if b then ['b'] else []) ++ '\'' :: (lastN (rightCount limit) s).flatMap cfg.esc ++ ['\''] =
      (if b then ['b'] else []) ++ '\'' :: ((lastN (rightCount limit) s).flatMap cfg.esc ++ ['\'']) := by simp
  rw [e, afterFirstQuote_append _ _ (by cases b <;> simp)]
  simp [leftCount, rightCount, lastN]

/-! ### Witnesses -/

/-- The empty set is shown like an empty dict. -/
theorem c38_empty_set (cfg : Cfg) (c : Nat) (ls : List Nat) (heap : Heap) (id : Id) (ho : heap id = .coll .set []) :
    reprObj cfg heap (c :: ls) false id = c!"{}" ∧ pyRepr cfg.esc heap 1 id = some c!"set()" := by
  constructor
  · simp [reprObj, ho, loop, Kind.prefix, Kind.suffix, Kind.comma]
  · simp [pyRepr, ho, Spec.all]

set_option maxRecDepth 10000 in
/-- In a long text the part after an apostrophe near its beginning is not shown, and the quotes do not match. -/
theorem c38_apostrophe_loses_text :
    reprText { esc := fun c => [c] } true false (c!"it's" ++ List.replicate 200 'x') = c!"\"it..." ++ List.replicate 42 'x' ++ c!"'" := by
  decide

/-- a heap: 0 is `[(1,), {'k': [..0..]}]`-like; 1 a tuple, 2 a dict, 3 a text, 4 a number -/
def sampleHeap : Heap
  | 0 => .coll .list [1, 2, 0]
  | 1 => .coll .tuple [4]
  | 2 => .dict false [(3, some 4)]
  | 3 => .text false c!"k"
  | _ => .other c!"17" none c!"int" none

example : safeRepr { esc := fun c => [c] } sampleHeap 0 = c!"[(17,), {'k': 17}, [...]]" := by decide
example : Fits { esc := fun c => [c] } sampleHeap [60, 20] false 1 ∧ Fits { esc := fun c => [c] } sampleHeap [60, 20] false 2 := by
  constructor
  · refine ⟨by decide, (by intro h; cases h), ?_⟩
    intro x hx
    simp at hx
    subst hx
    simp [Fits, Small, sampleHeap]
  · refine ⟨by decide, (by intro h; cases h), ?_⟩
    intro p hp
    simp at hp
    subst hp
    exact ⟨by simp [Fits, sampleHeap], 4, rfl, by simp [Fits, Small, sampleHeap]⟩
example : ShortEsc (fun c => [c]) := fun c => by simp
example : ShortNames sampleHeap 4 := by
  intro id r iter name len h
  unfold sampleHeap at h
  split at h <;> cases h
  rw [Py.natStr]; decide

end SafeRepr
