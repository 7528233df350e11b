import Verif.Xml.Model
import Verif.Xml.Spec
/-!
C35 (XML messages).
-/

namespace Xml
open Spec

/-- the replacement of one character -/
def esc1 (c : Char) : Str :=
  if c = '&' then c!"&amp;" else if c = '<' then c!"&lt;" else if c = '>' then c!"&gt;" else if c = '"' then c!"&quot;" else [c]

theorem replaceAll_single (p : Char) (new s : Str) : Py.replaceAll [p] new s = s.flatMap fun c => if c = p then new else [c] := by
  induction s with
  | nil => exact Py.replaceAll_nil _ _
  | cons c s ih =>
    by_cases h : c = p
    · subst h
      have := Py.replaceAll_prefix [c] new s (by simp)
      simp only [List.cons_append, List.nil_append] at this
      rw [this, ih]; simp
    · rw [Py.replaceAll, dif_neg (by simp [List.isPrefixOf, Ne.symm h]), ih]
      simp [h]

theorem flatMap_congr' {f g : Char → Str} (h : ∀ c, f c = g c) (s : Str) : s.flatMap f = s.flatMap g := by
  rw [funext h]

theorem escape_eq (s : Str) : escape s = s.flatMap esc1 := by
  unfold escape
  simp only [replaceAll_single, List.flatMap_assoc]
  apply flatMap_congr'
  intro c
  unfold esc1
  by_cases h1 : c = '&'
  · subst h1; decide
  · by_cases h2 : c = '<'
    · subst h2; decide
    · by_cases h3 : c = '>'
      · subst h3; decide
      · by_cases h4 : c = '"'
        · subst h4; decide
        · simp [h1, h2, h3, h4]

theorem escape_cons (c : Char) (s : Str) : escape (c :: s) = esc1 c ++ escape s := by simp [escape_eq]
theorem escape_append (s t : Str) : escape (s ++ t) = escape s ++ escape t := by simp [escape_eq]

theorem unescape_esc1 (c : Char) (r : Str) : unescape (esc1 c ++ r) = (unescape r).map (c :: ·) := by
  unfold esc1
  by_cases h1 : c = '&'
  · subst h1; rfl
  · by_cases h2 : c = '<'
    · subst h2; rfl
    · by_cases h3 : c = '>'
      · subst h3; rfl
      · by_cases h4 : c = '"'
        · subst h4; rfl
        · simp only [h1, h2, h3, h4, if_false, List.cons_append, List.nil_append]
          rw [unescape]
          · simp [h1, h2, h4]
          all_goals intro r' he; exact absurd he h1

/-- Unescaping gives back the text. -/
theorem c35_unescape (s : Str) : unescape (escape s) = some s := by
  induction s with
  | nil => rw [escape_eq]; rfl
  | cons c s ih => rw [escape_cons, unescape_esc1, ih]; rfl

/-- Escaped text contains no character that ends the attribute or starts or ends markup. -/
theorem c35_no_markup (s : Str) : ∀ c ∈ escape s, c ≠ '"' ∧ c ≠ '<' ∧ c ≠ '>' := by
  intro c hc
  rw [escape_eq] at hc
  obtain ⟨x, _, hx⟩ := List.mem_flatMap.1 hc
  clear hc
  unfold esc1 at hx
  split at hx
  · revert c; decide
  · split at hx
    · revert c; decide
    · split at hx
      · revert c; decide
      · split at hx
        · revert c; decide
        · rename_i h1 h2 h3 h4
          simp only [List.mem_singleton] at hx
          subst hx
          exact ⟨h4, h2, h3⟩

theorem before_append {c : Char} {s r : Str} (h : c ∉ s) : before c (s ++ c :: r) = some (s, r) := by
  induction s with
  | nil => simp [before]
  | cons x s ih =>
    simp only [List.mem_cons, not_or] at h
    simp [before, Ne.symm h.1, ih h.2]

/-! ### URL quoting -/

theorem hexValue_hexDigit (n : Nat) (h : n < 16) : hexValue (hexDigit n) = some n := by
  rcases (by omega : n = 0 ∨ n = 1 ∨ n = 2 ∨ n = 3 ∨ n = 4 ∨ n = 5 ∨ n = 6 ∨ n = 7 ∨ n = 8 ∨ n = 9 ∨ n = 10 ∨ n = 11 ∨ n = 12 ∨ n = 13 ∨ n = 14 ∨ n = 15)
    with rfl | rfl | rfl | rfl | rfl | rfl | rfl | rfl | rfl | rfl | rfl | rfl | rfl | rfl | rfl | rfl <;> decide

theorem ofNat_toNat {n : Nat} (h : n < 0xD800) : (Char.ofNat n).toNat = n := by
  rw [Char.ofNat, dif_pos (Or.inl h)]
  rfl

/-- the set of characters left alone is usable: printable ASCII without `%` -/
def GoodSafe (safe : Str) : Prop := ∀ c ∈ safe, c.toNat < 128 ∧ c ≠ '%'

theorem unquote_byte {safe : Str} (hs : GoodSafe safe) (b : Nat) (hb : b < 256) (r : Str) :
    unquote ((if alwaysSafe b || safe.any (fun c => c.toNat == b) then [Char.ofNat b] else ['%', hexDigit (b / 16), hexDigit (b % 16)]) ++ r) =
      (unquote r).map (b :: ·) := by
  split
  · rename_i h
    have hlt : b < 128 ∧ b ≠ 37 := by
      simp only [Bool.or_eq_true, List.any_eq_true, beq_iff_eq] at h
      rcases h with h | ⟨c, hc, rfl⟩
      · simp only [alwaysSafe, Bool.or_eq_true, Bool.and_eq_true, decide_eq_true_eq, beq_iff_eq] at h
        omega
      · refine ⟨(hs c hc).1, ?_⟩
        intro he
        exact (hs c hc).2 (Char.toNat_inj.1 he)
    have hn : (Char.ofNat b).toNat = b := ofNat_toNat (by omega)
    have hne : Char.ofNat b ≠ '%' := by
      intro he; have := congrArg Char.toNat he; rw [hn] at this; exact hlt.2 this
    simp only [List.cons_append, List.nil_append]
    rw [unquote]
    · rw [if_neg (by rw [hn]; simp [hne]; omega), hn]
    · intro a b r' he; exact absurd he hne
  · simp only [List.cons_append, List.nil_append]
    rw [unquote, hexValue_hexDigit _ (by omega), hexValue_hexDigit _ (by omega)]
    cases unquote r with
    | none => rfl
    | some bs =>
      simp only [Option.map_some]
      congr 2
      omega

theorem unquote_quoteBytes {safe : Str} (hs : GoodSafe safe) (bs : List Nat) (hb : ∀ b ∈ bs, b < 256) :
    unquote (quoteBytes safe bs) = some bs := by
  induction bs with
  | nil => rfl
  | cons b bs ih =>
    show unquote (_ ++ quoteBytes safe bs) = _
    rw [unquote_byte hs b (hb b (by simp)), ih fun x hx => hb x (by simp [hx])]
    rfl

/-- Unquoting gives back the UTF-8 bytes of the text. -/
theorem c35_unquote {safe : Str} (hs : GoodSafe safe) (s : Str) : unquote (quote safe s) = some (Py.utf8 s) :=
  unquote_quoteBytes hs _ (Py.utf8_byte s)

/-- The characters that are never quoted. -/
def plainChars : Str := c!"ABCDEFGHIJKLMNOPQRSTUVWXYZabcdefghijklmnopqrstuvwxyz0123456789_.-~"

theorem plainChars_safe : ∀ c ∈ plainChars, c.toNat < 128 ∧ alwaysSafe c.toNat = true := by decide

/-- Names made of letters, digits and `_.-~` (and of the characters said to be safe) can be read as they are. -/
theorem c35_readable {safe : Str} (hs : GoodSafe safe) (s : Str) (h : ∀ c ∈ s, c ∈ plainChars ∨ c ∈ safe) : quote safe s = s := by
  unfold quote quoteBytes Py.utf8
  induction s with
  | nil => rfl
  | cons c s ih =>
    have h1 : c.toNat < 128 ∧ (alwaysSafe c.toNat || safe.any (fun d => d.toNat == c.toNat)) = true := by
      rcases h c (by simp) with hc | hc
      · exact ⟨(plainChars_safe c hc).1, by rw [(plainChars_safe c hc).2]; rfl⟩
      · refine ⟨(hs c hc).1, ?_⟩
        rw [Bool.or_eq_true]
        exact .inr (List.any_eq_true.2 ⟨c, hc, by simp⟩)
    rw [List.flatMap_cons, List.flatMap_append, ih fun x hx => h x (by simp [hx])]
    have h2 : Py.utf8Char c = [c.toNat] := by unfold Py.utf8Char Py.utf8Code; rw [if_pos h1.1]
    rw [h2, List.flatMap_cons, List.flatMap_nil, if_pos h1.2, Char.ofNat_toNat]; rfl

theorem goodSafe_vars : GoodSafe safeChars := by unfold GoodSafe; decide

/-! ### Start tags -/

/-- an attribute as the code writes it -/
def attr (name v : Str) : Str := ' ' :: name ++ '=' :: '"' :: escape v ++ ['"']

theorem attr_step (name v r : Str) (fuel : Nat) (hn : name ≠ []) (ha : name.all isNameChar = true) :
    attrs (fuel + 1) (attr name v ++ r) = (attrs fuel r).map ((name, v) :: ·) := by
  obtain ⟨c, cs, rfl⟩ := List.exists_cons_of_ne_nil hn
  have hall : ∀ x ∈ c :: cs, isNameChar x = true := by simpa [List.all_eq_true] using ha
  have hc := hall c (by simp)
  have hne : ∀ x : Char, isNameChar x = false → c ≠ x := by rintro x hx rfl; rw [hc] at hx; cases hx
  have heq : '=' ∉ c :: cs := by
    intro h; have := hall _ h; revert this; decide
  have hq : '"' ∉ escape v := fun h => (c35_no_markup v _ h).1 rfl
  have e1 : attr (c :: cs) v ++ r = ' ' :: (c :: cs ++ '=' :: ('"' :: (escape v ++ '"' :: r))) := by simp [attr]
  have e2 := before_append (c := '=') (s := c :: cs) (r := '"' :: (escape v ++ '"' :: r)) heq
  rw [e1, attrs]
  · rw [e2]
    simp only
    rw [if_pos ⟨hn, ha⟩, before_append hq]
    simp only [c35_unescape]
    cases attrs fuel r <;> rfl
  · intro tail h; simp only [List.cons_append, List.cons.injEq] at h; exact hne ' ' (by decide) h.1
  · intro tail h; simp only [List.cons_append, List.cons.injEq] at h; exact hne '>' (by decide) h.1
  · intro tail h; simp only [List.cons_append, List.cons.injEq] at h; exact hne '/' (by decide) h.1

/-- a list of attributes followed by the end of the tag -/
theorem attrs_list (l : List (Str × Str)) (hl : ∀ p ∈ l, p.1 ≠ [] ∧ p.1.all isNameChar = true) (tail : Str)
    (ht : ∀ fuel, attrs (fuel + 1) tail = some []) :
    ∀ fuel, attrs (fuel + l.length + 1) ((l.flatMap fun p => attr p.1 p.2) ++ tail) = some l := by
  induction l with
  | nil => intro fuel; exact ht fuel
  | cons p l ih =>
    intro fuel
    rw [List.flatMap_cons, List.append_assoc, List.length_cons, ← Nat.add_assoc]
    rw [attr_step p.1 p.2 _ _ (hl p (by simp)).1 (hl p (by simp)).2, ih (fun q hq => hl q (by simp [hq]))]
    rfl

theorem takeWhile_name {name r : Str} (ha : name.all isNameChar = true) (hr : ∀ c t, r = c :: t → isNameChar c = false) :
    (name ++ r).takeWhile isNameChar = name := by
  induction name with
  | nil =>
    cases r with
    | nil => rfl
    | cons c t => simp [hr c t rfl]
  | cons c cs ih =>
    simp only [List.all_cons, Bool.and_eq_true] at ha
    simp [ha.1, ih ha.2]

theorem attr_length (n v : Str) : 1 ≤ (attr n v).length := by simp [attr]

theorem startTag_list (name : Str) (l : List (Str × Str)) (tail : Str) (hn : name ≠ []) (ha : name.all isNameChar = true)
    (hl : ∀ p ∈ l, p.1 ≠ [] ∧ p.1.all isNameChar = true) (ht : ∀ fuel, attrs (fuel + 1) tail = some [])
    (htc : ∀ c t, tail = c :: t → isNameChar c = false) :
    startTag ('<' :: (name ++ ((l.flatMap fun p => attr p.1 p.2) ++ tail))) = some (name, l) := by
  unfold startTag
  simp only
  have htw : (name ++ ((l.flatMap fun p => attr p.1 p.2) ++ tail)).takeWhile isNameChar = name := by
    apply takeWhile_name ha
    intro c t h
    cases l with
    | nil => exact htc c t h
    | cons p l => simp [attr] at h; rw [← h.1]; decide
  rw [htw, if_neg hn, List.drop_left]
  have hlen : l.length ≤ (l.flatMap fun p => attr p.1 p.2).length := by
    clear hl htw
    induction l with
    | nil => simp
    | cons p l ih => simp only [List.flatMap_cons, List.length_append, List.length_cons]; have := attr_length p.1 p.2; omega
  have : (name ++ ((l.flatMap fun p => attr p.1 p.2) ++ tail)).length + 1 =
      ((name ++ ((l.flatMap fun p => attr p.1 p.2) ++ tail)).length - l.length) + l.length + 1 := by
    simp only [List.length_append]; omega
  rw [this, attrs_list l hl tail ht]
  rfl

/-- extra spaces before an attribute make no difference -/
theorem attrs_space (fuel : Nat) (r : Str) : attrs (fuel + 1) (' ' :: ' ' :: r) = attrs fuel (' ' :: r) := by
  rw [attrs]

/-! ### Variables -/

/-- the attributes of the element of a variable -/
def varAttrs (max : Nat) (v : Var) : List (Str × Str) :=
  [(c!"name", quote safeChars v.name), (c!"type", v.type)] ++
  (if v.qualifier ≠ [] then [(c!"qualifier", v.qualifier)] else []) ++
  (if v.value ≠ [] then [(c!"value", quote safeChars (trim max v.value))] else []) ++
  (if v.isError then [(c!"isErrorOnEval", c!"True")] else if v.isContainer then [(c!"isContainer", c!"True")] else []) ++
  (match v.extra with | some n => [(n, c!"True")] | none => []) ++
  (if v.scope ≠ [] then [(c!"scope", v.scope)] else [])

theorem escape_true : escape c!"True" = c!"True" := by rw [escape_eq]; decide

theorem end_var (fuel : Nat) : attrs (fuel + 1) c!" />\n" = some [] := by rw [attrs]

/-- scopes and extra attributes are fixed words -/
def PlainVar (v : Var) : Prop :=
  (∀ n, v.extra = some n → n ≠ [] ∧ n.all isNameChar = true) ∧ escape v.scope = v.scope

/-- The message of any variable is well formed and carries exactly the attributes of the variable. -/
theorem c35_var (max : Nat) (v : Var) (hp : PlainVar v) : startTag (varToXml max v) = some (c!"var", varAttrs max v) := by
  have hnames : ∀ p ∈ varAttrs max v, p.1 ≠ [] ∧ p.1.all isNameChar = true := by
    intro p hp'
    unfold varAttrs at hp'
    simp only [List.mem_append, List.mem_cons, List.not_mem_nil, or_false] at hp'
    rcases hp' with ((((( rfl | rfl) | h) | h) | h) | h) | h
    · exact ⟨by simp, rfl⟩
    · exact ⟨by simp, rfl⟩
    · split at h
      · simp at h; subst h; exact ⟨by simp, rfl⟩
      · cases h
    · split at h
      · simp at h; subst h; exact ⟨by simp, rfl⟩
      · cases h
    · split at h
      · simp at h; subst h; exact ⟨by simp, rfl⟩
      · split at h
        · simp at h; subst h; exact ⟨by simp, rfl⟩
        · cases h
    · split at h
      · rename_i n hn; simp at h; subst h; exact hp.1 n hn
      · cases h
    · split at h
      · simp at h; subst h; exact ⟨by simp, rfl⟩
      · cases h
  -- the qualifier follows the space that ends the first part; without it there is an extra space
  by_cases hq : v.qualifier ≠ []
  · have e : varToXml max v = '<' :: (c!"var" ++ (((varAttrs max v).flatMap fun p => attr p.1 p.2) ++ c!" />\n")) := by
      unfold varToXml varAttrs
      simp only [hq, if_true, ne_eq, not_false_eq_true]
      by_cases h1 : v.value = [] <;> by_cases h2 : v.isError = true <;> by_cases h3 : v.isContainer = true <;>
        by_cases h4 : v.scope = [] <;> cases h5 : v.extra <;>
        simp [h1, h2, h3, h4, attr, escape_true, hp.2]
    rw [e]
    exact startTag_list c!"var" _ _ (by simp) (by decide) hnames end_var (by intro c t h; simp at h; rw [← h.1]; decide)
  · -- name and type, then an extra space, then the rest
    simp only [ne_eq, Decidable.not_not] at hq
    let rest : List (Str × Str) := (if v.value ≠ [] then [(c!"value", quote safeChars (trim max v.value))] else []) ++
      (if v.isError then [(c!"isErrorOnEval", c!"True")] else if v.isContainer then [(c!"isContainer", c!"True")] else []) ++
      (match v.extra with | some n => [(n, c!"True")] | none => []) ++ (if v.scope ≠ [] then [(c!"scope", v.scope)] else [])
    have ev : varAttrs max v = [(c!"name", quote safeChars v.name), (c!"type", v.type)] ++ rest := by
      unfold varAttrs; simp [hq, rest]
    have e : varToXml max v = '<' :: (c!"var" ++ (attr c!"name" (quote safeChars v.name) ++ (attr c!"type" v.type ++
        (' ' :: ((rest.flatMap fun p => attr p.1 p.2) ++ c!" />\n"))))) := by
      unfold varToXml
      simp only [hq, ne_eq, not_true_eq_false, if_false, rest]
      by_cases h1 : v.value = [] <;> by_cases h2 : v.isError = true <;> by_cases h3 : v.isContainer = true <;>
        by_cases h4 : v.scope = [] <;> cases h5 : v.extra <;>
        simp [h1, h2, h3, h4, attr, escape_true, hp.2]
    rw [e]
    unfold startTag
    simp only
    have htw : (c!"var" ++ (attr c!"name" (quote safeChars v.name) ++ (attr c!"type" v.type ++
        (' ' :: ((rest.flatMap fun p => attr p.1 p.2) ++ c!" />\n"))))).takeWhile isNameChar = c!"var" := by
      apply takeWhile_name (by decide)
      intro c t h; simp [attr] at h; rw [← h.1]; decide
    rw [htw, if_neg (by simp), List.drop_left]
    have hlen : rest.length ≤ (rest.flatMap fun p => attr p.1 p.2).length := by
      clear_value rest
      clear ev e htw
      induction rest with
      | nil => simp
      | cons p l ih => simp only [List.flatMap_cons, List.length_append, List.length_cons]; have := attr_length p.1 p.2; omega
    have hfuel : (c!"var" ++ (attr c!"name" (quote safeChars v.name) ++ (attr c!"type" v.type ++
        (' ' :: ((rest.flatMap fun p => attr p.1 p.2) ++ c!" />\n"))))).length + 1 =
        ((c!"var" ++ (attr c!"name" (quote safeChars v.name) ++ (attr c!"type" v.type ++
        (' ' :: ((rest.flatMap fun p => attr p.1 p.2) ++ c!" />\n"))))).length - rest.length - 3) + rest.length + 1 + 1 + 1 + 1 := by
      have := attr_length c!"name" (quote safeChars v.name)
      have := attr_length c!"type" v.type
      simp only [List.length_append, List.length_cons, List.length_nil] at *
      omega
    have hrest : ∀ fuel, attrs (fuel + rest.length + 1 + 1) (' ' :: ((rest.flatMap fun p => attr p.1 p.2) ++ c!" />\n")) = some rest := by
      intro fuel
      have hl := attrs_list rest (by intro p hp'; apply hnames; rw [ev]; simp [hp']) c!" />\n" end_var fuel
      cases hr : rest with
      | nil =>
        rw [hr] at hl
        simp only [List.flatMap_nil, List.nil_append] at hl ⊢
        rw [show (' ' :: c!" />\n") = ' ' :: ' ' :: c!"/>\n" from rfl, attrs_space]
        exact hl
      | cons p l =>
        rw [hr] at hl
        rw [List.flatMap_cons] at hl ⊢
        simp only [attr, List.cons_append] at hl ⊢
        rw [attrs_space]
        exact hl
    rw [hfuel, attr_step _ _ _ _ (by simp) (by decide), attr_step _ _ _ _ (by simp) (by decide), hrest, ev]
    rfl

/-- A name or value in a message gives back the text after unquoting. -/
theorem c35_var_texts (max : Nat) (v : Var) (n : Str) (x : Str) (h : (n, x) ∈ varAttrs max v) :
    (n = c!"name" → (∀ m, v.extra = some m → m ≠ n) → unquote x = some (Py.utf8 v.name)) ∧
    (n = c!"value" → (∀ m, v.extra = some m → m ≠ n) → unquote x = some (Py.utf8 (trim max v.value))) := by
  constructor
  · rintro rfl hex
    unfold varAttrs at h
    simp only [List.mem_append, List.mem_cons, List.not_mem_nil, or_false] at h
    rcases h with (((((h | h) | h) | h) | h) | h) | h
    · cases h; exact c35_unquote goodSafe_vars _
    · simp at h
    · split at h <;> simp at h
    · split at h <;> simp at h
    · split at h
      · simp at h
      · split at h <;> simp at h
    · split at h
      · rename_i m hm; simp only [List.mem_singleton, Prod.mk.injEq] at h; exact absurd h.1.symm (hex m hm)
      · cases h
    · split at h <;> simp at h
  · rintro rfl hex
    unfold varAttrs at h
    simp only [List.mem_append, List.mem_cons, List.not_mem_nil, or_false] at h
    rcases h with (((((h | h) | h) | h) | h) | h) | h
    · simp at h
    · simp at h
    · split at h <;> simp at h
    · split at h
      · simp only [List.mem_singleton, Prod.mk.injEq, true_and] at h
        rw [h]; exact c35_unquote goodSafe_vars _
      · cases h
    · split at h
      · simp at h
      · split at h <;> simp at h
    · split at h
      · rename_i m hm; simp only [List.mem_singleton, Prod.mk.injEq] at h; exact absurd h.1.symm (hex m hm)
      · cases h
    · split at h <;> simp at h

/-- the values shown are cut only when longer than the limit -/
theorem c35_trim (max : Nat) (v : Str) : (v.length ≤ max → trim max v = v) ∧ (max < v.length → trim max v = v.take max ++ c!"...") := by
  unfold trim
  constructor
  · intro h; rw [if_neg (by omega)]
  · intro h; rw [if_pos h]

/-- The output of the program as sent to the client. -/
theorem c35_io (max : Nat) (msg : Str) : startTag (ioToXml max msg c!"1") = some (c!"io", [(c!"s", quote safeChars (trim max msg)), (c!"ctx", c!"1")]) ∧
    unquote (quote safeChars (trim max msg)) = some (Py.utf8 (trim max msg)) := by
  refine ⟨?_, c35_unquote goodSafe_vars _⟩
  have h1 : escape c!"1" = c!"1" := by rw [escape_eq]; decide
  have e : ioToXml max msg c!"1" = '<' :: (c!"io" ++ (([(c!"s", quote safeChars (trim max msg)), (c!"ctx", c!"1")].flatMap fun p => attr p.1 p.2) ++ c!"/>")) := by
    simp [ioToXml, attr, h1]
  rw [e]
  refine startTag_list c!"io" _ _ (by simp) (by decide) ?_ (fun _ => rfl) (by intro c t h; simp at h; rw [← h.1]; decide)
  intro p hp
  simp only [List.mem_cons, List.not_mem_nil, or_false] at hp
  rcases hp with rfl | rfl <;> exact ⟨by simp, rfl⟩

/-! ### File and thread names -/

theorem hexDigit_plain (n : Nat) (h : n < 16) : esc1 (hexDigit n) = [hexDigit n] := by
  rcases (by omega : n = 0 ∨ n = 1 ∨ n = 2 ∨ n = 3 ∨ n = 4 ∨ n = 5 ∨ n = 6 ∨ n = 7 ∨ n = 8 ∨ n = 9 ∨ n = 10 ∨ n = 11 ∨ n = 12 ∨ n = 13 ∨ n = 14 ∨ n = 15)
    with rfl | rfl | rfl | rfl | rfl | rfl | rfl | rfl | rfl | rfl | rfl | rfl | rfl | rfl | rfl | rfl <;> decide

/-- File and thread names are escaped before they are quoted, so what the client gets by unquoting is the escaped
name: it is the name exactly when the name has none of the four characters. -/
theorem c35_escaped_inside {safe : Str} (hs : GoodSafe safe) (name : Str) :
    unquote (quote safe (escape name)) = some (Py.utf8 (escape name)) ∧
    (unquote (quote safe (escape name)) = some (Py.utf8 name) ↔ ∀ c ∈ name, c ≠ '&' ∧ c ≠ '<' ∧ c ≠ '>' ∧ c ≠ '"') := by
  refine ⟨c35_unquote hs _, ?_⟩
  rw [c35_unquote hs]
  constructor
  · intro h
    have h1 : escape name = name := Py.utf8_inj (Option.some.inj h)
    intro c hc
    have hlen : ∀ s : Str, s.length ≤ (escape s).length ∧ ((escape s).length = s.length → ∀ c ∈ s, (esc1 c).length = 1) := by
      intro s
      induction s with
      | nil => rw [escape_eq]; simp
      | cons x s ih =>
        have hx : 1 ≤ (esc1 x).length := by
          unfold esc1; repeat' split
          all_goals simp
        rw [escape_cons, List.length_append, List.length_cons]
        refine ⟨by omega, ?_⟩
        intro he c hc
        rcases List.mem_cons.1 hc with rfl | hc
        · have := ih.1; omega
        · exact ih.2 (by have := ih.1; omega) c hc
    have := (hlen name).2 (by rw [h1]) c hc
    refine ⟨?_, ?_, ?_, ?_⟩ <;> rintro rfl <;> revert this <;> decide
  · intro h
    congr 1
    have : escape name = name := by
      rw [escape_eq]
      clear hs
      induction name with
      | nil => rfl
      | cons c s ih =>
        obtain ⟨h1, h2, h3, h4⟩ := h c (by simp)
        rw [List.flatMap_cons, ih fun x hx => h x (by simp [hx])]
        simp [esc1, h1, h2, h3, h4]
    rw [this]

/-- text with none of the four characters is its own escaped form -/
def Plain (s : Str) : Prop := ∀ c ∈ s, c ≠ '&' ∧ c ≠ '<' ∧ c ≠ '>' ∧ c ≠ '"'

theorem escape_plain {s : Str} (h : Plain s) : escape s = s := by
  rw [escape_eq]
  induction s with
  | nil => rfl
  | cons c s ih =>
    obtain ⟨h1, h2, h3, h4⟩ := h c (by simp)
    rw [List.flatMap_cons, ih fun x hx => h x (by simp [hx])]
    simp [esc1, h1, h2, h3, h4]

theorem plain_hex (n : Nat) (h : n < 16) : hexDigit n ≠ '&' ∧ hexDigit n ≠ '<' ∧ hexDigit n ≠ '>' ∧ hexDigit n ≠ '"' := by
  rcases (by omega : n = 0 ∨ n = 1 ∨ n = 2 ∨ n = 3 ∨ n = 4 ∨ n = 5 ∨ n = 6 ∨ n = 7 ∨ n = 8 ∨ n = 9 ∨ n = 10 ∨ n = 11 ∨ n = 12 ∨ n = 13 ∨ n = 14 ∨ n = 15)
    with rfl | rfl | rfl | rfl | rfl | rfl | rfl | rfl | rfl | rfl | rfl | rfl | rfl | rfl | rfl | rfl <;> decide

theorem ascii_of_utf8 {s : Str} {b : Nat} (hb : b ∈ Py.utf8 s) (h : b < 128) : Char.ofNat b ∈ s := by
  obtain ⟨c, hc, hb⟩ := List.mem_flatMap.1 hb
  unfold Py.utf8Char Py.utf8Code at hb
  split at hb
  · simp only [List.mem_singleton] at hb
    subst hb
    rw [Char.ofNat_toNat]; exact hc
  · split at hb
    · simp at hb; omega
    · split at hb <;> simp at hb <;> omega

/-- quoted text never needs escaping when `>` does not occur in the text -/
theorem plain_quote {safe s : Str} (hs : ∀ c ∈ safe, c.toNat < 128 ∧ c ≠ '&' ∧ c ≠ '<' ∧ c ≠ '"') (h : '>' ∉ s) : Plain (quote safe s) := by
  intro c hc
  unfold quote quoteBytes at hc
  obtain ⟨b, hb, hc⟩ := List.mem_flatMap.1 hc
  have hlt := Py.utf8_byte s b hb
  split at hc
  · rename_i hsafe
    simp only [List.mem_singleton] at hc
    subst hc
    simp only [Bool.or_eq_true, List.any_eq_true, beq_iff_eq] at hsafe
    rcases hsafe with hsafe | ⟨d, hd, hd2⟩
    · simp only [alwaysSafe, Bool.or_eq_true, Bool.and_eq_true, decide_eq_true_eq, beq_iff_eq] at hsafe
      have hn : (Char.ofNat b).toNat = b := ofNat_toNat (by omega)
      refine ⟨?_, ?_, ?_, ?_⟩ <;> intro he <;> have h2 := congrArg Char.toNat he <;> rw [hn] at h2 <;> simp at h2 <;> omega
    · have hd3 := hs d hd
      have he : Char.ofNat b = d := by rw [← hd2, Char.ofNat_toNat]
      refine ⟨he ▸ hd3.2.1, he ▸ hd3.2.2.1, ?_, he ▸ hd3.2.2.2⟩
      intro hg
      exact h (hg ▸ ascii_of_utf8 hb (by omega))
  · simp only [List.mem_cons, List.not_mem_nil, or_false] at hc
    rcases hc with rfl | rfl | rfl
    · decide
    · exact plain_hex _ (by omega)
    · exact plain_hex _ (by omega)

theorem gt_not_escape (s : Str) : '>' ∉ escape s := fun h => (c35_no_markup s _ h).2.2 rfl

theorem plain_natStr (n : Nat) : Plain (Py.natStr n) := by
  intro c hc
  have := Py.natStr_digits n c hc
  refine ⟨?_, ?_, ?_, ?_⟩ <;> rintro rfl <;> revert this <;> decide

/-- The message of any frame is well formed: the function's name arrives as it is, the file as described by
`c35_escaped_inside`. -/
theorem c35_frame (id name file : Str) (line : Nat) (hid : Plain id) :
    startTag (frameToXml id name file line) =
      some (c!"frame", [(c!"id", id), (c!"name", name), (c!"file", quote c!"/>_= \t" (escape file)), (c!"line", Py.natStr line)]) := by
  have hq : escape (quote c!"/>_= \t" (escape file)) = quote c!"/>_= \t" (escape file) :=
    escape_plain (plain_quote (by decide) (gt_not_escape file))
  have e : frameToXml id name file line = '<' :: (c!"frame" ++ (([(c!"id", id), (c!"name", name), (c!"file", quote c!"/>_= \t" (escape file)),
      (c!"line", Py.natStr line)].flatMap fun p => attr p.1 p.2) ++ c!">")) := by
    simp [frameToXml, attr, escape_plain hid, escape_plain (plain_natStr line), hq]
  rw [e]
  refine startTag_list c!"frame" _ _ (by simp) (by decide) ?_ (fun _ => rfl) (by intro c t h; simp at h; rw [← h.1]; decide)
  intro p hp
  simp only [List.mem_cons, List.not_mem_nil, or_false] at hp
  rcases hp with rfl | rfl | rfl | rfl <;> exact ⟨by simp, rfl⟩

/-- The messages of threads and of custom frames are well formed. -/
theorem c35_thread (name id : Str) (hid : Plain id) :
    startTag (threadToXml name id) = some (c!"thread", [(c!"name", quote c!"/" (escape name)), (c!"id", id)]) ∧
    startTag (customFrameToXml name id) = some (c!"thread", [(c!"name", name), (c!"id", id)]) := by
  have hq : escape (quote c!"/" (escape name)) = quote c!"/" (escape name) := escape_plain (plain_quote (by decide) (gt_not_escape name))
  constructor
  · have e : threadToXml name id = '<' :: (c!"thread" ++ (([(c!"name", quote c!"/" (escape name)), (c!"id", id)].flatMap fun p => attr p.1 p.2) ++ c!" />")) := by
      simp [threadToXml, attr, escape_plain hid, hq]
    rw [e]
    refine startTag_list c!"thread" _ _ (by simp) (by decide) ?_ (fun _ => rfl) (by intro c t h; simp at h; rw [← h.1]; decide)
    intro p hp
    simp only [List.mem_cons, List.not_mem_nil, or_false] at hp
    rcases hp with rfl | rfl <;> exact ⟨by simp, rfl⟩
  · have e : customFrameToXml name id = '<' :: (c!"thread" ++ (([(c!"name", name), (c!"id", id)].flatMap fun p => attr p.1 p.2) ++ c!"/>")) := by
      simp [customFrameToXml, attr, escape_plain hid]
    rw [e]
    refine startTag_list c!"thread" _ _ (by simp) (by decide) ?_ (fun _ => rfl) (by intro c t h; simp at h; rw [← h.1]; decide)
    intro p hp
    simp only [List.mem_cons, List.not_mem_nil, or_false] at hp
    rcases hp with rfl | rfl <;> exact ⟨by simp, rfl⟩

example : Plain c!"139872 pid_12" := by unfold Plain; decide

/-- e.g. a file `a&b.py` is shown as `a&amp;b.py` -/
theorem c35_file_with_ampersand : unquote (quote c!"/>_= \t" (escape c!"/a&b.py")) = some (Py.utf8 c!"/a&amp;b.py") := by
  have : escape c!"/a&b.py" = c!"/a&amp;b.py" := by rw [escape_eq]; decide
  rw [this]
  exact c35_unquote (by unfold GoodSafe; decide) _

def sample : Var := { name := c!"x<y", type := c!"str", value := c!"a \"quoted\" & <tag>\n", scope := c!"locals" }
example : PlainVar sample := ⟨by intro n h; simp [sample] at h, by rw [escape_eq]; decide⟩
example : startTag (varToXml 1000 sample) = some (c!"var", [(c!"name", c!"x%3Cy"), (c!"type", c!"str"),
    (c!"value", c!"a %22quoted%22 %26 %3Ctag>%0A"), (c!"scope", c!"locals")]) := by
  rw [c35_var 1000 sample ⟨by intro n h; simp [sample] at h, by rw [escape_eq]; decide⟩]
  decide

end Xml
