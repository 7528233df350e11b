import Verif.Xml.Props
import Verif.ComplServer.Spec
/-! Lemmas about text, quoting and the reading of requests. -/

namespace ComplServer
open Spec

/-! ### Text -/

theorem isIn_iff {p s : Str} : Py.isIn p s = true ↔ ∃ a b, s = a ++ p ++ b := by
  unfold Py.isIn
  induction s with
  | nil =>
    rw [Py.find]
    constructor
    · intro h
      split at h
      · rename_i hp; exact ⟨[], [], by simp [hp]⟩
      · simp at h
    · rintro ⟨a, b, h⟩
      have : p = [] := by
        have := congrArg List.length h
        simp only [List.length_nil, List.length_append] at this
        exact List.length_eq_zero_iff.1 (by omega)
      rw [if_pos this]; rfl
  | cons c cs ih =>
    rw [Py.find]
    constructor
    · intro h
      split at h
      · rename_i hp
        rw [List.isPrefixOf_iff_prefix] at hp
        obtain ⟨b, hb⟩ := hp
        exact ⟨[], b, by simp [hb]⟩
      · rw [Option.isSome_map] at h
        obtain ⟨a, b, hab⟩ := ih.1 h
        exact ⟨c :: a, b, by simp [hab]⟩
    · rintro ⟨a, b, h⟩
      split
      · rfl
      · rename_i hp
        rw [Option.isSome_map]
        refine ih.2 ?_
        cases a with
        | nil =>
          exfalso; apply hp
          rw [List.isPrefixOf_iff_prefix]
          exact ⟨b, by simp [h]⟩
        | cons x a =>
          simp only [List.cons_append, List.cons.injEq] at h
          exact ⟨a, b, h.2⟩

theorem rfind_some {p s : Str} {n : Nat} (h : rfind p s = some n) : ∃ b, s = s.take n ++ p ++ b := by
  induction s generalizing n with
  | nil =>
    rw [rfind] at h
    split at h
    · rename_i hp; exact ⟨[], by simp [hp]⟩
    · cases h
  | cons c cs ih =>
    rw [rfind] at h
    split at h
    · rename_i m hm
      cases h
      obtain ⟨b, hb⟩ := ih hm
      exact ⟨b, by simp only [List.take_succ_cons, List.cons_append]; rw [← hb]⟩
    · split at h
      · rename_i hp
        cases h
        rw [List.isPrefixOf_iff_prefix] at hp
        obtain ⟨b, hb⟩ := hp
        exact ⟨b, by simp [hb]⟩
      · cases h

theorem rfind_none {p s : Str} (h : rfind p s = none) : ¬ ∃ a b, s = a ++ p ++ b := by
  induction s with
  | nil =>
    rw [rfind] at h
    split at h
    · cases h
    · rename_i hp
      rintro ⟨a, b, h⟩
      apply hp
      have := congrArg List.length h
      simp only [List.length_nil, List.length_append] at this
      exact List.length_eq_zero_iff.1 (by omega)
  | cons c cs ih =>
    rw [rfind] at h
    split at h
    · cases h
    · rename_i hn
      split at h
      · cases h
      · rename_i hp
        rintro ⟨a, b, hab⟩
        cases a with
        | nil =>
          apply hp
          rw [List.isPrefixOf_iff_prefix]
          exact ⟨b, by simp [hab]⟩
        | cons x a =>
          simp only [List.cons_append, List.cons.injEq] at hab
          exact ih hn ⟨a, b, hab.2⟩

/-- two `@` at the end of a text without others -/
theorem uniq {A X b : Str} (h : '@' ∉ X) (e : A ++ '@' :: '@' :: b = X ++ ['@', '@']) : A = X ∧ b = [] := by
  induction X generalizing A with
  | nil =>
    have := congrArg List.length e
    simp only [List.length_append, List.length_cons, List.length_nil] at this
    exact ⟨List.length_eq_zero_iff.1 (by omega), List.length_eq_zero_iff.1 (by omega)⟩
  | cons x X ih =>
    cases A with
    | nil =>
      simp only [List.nil_append, List.cons_append, List.cons.injEq] at e
      exact absurd (by rw [e.1]; simp) h
    | cons y A =>
      simp only [List.cons_append, List.cons.injEq] at e
      obtain ⟨rfl, hb⟩ := ih (fun hm => h (by simp [hm])) e.2
      exact ⟨by rw [e.1], hb⟩

/-- `END@@` is only at the end of a request -/
theorem end_only {mid a b : Str} (hm : '@' ∉ mid) (h : c!"@@" ++ mid ++ msgEnd = a ++ msgEnd ++ b) :
    b = [] ∧ a = c!"@@" ++ mid := by
  match a with
  | [] => simp [msgEnd] at h
  | [x] => simp [msgEnd] at h
  | x :: y :: a =>
    have hx : '@' ∉ mid ++ c!"END" := by simp [hm]
    have e : (a ++ c!"END") ++ '@' :: '@' :: b = (mid ++ c!"END") ++ ['@', '@'] := by
      simp only [msgEnd, List.cons_append, List.nil_append, List.cons.injEq] at h
      simp only [List.append_assoc, List.cons_append, List.nil_append]
      simpa using h.2.2.symm
    obtain ⟨h1, h2⟩ := uniq hx e
    have h3 : a = mid := List.append_cancel_right h1
    simp only [msgEnd, List.cons_append, List.nil_append, List.cons.injEq] at h
    refine ⟨h2, ?_⟩
    rw [h3, ← h.1, ← h.2.1]; rfl

/-- texts starting with `@@` are only at the beginning of a request -/
theorem start_only {mid p : Str} {c : Char} (hm : '@' ∉ mid) (hc : c ≠ '@')
    (h : Py.isIn ('@' :: '@' :: c :: p) (c!"@@" ++ mid ++ msgEnd) = true) : '@' :: '@' :: c :: p <+: c!"@@" ++ mid ++ msgEnd := by
  obtain ⟨a, b, h⟩ := isIn_iff.1 h
  match a with
  | [] => exact ⟨b, by rw [h]; simp⟩
  | [x] =>
    exfalso
    simp only [msgEnd, List.cons_append, List.nil_append, List.cons.injEq] at h
    have h2 := h.2.2
    cases mid with
    | nil => simp at h2
    | cons m mid =>
      simp only [List.cons_append, List.cons.injEq] at h2
      exact hm (by rw [h2.1]; simp)
  | x :: y :: a =>
    exfalso
    have hx : '@' ∉ mid ++ c!"END" := by simp [hm]
    have e : a ++ '@' :: '@' :: (c :: p ++ b) = (mid ++ c!"END") ++ ['@', '@'] := by
      simp only [msgEnd, List.cons_append, List.nil_append, List.cons.injEq] at h
      simp only [List.append_assoc, List.cons_append, List.nil_append]
      simpa using h.2.2.symm
    have := (uniq hx e).2
    simp at this

theorem rfind_end {mid : Str} (hm : '@' ∉ mid) :
    upToEnd (c!"@@" ++ mid ++ msgEnd) = c!"@@" ++ mid := by
  unfold upToEnd
  cases h : rfind msgEnd (c!"@@" ++ mid ++ msgEnd) with
  | none => exact absurd ⟨c!"@@" ++ mid, [], by simp⟩ (rfind_none h)
  | some n =>
    obtain ⟨b, hb⟩ := rfind_some h
    exact (end_only hm hb).2

/-! ### Quoting -/

theorem hex_eq (c : Char) : hex c = Xml.Spec.hexValue c := by
  unfold hex Xml.Spec.hexValue
  dsimp only
  repeat' split
  all_goals first | rfl | omega

theorem unquoteBytes_of {s : Str} {bs : List Nat} (h : Xml.Spec.unquote s = some bs) : unquoteBytes s = bs := by
  fun_induction Xml.Spec.unquote s generalizing bs with
  | case1 => cases h; rfl
  | case2 a b r x y bs' hb hy hx ih =>
    cases h
    rw [unquoteBytes, hex_eq, hex_eq, hx, hy]
    dsimp only
    rw [ih hb, Nat.mul_comm]
  | case3 => cases h
  | case4 => cases h
  | case5 c r hne hc ih =>
    cases hr : Xml.Spec.unquote r with
    | none => rw [hr] at h; cases h
    | some x =>
      rw [hr] at h
      cases h
      rw [unquoteBytes]
      · rw [ih hr]
      · exact hne

theorem ascii_of {s : Str} {bs : List Nat} (h : Xml.Spec.unquote s = some bs) : ∀ c ∈ s, c.toNat < 128 := by
  have hv : ∀ {c x}, Xml.Spec.hexValue c = some x → c.toNat < 128 := by
    intro c x hx
    unfold Xml.Spec.hexValue at hx
    repeat' split at hx
    all_goals first | omega | cases hx
  fun_induction Xml.Spec.unquote s generalizing bs with
  | case1 => simp
  | case2 a b r x y bs' hb hy hx ih =>
    intro c hc
    simp only [List.mem_cons] at hc
    rcases hc with rfl | rfl | rfl | hc
    · decide
    · exact hv hx
    · exact hv hy
    · exact ih hb c hc
  | case3 => cases h
  | case4 => cases h
  | case5 c r hne hc ih =>
    cases hr : Xml.Spec.unquote r with
    | none => rw [hr] at h; cases h
    | some x =>
      intro d hd
      simp only [List.mem_cons] at hd
      rcases hd with rfl | hd
      · simp only [not_or] at hc; omega
      · exact ih hr d hd

theorem unquotePlus_of {t q : Str} (h : Quoted t q) : unquotePlus q = t := by
  unfold unquotePlus
  rw [unquoteBytes_of h.2, Py.decode_utf8, List.map_map]
  conv => rhs; rw [← List.map_id t]
  exact List.map_congr_left fun c _ => by simp [Function.comp]

theorem quoted_ascii {t q : Str} (h : Quoted t q) : ∀ c ∈ q, c.toNat < 128 := by
  intro c hc
  by_cases he : c = '+'
  · subst he; decide
  · have := ascii_of h.2 c (List.mem_map.2 ⟨c, hc, by simp [he]⟩)
    exact this

/-- characters of quoted text -/
theorem quote_chars {s : Str} {c : Char} (h : c ∈ Xml.quote [' '] s) : c = ' ' ∨ c = '%' ∨ Xml.alwaysSafe c.toNat = true := by
  unfold Xml.quote Xml.quoteBytes at h
  rw [List.mem_flatMap] at h
  obtain ⟨b, hb, hc⟩ := h
  have hlt := Py.utf8_byte s b hb
  have hd : ∀ n, n < 16 → Xml.alwaysSafe (Xml.hexDigit n).toNat = true := by
    intro n hn
    rcases (by omega : n = 0 ∨ n = 1 ∨ n = 2 ∨ n = 3 ∨ n = 4 ∨ n = 5 ∨ n = 6 ∨ n = 7 ∨ n = 8 ∨ n = 9 ∨ n = 10 ∨ n = 11 ∨ n = 12 ∨ n = 13 ∨ n = 14 ∨ n = 15)
      with rfl | rfl | rfl | rfl | rfl | rfl | rfl | rfl | rfl | rfl | rfl | rfl | rfl | rfl | rfl | rfl <;> decide
  split at hc
  · rename_i hsafe
    simp only [List.mem_singleton] at hc
    simp only [Bool.or_eq_true, List.any_cons, List.any_nil, Bool.or_false, beq_iff_eq] at hsafe
    have hn : (Char.ofNat b).toNat = b := Xml.ofNat_toNat (by omega)
    rcases hsafe with h | h
    · exact .inr (.inr (by rw [hc, hn]; exact h))
    · refine .inl (Char.toNat_inj.1 ?_)
      rw [hc, hn, ← h]
  · simp only [List.mem_cons, List.not_mem_nil, or_false] at hc
    rcases hc with h | h | h
    · exact .inr (.inl h)
    · exact .inr (.inr (by rw [h]; exact hd _ (by omega)))
    · exact .inr (.inr (by rw [h]; exact hd _ (by omega)))

theorem quotePlus_chars {s : Str} {c : Char} (h : c ∈ quotePlus s) : c = '+' ∨ c = '%' ∨ Xml.alwaysSafe c.toNat = true := by
  unfold quotePlus at h
  rw [List.mem_map] at h
  obtain ⟨d, hd, rfl⟩ := h
  rcases quote_chars hd with rfl | h | h
  · exact .inl (by simp)
  · split
    · exact .inl rfl
    · exact .inr (.inl h)
  · split
    · exact .inl rfl
    · exact .inr (.inr h)

theorem quotePlus_not {s : Str} {c : Char} (h1 : c ≠ '+') (h2 : c ≠ '%') (h3 : Xml.alwaysSafe c.toNat = false) : c ∉ quotePlus s := by
  intro h
  rcases quotePlus_chars h with h | h | h
  · exact h1 h
  · exact h2 h
  · rw [h3] at h; cases h

theorem quotePlus_back (s : Str) : (quotePlus s).map (fun c => if c = '+' then ' ' else c) = Xml.quote [' '] s := by
  unfold quotePlus
  rw [List.map_map]
  conv => rhs; rw [← List.map_id (Xml.quote [' '] s)]
  refine List.map_congr_left fun c hc => ?_
  simp only [Function.comp, id]
  by_cases h : c = ' '
  · simp [h]
  · have : c ≠ '+' := by
      rintro rfl
      rcases quote_chars hc with h | h | h
      · cases h
      · cases h
      · revert h; decide
    simp [h, this]

theorem field_of (s : Str) : field (removeInvalidChars s) = some (Py.utf8 s) := by
  unfold removeInvalidChars
  by_cases h : s = []
  · simp [h, field, Py.utf8]
  · rw [if_pos h]
    unfold field
    rw [if_neg, quotePlus_back, Xml.c35_unquote]
    · intro c hc
      simp only [List.mem_singleton] at hc
      subst hc; decide
    · intro he
      exact quotePlus_not (s := s) (c := ' ') (by decide) (by decide) (by decide) (by rw [he]; simp)

theorem invalid_not {s : Str} {c : Char} (h0 : c ≠ ' ') (h1 : c ≠ '+') (h2 : c ≠ '%') (h3 : Xml.alwaysSafe c.toNat = false) :
    c ∉ removeInvalidChars s := by
  unfold removeInvalidChars
  split
  · exact quotePlus_not h1 h2 h3
  · simp [h0]

/-! ### Messages -/

theorem sequence_map {α β : Type} {f : α → Option β} {g : α → β} (l : List α) (h : ∀ x ∈ l, f x = some (g x)) :
    sequence (l.map f) = some (l.map g) := by
  induction l with
  | nil => rfl
  | cons a l ih =>
    rw [List.map_cons, h a (by simp), sequence, ih fun x hx => h x (by simp [hx])]
    rfl

def inner (t : Comp) : Str := Py.join1 ',' ((texts t).map removeInvalidChars)

theorem formatComp_eq (t : Comp) : formatComp t = ',' :: '(' :: (inner t ++ [')']) := by
  obtain ⟨a, b, r⟩ := t
  match r with
  | [] => simp [formatComp, inner, texts, Py.join1]
  | [x] => simp [formatComp, inner, texts, Py.join1]
  | x :: y :: r => simp [formatComp, inner, texts, Py.join1]

theorem join1_not_mem {sep c : Char} {ws : List Str} (hc : c ≠ sep) (h : ∀ w ∈ ws, c ∉ w) : c ∉ Py.join1 sep ws := by
  induction ws with
  | nil => simp [Py.join1]
  | cons w ws ih =>
    cases ws with
    | nil => simpa [Py.join1] using h w (by simp)
    | cons v vs =>
      rw [Py.join1_cons _ _ _ (by simp)]
      simp only [List.mem_append, List.mem_cons, not_or]
      exact ⟨h w (by simp), hc, ih fun x hx => h x (by simp [hx])⟩

theorem inner_not {t : Comp} {c : Char} (hs : c ≠ ',') (h0 : c ≠ ' ') (h1 : c ≠ '+') (h2 : c ≠ '%') (h3 : Xml.alwaysSafe c.toNat = false) :
    c ∉ inner t := by
  refine join1_not_mem hs ?_
  intro w hw
  obtain ⟨x, _, rfl⟩ := List.mem_map.1 hw
  exact invalid_not h0 h1 h2 h3

def tails : List Comp → List Str
  | [] => []
  | t :: ts => (inner t ++ ')' :: (if ts = [] then [] else [','])) :: tails ts

theorem split_body (x : Str) (cs : List Comp) (hx : '(' ∉ x) :
    Py.split1 '(' (x ++ cs.flatMap formatComp) = (x ++ if cs = [] then [] else [',']) :: tails cs := by
  induction cs generalizing x with
  | nil => simp [tails, Py.split1_of_not_mem _ _ hx]
  | cons t ts ih =>
    have e : x ++ (t :: ts).flatMap formatComp = (x ++ [',']) ++ '(' :: ((inner t ++ [')']) ++ ts.flatMap formatComp) := by
      rw [List.flatMap_cons, formatComp_eq]; simp
    rw [e, Py.split1_append_sep, Py.split1_of_not_mem _ (x ++ [',']) (by simp [hx]),
      ih _ (by simp [inner_not (t := t) (c := '(') (by decide) (by decide) (by decide) (by decide) (by decide)])]
    simp [tails]

theorem takeWhile_inner (t : Comp) (r : Str) : (inner t ++ ')' :: r).takeWhile (· ≠ ')') = inner t := by
  have h : ')' ∉ inner t := inner_not (by decide) (by decide) (by decide) (by decide) (by decide)
  generalize inner t = l at h
  induction l with
  | nil => simp
  | cons a l ih =>
    simp only [List.mem_cons, not_or] at h
    rw [List.cons_append, List.takeWhile_cons, if_pos (by simpa using fun e : a = ')' => h.1 e.symm), ih h.2]

theorem read_tails (cs : List Comp) :
    sequence ((tails cs).map fun p => sequence ((Py.split1 ',' (p.takeWhile (· ≠ ')'))).map field)) = some (cs.map fun t => (texts t).map Py.utf8) := by
  induction cs with
  | nil => rfl
  | cons t ts ih =>
    rw [tails, List.map_cons, takeWhile_inner]
    have h1 : Py.split1 ',' (inner t) = (texts t).map removeInvalidChars := by
      refine Py.split1_join1 _ _ (by simp [texts]) ?_
      intro w hw
      obtain ⟨x, _, rfl⟩ := List.mem_map.1 hw
      exact invalid_not (by decide) (by decide) (by decide) (by decide)
    have h2 : sequence (((texts t).map removeInvalidChars).map field) = some ((texts t).map Py.utf8) := by
      rw [List.map_map]
      exact sequence_map _ fun x _ => field_of x
    rw [h1, h2, sequence, ih]
    rfl

/-- The client reads from the message what was put into it. -/
theorem read_message (f : Str) (cs : List Comp) (hf : '(' ∉ f) :
    read (formatMessage f cs) = some (f, cs.map fun t => (texts t).map Py.utf8) := by
  have e : formatMessage f cs = c!"@@COMPLETIONS(" ++ (f ++ cs.flatMap formatComp) ++ c!")END@@" := by
    simp [formatMessage, msgCompletions, msgEnd]
  rw [e]
  generalize hb : f ++ cs.flatMap formatComp = body
  unfold Spec.read
  dsimp only
  rw [if_pos ⟨by rw [List.append_assoc]; exact List.prefix_append _ _, List.suffix_append _ _, by simp only [List.length_append]; omega⟩]
  have hd : ((c!"@@COMPLETIONS(" ++ body ++ c!")END@@").drop (c!"@@COMPLETIONS(").length).take
      ((c!"@@COMPLETIONS(" ++ body ++ c!")END@@").length - (c!"@@COMPLETIONS(").length - (c!")END@@").length) = body := by
    rw [List.append_assoc, List.drop_left]
    simp only [List.length_append]
    rw [show (c!"@@COMPLETIONS(").length + (body.length + (c!")END@@").length) - (c!"@@COMPLETIONS(").length - (c!")END@@").length = body.length by omega,
      List.take_left]
  rw [hd, ← hb, split_body f cs hf]
  cases cs with
  | nil => simp [tails]
  | cons t ts =>
    have := read_tails (t :: ts)
    rw [tails] at this ⊢
    dsimp only
    rw [this]
    simp

/-! ### Bytes -/

theorem decodeUtf8_ascii (l : List Nat) (h : ∀ x ∈ l, x < 128) : Py.decodeUtf8 l = l := by
  induction l with
  | nil => rfl
  | cons a l ih =>
    conv => lhs; unfold Py.decodeUtf8
    rw [if_pos (h a (by simp)), ih fun x hx => h x (by simp [hx])]

theorem decode_ascii {b : Bytes} (h : ∀ x ∈ b, x < 0x80) : decode b = some (Py.asChars b) := by
  unfold decode
  rw [if_pos (Py.utf8Valid_ascii h), decodeUtf8_ascii, List.map_map]
  · rfl
  · intro x hx
    obtain ⟨y, hy, rfl⟩ := List.mem_map.1 hx
    exact h y hy

end ComplServer
