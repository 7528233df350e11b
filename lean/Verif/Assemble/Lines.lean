import Verif.Assemble.Spec

/-!
Lemmas for C62: reading the tables of lines.
-/
namespace Assemble

/-! ### Before 3.10 -/

/-- The entries move on by `doff` bytes and, from there, `dline` lines. -/
def Advances (es : List Entry) (doff : Nat) (dline : Int) : Prop :=
  ∀ address addr line rest, addr2line address addr line (es ++ rest) =
    if addr + doff > address then line else addr2line address (addr + doff) (line + dline) rest

theorem advances_one (doff : Nat) (dline : Int) : Advances [(doff, dline)] doff dline := by
  intro address addr line rest
  simp [addr2line]

theorem advances_far {es es' : List Entry} {d d' : Nat} {l : Int} (h : Advances es d 0)
    (h' : Advances es' d' l) : Advances (es ++ es') (d + d') l := by
  intro address addr line rest
  rw [List.append_assoc, h, h']
  by_cases h1 : addr + d > address
  · rw [if_pos h1, if_pos (by omega)]
  · rw [if_neg h1, Int.add_zero, Nat.add_assoc]

theorem advances_more {es es' : List Entry} {d : Nat} {l l' : Int} (h : Advances es d l)
    (h' : Advances es' 0 l') : Advances (es ++ es') d (l + l') := by
  intro address addr line rest
  rw [List.append_assoc, h, h']
  by_cases h1 : addr + d > address
  · rw [if_pos h1, if_pos h1]
  · rw [if_neg h1, if_neg h1, Nat.add_zero, if_neg h1, Int.add_assoc]

theorem skip_spec (doff : Nat) {tail : List Entry} {l : Int}
    (h : Advances tail (lnotabSkip doff).2 l) : Advances ((lnotabSkip doff).1 ++ tail) doff l := by
  fun_induction lnotabSkip doff with
  | case1 doff hd ih =>
    have := advances_far (advances_one 255 0) (ih h)
    rwa [show 255 + (doff - 255) = doff by omega] at this
  | case2 doff hd => simpa using h

theorem back_spec (doff : Nat) (dline : Int) {tail : List Entry}
    (h : Advances tail (lnotabBack doff dline).2.1 (lnotabBack doff dline).2.2) :
    Advances ((lnotabBack doff dline).1 ++ tail) doff dline := by
  fun_induction lnotabBack doff dline with
  | case1 doff dline hd ih =>
    have := advances_more (advances_one doff (-128)) (ih h)
    rwa [show -128 + (dline + 128) = dline by omega] at this
  | case2 doff dline hd => simpa using h

theorem forth_spec (doff : Nat) (dline : Int) {tail : List Entry}
    (h : Advances tail (lnotabForth doff dline).2.1 (lnotabForth doff dline).2.2) :
    Advances ((lnotabForth doff dline).1 ++ tail) doff dline := by
  fun_induction lnotabForth doff dline with
  | case1 doff dline hd ih =>
    have := advances_more (advances_one doff 127) (ih h)
    rwa [show 127 + (dline - 127) = dline by omega] at this
  | case2 doff dline hd => simpa using h

theorem entries_spec (doff : Nat) (dline : Int) : Advances (lnotabEntries doff dline) doff dline := by
  unfold lnotabEntries
  simp only [List.append_assoc]
  exact skip_spec _ (back_spec _ _ (forth_spec _ _ (advances_one _ _)))

/-- Offsets and sizes as they come from laying out instructions one after the
other. -/
def Laid : Nat → List (Nat × Nat × Int) → Prop
  | _, [] => True
  | off, (o, size, _) :: rest => o = off ∧ 0 < size ∧ Laid (off + size) rest

theorem laid_ge {off : Nat} {ls : List (Nat × Nat × Int)} (h : Laid off ls) {x : Nat × Nat × Int}
    (hx : x ∈ ls) : off ≤ x.1 := by
  induction ls generalizing off with
  | nil => cases hx
  | cons y ls ih =>
    obtain ⟨o, s, l⟩ := y
    obtain ⟨h1, h2, h3⟩ := h
    rcases List.mem_cons.mp hx with rfl | hx
    · simp [h1]
    · have := ih h3 hx; omega

/-- No instruction begins at the address or before: the line stays. -/
theorem lnotab_later (address : Nat) (ls : List (Nat × Nat × Int)) :
    ∀ (old : Nat) (oldLine : Int), old ≤ address → (∀ x ∈ ls, address < x.1) →
      addr2line address old oldLine (assembleLnotab old oldLine (ls.map fun l => (l.1, l.2.2))) = oldLine := by
  induction ls with
  | nil => intro old oldLine _ _; simp [assembleLnotab, addr2line]
  | cons x ls ih =>
    intro old oldLine ho hx
    obtain ⟨o, s, l⟩ := x
    have h1 := hx (o, s, l) (List.mem_cons_self ..)
    simp only [List.map_cons, assembleLnotab]
    split
    · exact ih old oldLine ho fun y hy => hx y (List.mem_cons_of_mem _ hy)
    · rw [entries_spec, if_pos (by simp only at h1; omega)]

theorem lnotab_line (address : Nat) (ls : List (Nat × Nat × Int)) :
    ∀ (old off : Nat) (oldLine : Int), old ≤ off → Laid off ls →
      ∀ x ∈ ls, x.1 ≤ address → address < x.1 + x.2.1 →
      addr2line address old oldLine (assembleLnotab old oldLine (ls.map fun l => (l.1, l.2.2))) = x.2.2 := by
  induction ls with
  | nil => intro old off oldLine _ _ x hx; cases hx
  | cons y ls ih =>
    intro old off oldLine ho hl x hx h1 h2
    obtain ⟨o, s, l⟩ := y
    obtain ⟨rfl, hs, hl'⟩ := hl
    have hoa : o ≤ address := by
      rcases List.mem_cons.mp hx with rfl | hx
      · exact h1
      · have := laid_ge hl' hx; omega
    simp only [List.map_cons, assembleLnotab]
    rcases List.mem_cons.mp hx with rfl | hx
    · have hlater : ∀ y ∈ ls, address < y.1 := fun y hy => by
        have := laid_ge hl' hy; simp only at h2; omega
      split
      · rename_i h0
        rw [lnotab_later address ls old oldLine (by simp only at h1; omega) hlater]; simp only; omega
      · rw [entries_spec, if_neg (by omega), show old + (o - old) = o by omega,
          show oldLine + (l - oldLine) = l by omega]
        exact lnotab_later address ls o l h1 hlater
    · split
      · exact ih old (o + s) oldLine (by omega) hl' x hx h1 h2
      · rw [entries_spec, if_neg (by omega), show old + (o - old) = o by omega,
          show oldLine + (l - oldLine) = l by omega]
        exact ih o (o + s) l (by omega) hl' x hx h1 h2

/-! ### 3.10 -/

/-- The entries are the next `doff` bytes, `dline` lines from the last. -/
def Covers (es : List Entry) (doff : Nat) (dline : Int) : Prop :=
  ∀ address from_ line rest, from_ ≤ address → lineInTable address from_ line (es ++ rest) =
    if from_ + doff > address then some (line + dline)
    else lineInTable address (from_ + doff) (line + dline) rest

theorem covers_one (doff : Nat) (dline : Int) (h : dline ≠ -128) : Covers [(doff, dline)] doff dline := by
  intro address from_ line rest _
  simp [lineInTable, h]

theorem covers_steps {es es' : List Entry} {d : Nat} {l l' : Int} (h : Covers es 0 l)
    (h' : Covers es' d l') : Covers (es ++ es') d (l + l') := by
  intro address from_ line rest hf
  rw [List.append_assoc, h _ _ _ _ hf, if_neg (by omega), h' _ _ _ _ (by omega), Nat.add_zero, Int.add_assoc]

theorem covers_rest {es es' : List Entry} {d d' : Nat} {l : Int} (h : Covers es d l)
    (h' : Covers es' d' 0) : Covers (es ++ es') (d + d') l := by
  intro address from_ line rest hf
  rw [List.append_assoc, h _ _ _ _ hf]
  by_cases h1 : from_ + d > address
  · rw [if_pos h1, if_pos (by omega)]
  · rw [if_neg h1, h' _ _ _ _ (by omega), Int.add_zero, Nat.add_assoc]

theorem steps_spec (dline : Int) {tail : List Entry} {d : Nat}
    (h : Covers tail d (linetableSteps dline).2) : Covers ((linetableSteps dline).1 ++ tail) d dline := by
  fun_induction linetableSteps dline with
  | case1 dline hd ih =>
    have := covers_steps (covers_one 0 (-127) (by decide)) (ih h)
    rwa [show -127 + (dline + 127) = dline by omega] at this
  | case2 dline h1 hd ih =>
    have := covers_steps (covers_one 0 127 (by decide)) (ih h)
    rwa [show 127 + (dline - 127) = dline by omega] at this
  | case3 dline h1 h2 => simpa using h

theorem steps_bound (dline : Int) : -127 ≤ (linetableSteps dline).2 ∧ (linetableSteps dline).2 ≤ 127 := by
  fun_induction linetableSteps dline with
  | case1 dline hd ih => exact ih
  | case2 dline h1 hd ih => exact ih
  | case3 dline h1 h2 => simp only; omega

theorem rest_spec (doff : Nat) : Covers (linetableRest doff) doff 0 := by
  fun_induction linetableRest doff with
  | case1 doff hd ih =>
    have := covers_rest (covers_one 254 0 (by decide)) ih
    rwa [show 254 + (doff - 254) = doff by omega] at this
  | case2 doff hd => exact covers_one doff 0 (by decide)

theorem pack_spec (doff : Nat) (dline : Int) : Covers (packLinetable doff dline) doff dline := by
  have hb := steps_bound dline
  unfold packLinetable
  simp only
  split
  · apply steps_spec
    have := covers_rest (covers_one 254 (linetableSteps dline).2 (by omega)) (rest_spec (doff - 254))
    rwa [show 254 + (doff - 254) = doff by omega] at this
  · apply steps_spec
    exact covers_one _ _ (by omega)

/-- The line of an address in the range that is not packed yet, before the next
instruction. -/
theorem linestable_first (address : Nat) (ls : List (Nat × Nat × Int)) :
    ∀ (old off : Nat) (line oldLine oldD : Int), old ≤ address → address < off → Laid off ls →
      lineInTable address old line (linestableLoop old oldLine oldD off ls) = some (line + oldD) := by
  induction ls with
  | nil =>
    intro old off line oldLine oldD h1 h2 _
    have := pack_spec (off - old) oldD address old line [] h1
    rw [List.append_nil, if_pos (by omega)] at this
    exact this
  | cons x ls ih =>
    intro old off line oldLine oldD h1 h2 hl
    obtain ⟨o, s, l⟩ := x
    obtain ⟨rfl, hs, hl'⟩ := hl
    simp only [linestableLoop]
    split
    · exact ih old (o + s) line oldLine oldD h1 (by omega) hl'
    · rw [pack_spec _ _ _ _ _ _ h1, if_pos (by omega)]

theorem linestable_line (address : Nat) (ls : List (Nat × Nat × Int)) :
    ∀ (old off : Nat) (line oldLine oldD : Int), old ≤ off → line + oldD = oldLine → Laid off ls →
      ∀ x ∈ ls, x.1 ≤ address → address < x.1 + x.2.1 →
      lineInTable address old line (linestableLoop old oldLine oldD off ls) = some x.2.2 := by
  induction ls with
  | nil => intro old off line oldLine oldD _ _ _ x hx; cases hx
  | cons y ls ih =>
    intro old off line oldLine oldD ho hd hl x hx h1 h2
    obtain ⟨o, s, l⟩ := y
    obtain ⟨rfl, hs, hl'⟩ := hl
    have hoa : o ≤ address := by
      rcases List.mem_cons.mp hx with rfl | hx
      · exact h1
      · have := laid_ge hl' hx; omega
    simp only [linestableLoop]
    rcases List.mem_cons.mp hx with rfl | hx
    · simp only at h1 h2
      split
      · rw [linestable_first address ls old (o + s) line oldLine oldD (by omega) h2 hl']
        simp only; congr 1; omega
      · rw [pack_spec _ _ _ _ _ _ (by omega), if_neg (by omega), show old + (o - old) = o by omega, hd,
          linestable_first address ls o (o + s) oldLine l (l - oldLine) h1 h2 hl']
        simp only; congr 1; omega
    · split
      · exact ih old (o + s) line oldLine oldD (by omega) hd hl' x hx h1 h2
      · rw [pack_spec _ _ _ _ _ _ (by omega), if_neg (by omega), show old + (o - old) = o by omega, hd]
        exact ih o (o + s) oldLine l (l - oldLine) (by omega) (by omega) hl' x hx h1 h2

theorem linestable_all (address : Nat) (first : Int) (ls : List (Nat × Nat × Int)) (hl : Laid 0 ls) :
    ∀ x ∈ ls, x.1 ≤ address → address < x.1 + x.2.1 →
      lineInTable address 0 first (assembleLinestable first ls) = some x.2.2 := by
  cases ls with
  | nil => intro x hx; cases hx
  | cons y ls =>
    obtain ⟨o, s, l⟩ := y
    obtain ⟨rfl, hs, hl'⟩ := hl
    intro x hx h1 h2
    simp only [assembleLinestable, Nat.zero_add] at *
    rcases List.mem_cons.mp hx with rfl | hx
    · simp only at h1 h2
      rw [linestable_first address ls 0 s first l (l - first) (by omega) (by omega) hl']
      simp only; congr 1; omega
    · exact linestable_line address ls 0 s first l (l - first) (by omega) (by omega) hl' x hx h1 h2

/-! ### The entries are bytes -/

theorem skip_fits (doff : Nat) :
    (∀ e ∈ (lnotabSkip doff).1, Entry.Fits e) ∧ (lnotabSkip doff).2 ≤ 255 := by
  fun_induction lnotabSkip doff with
  | case1 doff hd ih =>
    refine ⟨?_, ih.2⟩
    intro e he
    rcases List.mem_cons.mp he with rfl | he
    · simp [Entry.Fits]
    · exact ih.1 e he
  | case2 doff hd => exact ⟨fun e he => (nomatch he), by simp only; omega⟩

theorem back_fits (doff : Nat) (dline : Int) (h : doff ≤ 255) :
    (∀ e ∈ (lnotabBack doff dline).1, Entry.Fits e) ∧ (lnotabBack doff dline).2.1 ≤ 255 ∧
      -128 ≤ (lnotabBack doff dline).2.2 := by
  fun_induction lnotabBack doff dline with
  | case1 doff dline hd ih =>
    have ih := ih (by omega)
    refine ⟨?_, ih.2⟩
    intro e he
    rcases List.mem_cons.mp he with rfl | he
    · simp [Entry.Fits, h]
    · exact ih.1 e he
  | case2 doff dline hd => exact ⟨fun e he => (nomatch he), h, by simp only; omega⟩

theorem forth_fits (doff : Nat) (dline : Int) (h : doff ≤ 255) (hd : -128 ≤ dline) :
    (∀ e ∈ (lnotabForth doff dline).1, Entry.Fits e) ∧
      Entry.Fits ((lnotabForth doff dline).2.1, (lnotabForth doff dline).2.2) := by
  fun_induction lnotabForth doff dline with
  | case1 doff dline hd ih =>
    have ih := ih (by omega) (by omega)
    refine ⟨?_, ih.2⟩
    intro e he
    rcases List.mem_cons.mp he with rfl | he
    · simp [Entry.Fits, h]
    · exact ih.1 e he
  | case2 doff dline hd' => exact ⟨fun e he => (nomatch he), h, hd, by simp only; omega⟩

theorem entries_fit (doff : Nat) (dline : Int) : ∀ e ∈ lnotabEntries doff dline, Entry.Fits e := by
  intro e he
  have h1 := skip_fits doff
  have h2 := back_fits (lnotabSkip doff).2 dline h1.2
  have h3 := forth_fits _ _ h2.2.1 h2.2.2
  simp only [lnotabEntries, List.mem_append, List.mem_singleton] at he
  rcases he with ((he | he) | he) | he
  · exact h1.1 e he
  · exact h2.1 e he
  · exact h3.1 e he
  · subst he; exact h3.2

theorem lnotab_fits (ls : List (Nat × Int)) :
    ∀ old oldLine, ∀ e ∈ assembleLnotab old oldLine ls, Entry.Fits e := by
  induction ls with
  | nil => intro old oldLine e he; simp [assembleLnotab] at he
  | cons x ls ih =>
    intro old oldLine e he
    simp only [assembleLnotab] at he
    split at he
    · exact ih _ _ e he
    · rcases List.mem_append.mp he with he | he
      · exact entries_fit _ _ e he
      · exact ih _ _ e he

theorem steps_fit (dline : Int) : ∀ e ∈ (linetableSteps dline).1, Entry.Fits e := by
  fun_induction linetableSteps dline with
  | case1 dline hd ih =>
    intro e he
    rcases List.mem_cons.mp he with rfl | he
    · simp [Entry.Fits]
    · exact ih e he
  | case2 dline h1 hd ih =>
    intro e he
    rcases List.mem_cons.mp he with rfl | he
    · simp [Entry.Fits]
    · exact ih e he
  | case3 dline h1 h2 => intro e he; cases he

theorem rest_fit (doff : Nat) : ∀ e ∈ linetableRest doff, Entry.Fits e := by
  fun_induction linetableRest doff with
  | case1 doff hd ih =>
    intro e he
    rcases List.mem_cons.mp he with rfl | he
    · simp [Entry.Fits]
    · exact ih e he
  | case2 doff hd =>
    intro e he
    rw [List.mem_singleton] at he
    subst he
    simp only [Entry.Fits]; omega

theorem pack_fits (doff : Nat) (dline : Int) : ∀ e ∈ packLinetable doff dline, Entry.Fits e := by
  intro e he
  have hb := steps_bound dline
  simp only [packLinetable] at he
  split at he
  · rcases List.mem_append.mp he with he | he
    · exact steps_fit _ e he
    · rcases List.mem_cons.mp he with rfl | he
      · simp only [Entry.Fits]; omega
      · exact rest_fit _ e he
  · rcases List.mem_append.mp he with he | he
    · exact steps_fit _ e he
    · rw [List.mem_singleton] at he
      subst he
      simp only [Entry.Fits]; omega

theorem linestable_fits (first : Int) (ls : List (Nat × Nat × Int)) :
    ∀ e ∈ assembleLinestable first ls, Entry.Fits e := by
  have loop : ∀ (ls : List (Nat × Nat × Int)) old oldLine oldD off,
      ∀ e ∈ linestableLoop old oldLine oldD off ls, Entry.Fits e := by
    intro ls
    induction ls with
    | nil => intro old oldLine oldD off e he; exact pack_fits _ _ e he
    | cons x ls ih =>
      intro old oldLine oldD off e he
      simp only [linestableLoop] at he
      split at he
      · exact ih _ _ _ _ e he
      · rcases List.mem_append.mp he with he | he
        · exact pack_fits _ _ e he
        · exact ih _ _ _ _ e he
  cases ls with
  | nil => intro e he; cases he
  | cons x ls => exact loop _ _ _ _ _

end Assemble
