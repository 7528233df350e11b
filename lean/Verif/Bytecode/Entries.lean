import Verif.Bytecode.Macro

namespace Bytecode
variable {U E D : Type}

/-! ### The program is still there -/

theorem filter_block (k : Nat) (L : Int) (x : List Item) :
    (instructionsToAdd k L ++ x).filter Item.own = x.filter Item.own := by
  simp [instructionsToAdd, Item.own]

/-- What the loop carries fits the instruction before. -/
def Fits (c : Carry) (cur : Int) : Option Instr → Prop
  | none => c.pred = []
  | some j => c.pred = predictTargets j.name ∧ j.lineno = some cur

theorem own_out (t : Track) (lines : List Int) :
    ∀ (r : List Item) (c : Carry) (cur : Int) (before : Option Instr), Original r → Fits c cur before →
      (out t lines c cur r).filter Item.own = if t then predictedLines before r else r := by
  intro r
  induction r with
  | nil => intro c cur before _ _; cases t <;> rfl
  | cons it r ih =>
    intro c cur before ho hf
    have hor : Original r := fun x hx => ho x (by simp [hx])
    cases it with
    | label l =>
      obtain ⟨n, rfl⟩ := ho _ (List.mem_cons_self)
      have := ih { c with prevLabel := true, pred := [] } cur none hor rfl
      simp only [out] at this
      simp only [out, insertLoop, withLines]
      rw [List.filter_cons_of_pos (by rfl), this]
      cases t <;> rfl
    | instr i =>
      obtain ⟨ho1, ho2, _⟩ := ho _ (List.mem_cons_self)
      obtain ⟨L₀, hL₀⟩ := Option.isSome_iff_exists.mp ho2
      have hown : ∀ l, (Item.instr { i with lineno := l }).own = true := fun l => ho1
      by_cases hp : (t && c.pred.contains i.name) = true
      · have hfix : fixed t c.pred i = { i with lineno := none } := by unfold fixed; rw [if_pos hp]
        have ht : t = true := by cases t <;> simp_all
        subst ht
        cases before with
        | none => rw [show c.pred = [] from hf] at hp; simp at hp
        | some j =>
          have := ih { c with prevLabel := false, pred := predictTargets i.name } cur
            (some { i with lineno := j.lineno }) hor ⟨rfl, hf.2⟩
          simp only [out] at this
          simp only [out, insertLoop, hfix, withLines, Option.getD_none]
          rw [List.filter_cons_of_pos (hown _), this]
          rw [hf.1] at hp
          simp only [Bool.true_and] at hp
          simp only [if_true, predictedLines, hp]
          rw [hf.2]
      · have hfix : fixed t c.pred i = i := by unfold fixed; rw [if_neg hp]
        have hii : { i with lineno := some L₀ } = i := by cases i; simp_all
        have key : ∀ c' : Carry, c'.pred = predictTargets i.name →
            (withLines L₀ (insertLoop t lines c' r)).filter Item.own =
              if t then predictedLines (some i) r else r :=
          fun c' hc => ih c' L₀ (some i) hor ⟨hc, hL₀⟩
        have hspec : (if t then predictedLines before (.instr i :: r) else .instr i :: r) =
            .instr i :: (if t then predictedLines (some i) r else r) := by
          cases t
          · rfl
          · simp only [if_true]
            cases before with
            | none => rfl
            | some j =>
              rw [hf.1, Bool.true_and] at hp
              simp only [predictedLines, hp]; simp
        rw [hspec]
        have hcons : ∀ x, (Item.instr i :: x).filter Item.own = .instr i :: x.filter Item.own :=
          fun x => List.filter_cons_of_pos ho1
        simp only [out, insertLoop, hfix, hL₀]
        split
        · simp only [withLines, hL₀, Option.getD_some]
          rw [hii, hcons, key _ rfl]
        · split
          · split
            · rename_i hpt
              simp only [Bool.and_eq_true, beq_iff_eq] at hpt
              simp only [withLines, withLines_block, hL₀, Option.getD_some, List.cons_append]
              rw [hii, hcons, filter_block, key _ (by rw [hpt.2]; rfl)]
            · simp only [withLines, withLines_block, hL₀, Option.getD_some]
              rw [filter_block, hii, hcons, key _ rfl]
          · simp only [withLines, hL₀, Option.getD_some]
            rw [hii, hcons, key _ rfl]

/-! ### Asking -/

theorem asked_block {L : Int} {blk : List (Ev U E)} (h : IsBlock L blk) : Asked L blk := by
  obtain ⟨k, st, e, rfl | rfl⟩ := h
  · exact ⟨true, by simp [blockTraceStop, blockTrace]⟩
  · exact ⟨false, by simp [blockTraceGo, blockTrace]⟩

/-- The forms of "asked" at a place of the program. -/
def AskedAt (Q : List Item) (before : List (Ev U E)) (i : Instr) (rest : List (Ev U E)) (L : Int) : Prop :=
  (∃ a b, before = a ++ b ∧ Quiet b ∧ Asked L b) ∨
  (i.name = "POP_TOP" ∧ (∃ p l s, Q = p ++ .label l :: .instr i :: s) ∧
    ∃ a b, rest = a ++ b ∧ Quiet a ∧ Asked L a)

def Adjacent (Q : List Item) (before : List (Ev U E)) (i : Instr) (L : Int) : Prop :=
  ∃ a j st' e', before = a ++ [.ran j st' e'] ∧ j.offset.isSome ∧ j.lineno = some L ∧
    ∃ p s, Q = p ++ .instr j :: .instr i :: s

def Earlier (P : List Item) (i : Instr) (L : Int) : Prop :=
  ∃ done r i', P = done ++ .instr i :: r ∧ .instr i' ∈ done ∧ i'.lineno = some L

def Strong (t : Track) (P Q : List Item) (lines : List Int) (tr : List (Ev U E)) : Prop :=
  ∀ before i stack env rest L, tr = before ++ .ran i stack env :: rest →
    i.offset.isSome → stack ≠ [] → i.lineno = some L → L ∈ lines →
    AskedAt Q before i rest L ∨ (if t then Adjacent Q before i L else Earlier P i L)

theorem split_append {α : Type} {a b c d : List α} {x : α} (h : a ++ b = c ++ x :: d) :
    (∃ r, a = c ++ x :: r ∧ d = r ++ b) ∨ (∃ l, c = a ++ l ∧ b = l ++ x :: d) := by
  rcases List.append_eq_append_iff.mp h with ⟨l, h1, h2⟩ | ⟨l, h1, h2⟩
  · exact Or.inr ⟨l, h1, h2⟩
  · cases l with
    | nil => exact Or.inr ⟨[], by simpa using h1.symm, by simpa using h2.symm⟩
    | cons y l =>
      simp only [List.cons_append, List.cons.injEq] at h2
      obtain ⟨rfl, rfl⟩ := h2
      exact Or.inl ⟨l, h1, rfl⟩

/-- An instruction of the program is not in the events of a block. -/
theorem not_in_block {L : Int} {blk : List (Ev U E)} (h : IsBlock L blk) {i st e l r}
    (hs : blk = l ++ .ran i st e :: r) (hi : i.offset.isSome) : False := by
  have := seen_block h
  rw [hs] at this
  simp only [seen_append, List.append_eq_nil_iff, seen_cons, Ev.seen] at this
  obtain ⟨o, ho⟩ := Option.isSome_iff_exists.mp hi
  simp [ho] at this

theorem strong_kept (t : Track) (lines : List Int) (P Q : List Item) :
    Kept t lines P Q (Strong (U := U) (E := E) t P Q lines) := by
  intro tr tr' hg hsh before i st e rest L heq hi hst hl hL
  rcases split_append heq with ⟨r, h1, h2⟩ | ⟨l, h1, h2⟩
  · rcases hg before i st e r L h1 hi hst hl hL with h | h
    · refine Or.inl ?_
      rcases h with h | ⟨hn, hp, a, b, hr, hq, ha⟩
      · exact Or.inl h
      · exact Or.inr ⟨hn, hp, a, b ++ tr', by rw [h2, hr]; simp, hq, ha⟩
    · exact Or.inr h
  · cases hsh with
    | quiet => simp at h2
    | plain i' st' e' ho hh =>
      cases l with
      | cons y l => simp at h2
      | nil =>
        simp only [List.nil_append, List.cons.injEq, Ev.ran.injEq] at h2
        obtain ⟨⟨rfl, rfl, rfl⟩, rfl⟩ := h2
        rw [List.append_nil] at h1; subst h1
        have := hh L hl hL
        cases t
        · exact Or.inr this
        · exact Or.inr this
    | before i' st' e' L' blk ho hl' hL' hb =>
      rcases split_append h2 with ⟨r, h3, _⟩ | ⟨l', h3, h4⟩
      · exact (not_in_block hb h3 hi).elim
      · cases l' with
        | cons y l => simp at h4
        | nil =>
          simp only [List.nil_append, List.cons.injEq, Ev.ran.injEq] at h4
          obtain ⟨⟨rfl, rfl, rfl⟩, rfl⟩ := h4
          rw [hl'] at hl; cases hl
          refine Or.inl (Or.inl ⟨tr, blk, ?_, seen_block hb, asked_block hb⟩)
          rw [h1, h3]; simp
    | after i' st' e' L' blk ho hl' hL' hn hp hb =>
      cases l with
      | nil =>
        simp only [List.nil_append, List.cons.injEq, Ev.ran.injEq] at h2
        obtain ⟨⟨rfl, rfl, rfl⟩, rfl⟩ := h2
        rw [hl'] at hl; cases hl
        exact Or.inl (Or.inr ⟨hn, hp, blk, [], by simp, seen_block hb, asked_block hb⟩)
      | cons y l =>
        simp only [List.cons_append, List.cons.injEq] at h2
        exact (not_in_block hb h2.2 hi).elim
    | pop i' e' ho =>
      cases l with
      | cons y l => simp at h2
      | nil =>
        simp only [List.nil_append, List.cons.injEq, Ev.ran.injEq] at h2
        exact absurd h2.1.2.1.symm hst

/-- A shorter run. -/
theorem askedAt_prefix {Q : List Item} {before : List (Ev U E)} {i rest rest' L}
    (h : AskedAt Q before i rest L) (hp : rest' <+: rest) :
    (∃ a b, before = a ++ b ∧ Quiet b ∧ Asked L b) ∨
    (i.name = "POP_TOP" ∧ (∃ p l s, Q = p ++ .label l :: .instr i :: s) ∧
      (Quiet rest' ∨ ∃ a b, rest' = a ++ b ∧ Quiet a ∧ Asked L a)) := by
  rcases h with h | ⟨hn, hp', a, b, hr, hq, ha⟩
  · exact Or.inl h
  · refine Or.inr ⟨hn, hp', ?_⟩
    obtain ⟨s, hs⟩ := hp
    rw [hr] at hs
    rcases List.append_eq_append_iff.mp hs with ⟨l, h1, h2⟩ | ⟨l, h1, h2⟩
    · left
      rw [h1] at hq
      simp only [Quiet, seen_append, List.append_eq_nil_iff] at hq
      exact hq.1
    · exact Or.inr ⟨a, l, h1, hq, ha⟩

/-- The events of a run are the start of the events of a longer one. -/
theorem run_prefix (w : World U E D) (Q : List Item) (m k : Nat) (g : Frame U E D) :
    (run w Q m g).2 <+: (run w Q (m + k) g).2 := by
  rw [run_add]; exact List.prefix_append _ _

theorem strong_prefix {t : Track} {P Q : List Item} {lines : List Int} {tr tr' : List (Ev U E)}
    (h : Strong t P Q lines tr) (hp : tr' <+: tr) :
    ∀ before i stack env rest L, tr' = before ++ .ran i stack env :: rest →
      i.offset.isSome → stack ≠ [] → i.lineno = some L → L ∈ lines →
      ((∃ a b, before = a ++ b ∧ Quiet b ∧ Asked L b) ∨
      (i.name = "POP_TOP" ∧ (∃ p l s, Q = p ++ .label l :: .instr i :: s) ∧
        (Quiet rest ∨ ∃ a b, rest = a ++ b ∧ Quiet a ∧ Asked L a))) ∨
      (if t then Adjacent Q before i L else Earlier P i L) := by
  intro before i st e rest L heq hi hst hl hL
  obtain ⟨s, hs⟩ := hp
  have : tr = before ++ .ran i st e :: (rest ++ s) := by rw [← hs, heq]; simp
  rcases h _ _ _ _ _ _ this hi hst hl hL with h | h
  · exact Or.inl (askedAt_prefix h (List.prefix_append _ _))
  · exact Or.inr h

/-- The first instruction of a line has none of its line before it. -/
theorem first_not_earlier {P : List Item} (hP : Placed P) {i : Instr} {L : Int}
    (hi : i.offset.isSome) (hl : i.lineno = some L) (hf : FirstOnLine P i) (he : Earlier P i L) :
    False := by
  obtain ⟨a, b, h1, h2⟩ := hf
  obtain ⟨done, r, i', h3, h4, h5⟩ := he
  obtain ⟨o, ho⟩ := Option.isSome_iff_exists.mp hi
  rw [h1] at h3
  rcases List.append_eq_append_iff.mp h3 with ⟨l, h6, h7⟩ | ⟨l, h6, h7⟩
  · cases l with
    | nil =>
      rw [List.append_nil] at h6
      rw [h6] at h4
      exact h2 i' h4 (by rw [h5, hl])
    | cons y l =>
      simp only [List.cons_append, List.cons.injEq] at h7
      obtain ⟨rfl, h7⟩ := h7
      have hn : Placed (a ++ Item.instr i :: (l ++ Item.instr i :: r)) := by
        rw [← h7, ← h1]; exact hP
      simp only [Placed, List.filterMap_append, List.filterMap_cons, Item.place, ho] at hn
      rw [List.nodup_append] at hn
      have := hn.2.1
      simp at this
  · have : Item.instr i' ∈ a := by rw [h6]; simp [h4]
    exact h2 i' this (by rw [h5, hl])

/-! ### Stopping -/

/-- `StopsAnnounced`, with the whole block there. -/
def StopsStrong (lines : List Int) (tr : List (Ev U E)) : Prop :=
  ∀ before L rest, tr = before ++ .stopped L :: rest →
    L ∈ lines ∧ (∃ a b, before = a ++ .check L true :: b ∧ Bare b) ∧
    ∃ i st e j st' e' rest', rest = .ran i st e :: .ran j st' e' :: rest' ∧
      i.offset = none ∧ j.offset = none ∧ i.lineno ≠ some L ∧ j.lineno = some L

theorem stop_in_block {L L' : Int} {blk l r : List (Ev U E)} (h : IsBlock L blk)
    (hs : blk = l ++ .stopped L' :: r) :
    L' = L ∧ (∃ a b, l = a ++ .check L true :: b ∧ Bare b) ∧
    ∃ i st e j st' e' rest', r = .ran i st e :: .ran j st' e' :: rest' ∧
      i.offset = none ∧ j.offset = none ∧ i.lineno ≠ some L ∧ j.lineno = some L := by
  obtain ⟨k, st, e, rfl | rfl⟩ := h
  · have hidx : ∀ (l : List (Ev U E)) (r), blockTraceStop k L st e = l ++ .stopped L' :: r →
        l.length = 8 := by
      intro l r h
      have hg : (blockTraceStop k L st e)[l.length]? = some (.stopped L') := by rw [h]; simp
      match l.length, hg with
      | 0, h | 1, h | 2, h | 3, h | 4, h | 5, h | 6, h | 7, h => simp [blockTraceStop, blockTrace] at h
      | 8, _ => rfl
      | 9, h | 10, h => simp [blockTraceStop, blockTrace] at h
      | n + 11, h => simp [blockTraceStop, blockTrace] at h
    have h8 := hidx _ _ hs
    match l, h8 with
    | [a0, a1, a2, a3, a4, a5, a6, a7], _ =>
      simp only [blockTraceStop, blockTrace, List.cons_append, List.nil_append, List.cons.injEq] at hs
      obtain ⟨rfl, rfl, rfl, rfl, rfl, rfl, rfl, rfl, h9, rfl⟩ := hs
      cases h9
      refine ⟨rfl, ⟨[_, _, _], [_, _, _, _], rfl, by intro ev hev; simp at hev; rcases hev with rfl | rfl | rfl | rfl <;> exact ⟨_, _, _, rfl, rfl⟩⟩, ?_⟩
      exact ⟨_, _, _, _, _, _, _, rfl, rfl, rfl, by simpa using spuriousLine_ne L, rfl⟩
  · exfalso
    have : Ev.stopped L' ∈ blockTraceGo k L st e := by rw [hs]; simp
    simp [blockTraceGo, blockTrace] at this

theorem stops_kept (t : Track) (lines : List Int) (P Q : List Item) :
    Kept t lines P Q (StopsStrong (U := U) (E := E) lines) := by
  intro tr tr' hg hsh before L rest heq
  rcases split_append heq with ⟨r, h1, h2⟩ | ⟨l, h1, h2⟩
  · obtain ⟨hL, hc, i, st, e, j, st', e', rest', hr, h⟩ := hg before L r h1
    exact ⟨hL, hc, i, st, e, j, st', e', rest' ++ tr', by rw [h2, hr]; simp, h⟩
  · have fin : ∀ {L' : Int} {blk l' r' tail : List (Ev U E)} {pre}, IsBlock L' blk → L' ∈ lines →
        blk = l' ++ .stopped L :: r' → before = pre ++ l' → rest = r' ++ tail →
        L ∈ lines ∧ (∃ a b, before = a ++ .check L true :: b ∧ Bare b) ∧
        ∃ i st e j st' e' rest', rest = .ran i st e :: .ran j st' e' :: rest' ∧
          i.offset = none ∧ j.offset = none ∧ i.lineno ≠ some L ∧ j.lineno = some L := by
      intro L' blk l' r' tail pre hb hL' hs hbe hre
      obtain ⟨rfl, ⟨a, b, hl, hq⟩, i, st, e, j, st', e', rest', hr, h⟩ := stop_in_block hb hs
      refine ⟨hL', ⟨pre ++ a, b, by rw [hbe, hl]; simp, hq⟩, i, st, e, j, st', e', rest' ++ tail, ?_, h⟩
      rw [hre, hr]; simp
    cases hsh with
    | quiet => simp at h2
    | plain i' st' e' ho hh =>
      have : Ev.stopped L ∈ [Ev.ran i' st' e'] := by rw [h2]; simp
      simp at this
    | before i' st' e' L' blk ho hl' hL' hb =>
      rcases split_append h2 with ⟨r, h3, h4⟩ | ⟨l', h3, h4⟩
      · exact fin hb hL' h3 h1 h4
      · have : Ev.stopped L ∈ [Ev.ran i' st' e'] := by rw [h4]; simp
        simp at this
    | after i' st' e' L' blk ho hl' hL' hn hp hb =>
      cases l with
      | nil => simp at h2
      | cons y l =>
        simp only [List.cons_append, List.cons.injEq] at h2
        refine fin (pre := tr ++ [y]) (tail := []) hb hL' h2.2 (by rw [h1]; simp) (by simp)
    | pop i' e' ho =>
      have : (Ev.stopped L : Ev U E) ∈ [Ev.ran i' [] e'] := by rw [h2]; simp
      simp at this

/-- `ChecksObeyed`, with the whole block there. -/
def ObeyedStrong (tr : List (Ev U E)) : Prop :=
  ∀ before L rest, tr = before ++ .check L true :: rest →
    ∃ a b, rest = a ++ .stopped L :: b ∧ Bare a

theorem check_true_in_block {L L' : Int} {blk l r : List (Ev U E)} (h : IsBlock L blk)
    (hs : blk = l ++ .check L' true :: r) : L' = L ∧ ∃ a b, r = a ++ .stopped L :: b ∧ Bare a := by
  obtain ⟨k, st, e, rfl | rfl⟩ := h
  · have hidx : l.length = 3 := by
      have hg : (blockTraceStop k L st e)[l.length]? = some (.check L' true) := by rw [hs]; simp
      match l.length, hg with
      | 0, h | 1, h | 2, h => simp [blockTraceStop, blockTrace] at h
      | 3, _ => rfl
      | 4, h | 5, h | 6, h | 7, h | 8, h | 9, h | 10, h => simp [blockTraceStop, blockTrace] at h
      | n + 11, h => simp [blockTraceStop, blockTrace] at h
    match l, hidx with
    | [a0, a1, a2], _ =>
      simp only [blockTraceStop, blockTrace, List.cons_append, List.nil_append, List.cons.injEq] at hs
      obtain ⟨rfl, rfl, rfl, h9, rfl⟩ := hs
      cases h9
      refine ⟨rfl, [_, _, _, _], _, rfl, ?_⟩
      intro ev hev; simp at hev; rcases hev with rfl | rfl | rfl | rfl <;> exact ⟨_, _, _, rfl, rfl⟩
  · exfalso
    have : Ev.check L' true ∈ blockTraceGo k L st e := by rw [hs]; simp
    simp [blockTraceGo, blockTrace] at this

theorem obeyed_kept (t : Track) (lines : List Int) (P Q : List Item) :
    Kept t lines P Q (ObeyedStrong (U := U) (E := E)) := by
  intro tr tr' hg hsh before L rest heq
  rcases split_append heq with ⟨r, h1, h2⟩ | ⟨l, h1, h2⟩
  · obtain ⟨a, b, hr, h⟩ := hg before L r h1
    exact ⟨a, b ++ tr', by rw [h2, hr]; simp, h⟩
  · have fin : ∀ {L' : Int} {blk l' r' tail : List (Ev U E)}, IsBlock L' blk →
        blk = l' ++ .check L true :: r' → rest = r' ++ tail →
        ∃ a b, rest = a ++ .stopped L :: b ∧ Bare a := by
      intro L' blk l' r' tail hb hs hre
      obtain ⟨rfl, a, b, hr, h⟩ := check_true_in_block hb hs
      exact ⟨a, b ++ tail, by rw [hre, hr]; simp, h⟩
    cases hsh with
    | quiet => simp at h2
    | plain i' st' e' ho hh =>
      have : (Ev.check L true : Ev U E) ∈ [Ev.ran i' st' e'] := by rw [h2]; simp
      simp at this
    | before i' st' e' L' blk ho hl' hL' hb =>
      rcases split_append h2 with ⟨r, h3, h4⟩ | ⟨l', h3, h4⟩
      · exact fin hb h3 h4
      · have : (Ev.check L true : Ev U E) ∈ [Ev.ran i' st' e'] := by rw [h4]; simp
        simp at this
    | after i' st' e' L' blk ho hl' hL' hn hp hb =>
      cases l with
      | nil => simp at h2
      | cons y l =>
        simp only [List.cons_append, List.cons.injEq] at h2
        exact fin (tail := []) hb h2.2 (by simp)
    | pop i' e' ho =>
      have : (Ev.check L true : Ev U E) ∈ [Ev.ran i' [] e'] := by rw [h2]; simp
      simp at this

/-- The debugger is asked about wanted lines only. -/
def ChecksOnly (lines : List Int) (tr : List (Ev U E)) : Prop :=
  ∀ L b, Ev.check L b ∈ tr → L ∈ lines

theorem check_in_block {L L' : Int} {b : Bool} {blk : List (Ev U E)} (h : IsBlock L blk)
    (hs : Ev.check L' b ∈ blk) : L' = L := by
  obtain ⟨k, st, e, rfl | rfl⟩ := h
  · simp [blockTraceStop, blockTrace] at hs; exact hs.1
  · simp [blockTraceGo, blockTrace] at hs; exact hs.1

theorem checks_kept (t : Track) (lines : List Int) (P Q : List Item) :
    Kept t lines P Q (ChecksOnly (U := U) (E := E) lines) := by
  intro tr tr' hg hsh L b hm
  rcases List.mem_append.mp hm with hm | hm
  · exact hg L b hm
  · cases hsh with
    | quiet => simp at hm
    | plain i' st' e' ho hh => simp at hm
    | before i' st' e' L' blk ho hl' hL' hb =>
      simp at hm; rw [check_in_block hb hm]; exact hL'
    | after i' st' e' L' blk ho hl' hL' hn hp hb =>
      simp at hm; rw [check_in_block hb hm]; exact hL'
    | pop i' e' ho => simp at hm

end Bytecode
