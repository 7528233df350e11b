import Verif.Bytecode.Lemmas

namespace Bytecode
variable {U E D : Type}

/-! ### Places in the program and in the instrumented program -/

/-- The instrumented program from a place of the loop on. -/
def out (t : Track) (lines : List Int) (c : Carry) (cur : Int) (r : List Item) : List Item :=
  withLines cur (insertLoop t lines c r)

theorem withLines_block (cur : Int) (k : Nat) (L : Int) (x : List Item) :
    withLines cur (instructionsToAdd k L ++ x) = instructionsToAdd k L ++ withLines L x := by
  simp [instructionsToAdd, withLines]

/-- What the loop carries fits the line of the item before. -/
def CI (t : Track) (c : Carry) (cur : Int) : Prop :=
  t = true → c.pred ≠ [] → c.prevLabel = false ∧ c.last = some cur

/-- The line needs no break at this place. -/
def Cont (t : Track) (c : Carry) (L : Int) : Prop :=
  if t then c.last = some L ∧ c.prevLabel = false else L ∈ c.added

/-- What is carried on from a break put after the instruction. -/
abbrev carryAfter (c : Carry) (L : Int) : Carry :=
  { prevLabel := true, pred := [], last := some L, added := L :: c.added, fresh := c.fresh + 1 }

/-- What is carried on from a break put before the instruction. -/
abbrev carryBefore (c : Carry) (i : Instr) (L : Int) : Carry :=
  { prevLabel := false, pred := predictTargets i.name, last := some L, added := L :: c.added, fresh := c.fresh + 1 }

structure Pos (t : Track) (lines : List Int) (P Q : List Item) (r q : List Item) (c : Carry)
    (cur : Int) (pre done : List Item) : Prop where
  hq : q = out t lines c cur r
  hQ : Q = pre ++ q
  hP : P = done ++ r
  fresh : ∀ j, Item.label (.added j) ∈ pre → j < c.fresh
  ci : CI t c cur
  added : ∀ L ∈ c.added, ∃ i, Item.instr i ∈ done ∧ i.lineno = some L
  lab : c.prevLabel = true → r = [] ∨ ∃ p l, pre = p ++ [.label l]

theorem pos_start (t : Track) (lines : List Int) (first : Int) (P : List Item) :
    Pos t lines P (out t lines {} first P) P (out t lines {} first P) {} first [] [] :=
  ⟨rfl, rfl, rfl, by simp, by simp [CI], by simp, by simp⟩

theorem pos_label {t : Track} {lines P Q q c cur pre done l r}
    (h : Pos t lines P Q (.label l :: r) q c cur pre done) (ho : (Item.label l).Original) :
    ∃ q', q = .label l :: q' ∧
      Pos t lines P Q r q' { c with prevLabel := true, pred := [] } cur
        (pre ++ [.label l]) (done ++ [.label l]) := by
  obtain ⟨n, rfl⟩ := ho
  refine ⟨out t lines { c with prevLabel := true, pred := [] } cur r, ?_, rfl, ?_, ?_, ?_, ?_, ?_, ?_⟩
  · rw [h.hq]; simp [out, insertLoop, withLines]
  · rw [h.hQ, h.hq]; simp [out, insertLoop, withLines]
  · rw [h.hP]; simp
  · intro j hj; simp at hj; exact h.fresh j hj
  · simp [CI]
  · intro L hL; obtain ⟨i, hi, hl⟩ := h.added L hL; exact ⟨i, by simp [hi], hl⟩
  · intro _; exact Or.inr ⟨pre, _, rfl⟩

/-- An instruction of the program at its place: it stays, on the line `L`, and
gets a break before it, after it or none. -/
theorem pos_instr {t : Track} {lines P Q q c cur pre done i₀ r}
    (h : Pos t lines P Q (.instr i₀ :: r) q c cur pre done) (ho : (Item.instr i₀).Original) :
    ∃ L, (t = false → i₀.lineno = some L) ∧
    (-- no break here
     (∃ q' c', q = .instr { i₀ with lineno := some L } :: q' ∧
        (L ∈ lines → Cont t c L) ∧ c'.prevLabel = false ∧ c'.last = (if t then some L else c'.last) ∧
        Pos t lines P Q r q' c' L (pre ++ [.instr { i₀ with lineno := some L }]) (done ++ [.instr i₀])) ∨
     -- before it
     (∃ q' c', q = instructionsToAdd c.fresh L ++ .instr { i₀ with lineno := some L } :: q' ∧
        L ∈ lines ∧ c'.prevLabel = false ∧ c'.last = (if t then some L else c'.last) ∧
        Pos t lines P Q r q' c' L
          (pre ++ (instructionsToAdd c.fresh L ++ [.instr { i₀ with lineno := some L }])) (done ++ [.instr i₀])) ∨
     -- after it
     (∃ q' c', q = .instr { i₀ with lineno := some L } :: (instructionsToAdd c.fresh L ++ q') ∧
        L ∈ lines ∧ i₀.name = "POP_TOP" ∧ c.prevLabel = true ∧ c'.prevLabel = true ∧
        Pos t lines P Q r q' c' L
          (pre ++ (.instr { i₀ with lineno := some L } :: instructionsToAdd c.fresh L)) (done ++ [.instr i₀]))) := by
  obtain ⟨ho1, ho2, ho3, ho4, ho5, _⟩ := ho
  obtain ⟨L₀, hL₀⟩ := Option.isSome_iff_exists.mp ho2
  have hadd : ∀ (c' : Carry) , (c'.added = c.added ∨ (c'.added = L₀ :: c.added)) →
      ∀ L ∈ c'.added, ∃ i, Item.instr i ∈ done ++ [.instr i₀] ∧ i.lineno = some L := by
    intro c' hc L hL
    rcases hc with hc | hc <;> rw [hc] at hL
    · obtain ⟨i, hi, hl⟩ := h.added L hL; exact ⟨i, by simp [hi], hl⟩
    · rcases List.mem_cons.mp hL with rfl | hL
      · exact ⟨i₀, by simp, hL₀⟩
      · obtain ⟨i, hi, hl⟩ := h.added L hL; exact ⟨i, by simp [hi], hl⟩
  have hdone : P = (done ++ [.instr i₀]) ++ r := by rw [h.hP]; simp
  by_cases hf : (t && c.pred.contains i₀.name) = true
  · -- predicted
    have hfix : fixed t c.pred i₀ = { i₀ with lineno := none } := by
      unfold fixed; rw [if_pos hf]
    have ht : t = true := by cases t <;> simp_all
    have hpred : c.pred ≠ [] := by rintro hp; simp [hp] at hf
    obtain ⟨hpl, hlast⟩ := h.ci ht hpred
    have hq : q = .instr { i₀ with lineno := some cur } ::
        out t lines { c with prevLabel := false, pred := predictTargets i₀.name } cur r := by
      rw [h.hq]; simp [out, insertLoop, withLines, hfix]
    refine ⟨cur, by simp [ht], Or.inl
      ⟨_, { c with prevLabel := false, pred := predictTargets i₀.name }, hq, ?_, rfl,
        by simp [ht, hlast], ?_⟩⟩
    · intro _; simp [Cont, ht, hlast, hpl]
    · refine ⟨rfl, by rw [h.hQ, hq]; simp, hdone, ?_, ?_, ?_, ?_⟩
      · intro j hj; simp at hj; exact h.fresh j hj
      · intro _ _; exact ⟨rfl, hlast⟩
      · exact hadd _ (Or.inl rfl)
      · simp
  · -- has its own line
    have hfix : fixed t c.pred i₀ = i₀ := by unfold fixed; rw [if_neg hf]
    have hii : { i₀ with lineno := some L₀ } = i₀ := by cases i₀; simp_all
    refine ⟨L₀, fun _ => hL₀, ?_⟩
    rw [hii]
    by_cases hp : passed t c L₀ = true
    · have hq : q = .instr i₀ ::
          out t lines { c with prevLabel := false, pred := predictTargets i₀.name } L₀ r := by
        rw [h.hq]; simp [out, insertLoop, withLines, hfix, hL₀, hp, hii]
      refine Or.inl ⟨_, { c with prevLabel := false, pred := predictTargets i₀.name }, hq, ?_, rfl, ?_, ?_⟩
      · intro _
        cases t <;> simpa [Cont, passed] using hp
      · cases t
        · rfl
        · simp [passed] at hp; simp [hp.1]
      · refine ⟨rfl, by rw [h.hQ, hq]; simp, hdone, ?_, ?_, ?_, ?_⟩
        · intro j hj; simp at hj; exact h.fresh j hj
        · intro ht _
          refine ⟨rfl, ?_⟩
          subst ht; simp [passed] at hp; exact hp.1
        · exact hadd _ (Or.inl rfl)
        · simp
    · by_cases hl : L₀ ∈ lines
      · by_cases hpt : (c.prevLabel && i₀.name == "POP_TOP") = true
        · have hq : q = .instr i₀ :: (instructionsToAdd c.fresh L₀ ++
              out t lines (carryAfter c L₀) L₀ r) := by
            rw [h.hq]
            have : insertLoop t lines c (.instr i₀ :: r) = .instr i₀ :: instructionsToAdd c.fresh L₀ ++
              insertLoop t lines (carryAfter c L₀) r := by
              simp only [insertLoop, hfix, hL₀]
              rw [if_neg hp, if_pos hl, if_pos hpt]
            simp only [out, this, List.cons_append, withLines, withLines_block, hL₀, Option.getD_some]
            rw [← hL₀]
          simp only [Bool.and_eq_true, beq_iff_eq] at hpt
          refine Or.inr (Or.inr ⟨_, carryAfter c L₀, hq, hl, hpt.2, hpt.1, rfl, ?_⟩)
          refine ⟨rfl, by rw [h.hQ, hq]; simp, hdone, ?_, ?_, ?_, ?_⟩
          · intro j hj
            simp [instructionsToAdd] at hj
            rcases hj with hj | hj
            · have := h.fresh j hj; show j < c.fresh + 1; omega
            · show j < c.fresh + 1; omega
          · intro _ hn; exact absurd rfl hn
          · exact hadd _ (Or.inr rfl)
          · intro _; exact Or.inr ⟨pre ++ (.instr i₀ :: (instructionsToAdd c.fresh L₀).dropLast),
              .added c.fresh, by simp [instructionsToAdd]⟩
        · have hq : q = instructionsToAdd c.fresh L₀ ++ .instr i₀ ::
              out t lines (carryBefore c i₀ L₀) L₀ r := by
            rw [h.hq]
            have : insertLoop t lines c (.instr i₀ :: r) = instructionsToAdd c.fresh L₀ ++ .instr i₀ ::
              insertLoop t lines (carryBefore c i₀ L₀) r := by
              simp only [insertLoop, hfix, hL₀]
              rw [if_neg hp, if_pos hl, if_neg hpt]
            simp only [out, this, withLines, withLines_block, hL₀, Option.getD_some]
            rw [← hL₀]
          refine Or.inr (Or.inl ⟨_, carryBefore c i₀ L₀, hq, hl, rfl, by cases t <;> rfl, ?_⟩)
          refine ⟨rfl, by rw [h.hQ, hq]; simp, hdone, ?_, ?_, ?_, ?_⟩
          · intro j hj
            simp [instructionsToAdd] at hj
            rcases hj with hj | hj
            · have := h.fresh j hj; show j < c.fresh + 1; omega
            · show j < c.fresh + 1; omega
          · intro _ _; exact ⟨rfl, rfl⟩
          · exact hadd _ (Or.inr rfl)
          · simp
      · have hq : q = .instr i₀ ::
            out t lines { c with prevLabel := false, pred := predictTargets i₀.name, last := some L₀ } L₀ r := by
          rw [h.hq]; simp [out, insertLoop, withLines, hfix, hL₀, hp, hl, hii]
        refine Or.inl ⟨_, { c with prevLabel := false, pred := predictTargets i₀.name, last := some L₀ },
          hq, fun h => absurd h hl, rfl, by cases t <;> rfl, ?_⟩
        refine ⟨rfl, by rw [h.hQ, hq]; simp, hdone, ?_, ?_, ?_, ?_⟩
        · intro j hj; simp at hj; exact h.fresh j hj
        · intro _ _; exact ⟨rfl, rfl⟩
        · exact hadd _ (Or.inl rfl)
        · simp

/-- Jumping to a label of the program. -/
theorem pos_after {t : Track} {lines P Q} (n : Nat) :
    ∀ {r q c cur pre done}, (∀ it ∈ r, it.Original) → Pos t lines P Q r q c cur pre done →
    ∃ c' cur' pre' done', c'.prevLabel = true ∧
      Pos t lines P Q (after (.orig n) r) (after (.orig n) q) c' cur' pre' done' := by
  intro r
  induction r with
  | nil =>
    intro q c cur pre done _ h
    have hq : q = [] := by rw [h.hq]; rfl
    subst hq
    refine ⟨{ c with prevLabel := true, pred := [] }, cur, pre, done, rfl, ?_⟩
    exact ⟨rfl, h.hQ, h.hP, h.fresh, by simp [CI], h.added, fun _ => Or.inl rfl⟩
  | cons it r ih =>
    intro q c cur pre done ho h
    have hor : ∀ it ∈ r, it.Original := fun x hx => ho x (by simp [hx])
    cases it with
    | label l =>
      obtain ⟨q', rfl, hp⟩ := pos_label h (ho _ (by simp))
      by_cases hl : l = .orig n
      · subst hl
        simp only [after, if_pos rfl]
        exact ⟨_, _, _, _, rfl, hp⟩
      · simp only [after, if_neg hl]
        exact ih hor hp
    | instr i =>
      obtain ⟨L, _, hc⟩ := pos_instr h (ho _ (by simp))
      rcases hc with ⟨q', c', rfl, _, _, _, hp⟩ | ⟨q', c', rfl, _, _, _, hp⟩ | ⟨q', c', rfl, _, _, _, _, hp⟩
      · simp only [after]; exact ih hor hp
      · rw [after_block]; simp only [after]; exact ih hor hp
      · simp only [after]; rw [after_block]; exact ih hor hp

/-! ### Instructions of the program -/

def Out.Fine : Out U E → Prop
  | .fall st _ => Clean st
  | .goto l st _ => (∃ n, l = .orig n) ∧ Clean st
  | .leave st _ => Clean st

def ownOut (w : World U E D) (name : String) (arg : Arg) (st : List (Val U)) (e : E) : Out U E :=
  match name, arg, st with
  | "LOAD_CONST", .const c, st => .fall (w.value c :: st) e
  | "POP_JUMP_IF_FALSE", .lab l, .bool b :: st => if b then .fall st e else .goto l st e
  | "POP_TOP", .unset, _ :: st => .fall st e
  | "NOP", .unset, st => .fall st e
  | name, arg, st => w.sem name arg st e

theorem exec_own (w : World U E D) (hw : Unaware w) (i : Instr) (ho : (Item.instr i).Original)
    (st : List (Val U)) (e : E) (hst : Clean st) :
    (ownOut w i.name i.arg st e).Fine ∧
      (∀ d, exec w i.name i.arg st e d = (ownOut w i.name i.arg st e, d, [])) ∧
      (i.name = "POP_TOP" → st ≠ [] → ∃ st' e', ownOut w i.name i.arg st e = .fall st' e') := by
  obtain ⟨-, -, h3, h4, h5, h6⟩ := ho
  have hsem : ∀ name arg st, Clean st → (w.sem name arg st e).Fine := by
    intro name arg st hst
    cases hs : w.sem name arg st e with
    | fall st' e' => exact hw.fall hs hst
    | goto l st' e' => exact ⟨(hw.goto hs).1, (hw.goto hs).2 hst⟩
    | leave st' e' => exact hw.leave hs hst
  obtain ⟨name, arg, line, off⟩ := i
  simp only at h3 h4 h5 h6 ⊢
  refine ⟨?_, ?_, ?_⟩
  · unfold ownOut
    split
    · rename_i st c
      intro v hv
      rcases List.mem_cons.mp hv with rfl | hv
      · cases c with
        | needsStop => exact absurd rfl h3
        | stopAt => exact absurd rfl h4
        | line n => simp [World.value]
        | other n => exact hw.const n
      · exact hst v hv
    · rename_i l b st
      have : Clean st := fun v hv => hst v (by simp [hv])
      cases b
      · refine ⟨?_, this⟩
        cases l with
        | orig n => exact ⟨n, rfl⟩
        | added k => exact absurd rfl (h5 k)
      · exact this
    · exact fun v hv => hst v (by simp [hv])
    · exact hst
    · exact hsem _ _ _ hst
  · intro d
    unfold exec
    split
    · rfl
    · exact absurd rfl (hst _ (by simp)).1
    · exact absurd rfl (hst _ (by simp)).2
    · rfl
    · rfl
    · rfl
    · unfold ownOut
      split <;> simp_all
  · intro hn hs
    subst hn
    have := h6 rfl
    subst this
    cases st with
    | nil => exact absurd rfl hs
    | cons v st => exact ⟨st, e, rfl⟩

end Bytecode
