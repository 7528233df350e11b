import Verif.Assemble.Reading
import Verif.Assemble.Props

/-!
C63: reading a code object gives its instructions; reading and building again
gives the same program.
-/
namespace Assemble

theorem removeExtendedArgs_nil (nb : Nat) (ext : Option Nat) :
    removeExtendedArgs nb ext [] = if ext.isNone then some [] else none := rfl

theorem removeExtendedArgs_cons (nb op : Nat) (ext arg : Option Nat) (line : Int)
    (rest : List (Nat × Option Nat × Int)) :
    removeExtendedArgs nb ext ((op, arg, line) :: rest) =
    if op = extendedArg then
      match ext with
      | some e => removeExtendedArgs (nb + 1) (some (e * 256 + arg.getD 0)) rest
      | none => removeExtendedArgs (nb + 1) (some (arg.getD 0)) rest
    else match ext, arg with
      | some e, some a =>
        if e * 256 + a ≤ maxArg then
          (removeExtendedArgs 0 none rest).map (⟨op, some (e * 256 + a), 1 + nb, line⟩ :: ·)
        else none
      | some _, none => none
      | none, arg => (removeExtendedArgs nb none rest).map (⟨op, arg, 1, line⟩ :: ·) := rfl

/-- The concrete instructions are those the interpreter reads, from `s` on. -/
def Matches (ls : Nat → Option Int) (first : Int) : Nat → List Read → List Concrete → Prop
  | _, [], [] => True
  | s, r :: rs, c :: cs => r.start = s ∧ r.op = c.op ∧ r.next = s + 2 * c.size ∧ 0 < c.size ∧
      (90 ≤ r.op → c.arg = some r.arg) ∧ (r.op < 90 → c.arg = none) ∧
      c.line = lineInForce ls first (r.next / 2 - 1) ∧ Matches ls first (s + 2 * c.size) rs cs
  | _, _, _ => False

/-- The line that is carried to the `p`-th pair of bytes. -/
def Carried (ls : Nat → Option Int) (first : Int) : Nat → Int → Prop
  | 0, line => line = first
  | p + 1, line => line = lineInForce ls first p

theorem carried_next {ls : Nat → Option Int} {first : Int} {p : Nat} {line : Int}
    (h : Carried ls first p line) : (ls (2 * p)).getD line = lineInForce ls first p := by
  cases p with
  | zero => simp only [Carried] at h; subst h; simp [lineInForce]
  | succ p => simp only [Carried] at h; subst h; simp [lineInForce]

theorem matches_of_remove (ls : Nat → Option Int) (first : Int) (pairs : List (Nat × Nat)) :
    ∀ (p nb : Nat) (ext : Option Nat) (line : Int) (start : Nat) (cs : List Concrete),
      Carried ls first p line → start + 2 * nb = 2 * p → (ext = none → nb = 0) →
      removeExtendedArgs nb ext (disassemble ls (2 * p) line pairs) = some cs →
      Matches ls first start (decode start (2 * p) (ext.getD 0) pairs) cs := by
  induction pairs with
  | nil =>
    intro p nb ext line start cs _ _ _ h
    cases ext with
    | none =>
      rw [disassemble, removeExtendedArgs_nil] at h
      simp at h; subst h; simp [decode, Matches]
    | some e => rw [disassemble, removeExtendedArgs_nil] at h; simp at h
  | cons x pairs ih =>
    intro p nb ext line start cs hc hs hn h
    obtain ⟨op, b⟩ := x
    have hline := carried_next hc
    have hcar : Carried ls first (p + 1) ((ls (2 * p)).getD line) := hline
    simp only [disassemble, removeExtendedArgs_cons] at h
    by_cases hop : op = extendedArg
    · have hge : op ≥ haveArgument := by rw [hop]; decide
      rw [if_pos hop, if_pos hge] at h
      have hop' : op = 144 := hop
      simp only [decode, if_pos hop']
      cases ext with
      | some e =>
        exact ih (p + 1) (nb + 1) (some (e * 256 + b)) _ start cs hcar (by omega) (by simp) h
      | none =>
        have := ih (p + 1) (nb + 1) (some b) _ start cs hcar (by omega) (by simp) h
        simpa [Nat.mul_add] using this
    · rw [if_neg hop] at h
      have hop' : ¬ op = 144 := hop
      simp only [decode, if_neg hop']
      cases ext with
      | some e =>
        by_cases hge : op ≥ haveArgument
        · rw [if_pos hge] at h
          simp only at h
          split at h
          · simp only [Option.map_eq_some_iff] at h
            obtain ⟨cs', h1, rfl⟩ := h
            have := ih (p + 1) 0 none _ (2 * (p + 1)) cs' hcar (by omega) (by simp) h1
            refine ⟨rfl, rfl, ?_, ?_, ?_, ?_, ?_, ?_⟩
            · simp only; omega
            · simp only; omega
            · intro _; simp
            · intro hlt; simp only [haveArgument] at hge; simp only at hlt; omega
            · simp only [hline]; congr 1; omega
            · simp only [Option.getD_none] at this
              rw [show start + 2 * (1 + nb) = 2 * (p + 1) by omega]
              exact this
          · cases h
        · rw [if_neg hge] at h; simp at h
      | none =>
        have h0 := hn rfl
        subst h0
        simp only [Option.map_eq_some_iff] at h
        obtain ⟨cs', h1, rfl⟩ := h
        have := ih (p + 1) 0 none _ (2 * (p + 1)) cs' hcar (by omega) (by simp) h1
        refine ⟨rfl, rfl, ?_, ?_, ?_, ?_, ?_, ?_⟩
        · simp only; omega
        · simp only; omega
        · intro hge; simp only at hge; simp [haveArgument, hge]
        · intro hlt; simp only at hlt; simp [haveArgument, Nat.not_le.mpr hlt]
        · simp only [hline]; congr 1; omega
        · simp only [Option.getD_none] at this
          rw [show start + 2 * 1 = 2 * (p + 1) by omega]
          exact this

/-- The byte at an offset. -/
def bytes (py310 : Bool) (off : Nat) : Nat := if py310 then 2 * off else off

theorem bytes_add (py : Bool) (off n : Nat) : bytes py (off + scale py * n) = bytes py off + 2 * n := by
  cases py <;> simp [bytes, scale] <;> omega

theorem matches_length {ls : Nat → Option Int} {first : Int} :
    ∀ {rs : List Read} {cs : List Concrete} {s : Nat}, Matches ls first s rs cs → rs.length = cs.length := by
  intro rs
  induction rs with
  | nil => intro cs s h; cases cs with
    | nil => rfl
    | cons c cs => simp [Matches] at h
  | cons r rs ih => intro cs s h; cases cs with
    | nil => simp [Matches] at h
    | cons c cs => simp [ih h.2.2.2.2.2.2.2]

/-- The `n`-th instructions. -/
theorem matches_get {ls : Nat → Option Int} {first : Int} {py : Bool} {kind : Nat → Option Bool}
    {targets : List Nat} :
    ∀ {rs : List Read} {cs : List Concrete} {off : Nat}, Matches ls first (bytes py off) rs cs →
      ∀ (n : Nat) (r : Read), rs[n]? = some r → ∃ c o, cs[n]? = some c ∧
        (starts py off cs)[n]? = some o ∧ r.start = bytes py o ∧
        (instrs (withLabels py kind targets off cs))[n]? = some (c.op, abstractArg py kind o c, c.line) ∧
        r.op = c.op ∧ r.next = bytes py o + 2 * c.size ∧ (90 ≤ r.op → c.arg = some r.arg) ∧
        (r.op < 90 → c.arg = none) ∧ c.line = lineInForce ls first (r.next / 2 - 1) ∧
        (∀ t, jumpTarget py kind o c = some t → t ∈ jumpTargets py kind off cs) := by
  intro rs
  induction rs with
  | nil => intro cs off _ n r h; simp at h
  | cons r₀ rs ih =>
    intro cs off hm n r hr
    cases cs with
    | nil => simp [Matches] at hm
    | cons c cs =>
      obtain ⟨h1, h2, h3, h4, h5, h6, h7, h8⟩ := hm
      have hinstr : instrs (withLabels py kind targets off (c :: cs)) =
          (c.op, abstractArg py kind off c, c.line) ::
            instrs (withLabels py kind targets (off + scale py * c.size) cs) := by
        simp only [withLabels]
        split <;> simp [instrs]
      cases n with
      | zero =>
        simp at hr
        subst hr
        refine ⟨c, off, rfl, rfl, h1, by rw [hinstr]; rfl, h2, h3, h5, h6, h7, ?_⟩
        intro t ht
        simp [jumpTargets, ht]
      | succ n =>
        rw [← bytes_add] at h8
        obtain ⟨c', o, g1, g2, g3, g4, g5, g6, g7, g8, g9, g10⟩ := ih h8 n r (by simpa using hr)
        refine ⟨c', o, by simpa using g1, by simpa [starts] using g2, g3, ?_, g5, g6, g7, g8, g9, ?_⟩
        · rw [hinstr]; simpa using g4
        · intro t ht
          simp [jumpTargets, g10 t ht]

/-- Where an instruction begins the interpreter reads one. -/
theorem matches_start {ls : Nat → Option Int} {first : Int} {py : Bool} :
    ∀ {cs : List Concrete} {rs : List Read} {off : Nat}, Matches ls first (bytes py off) rs cs →
      ∀ (m t : Nat), (starts py off cs)[m]? = some t → ∃ r, rs[m]? = some r ∧ r.start = bytes py t := by
  intro cs
  induction cs with
  | nil => intro rs off _ m t h; simp [starts] at h
  | cons c cs ih =>
    intro rs off hm m t h
    cases rs with
    | nil => simp [Matches] at hm
    | cons r rs =>
      obtain ⟨h1, h2, h3, h4, h5, h6, h7, h8⟩ := hm
      cases m with
      | zero => simp [starts] at h; subst h; exact ⟨r, rfl, h1⟩
      | succ m =>
        rw [← bytes_add] at h8
        simpa using ih h8 m t (by simpa [starts] using h)

theorem starts_ge {py : Bool} : ∀ {cs : List Concrete} {off t : Nat}, t ∈ starts py off cs → off ≤ t := by
  intro cs
  induction cs with
  | nil => intro off t h; simp [starts] at h
  | cons c cs ih =>
    intro off t h
    simp only [starts, List.mem_cons] at h
    rcases h with rfl | h
    · exact Nat.le_refl _
    · have := ih h; omega

theorem label_starts {py : Bool} {kind : Nat → Option Bool} {targets : List Nat} :
    ∀ {cs : List Concrete} {off t : Nat}, .label t ∈ withLabels py kind targets off cs →
      t ∈ starts py off cs := by
  intro cs
  induction cs with
  | nil => intro off t h; simp [withLabels] at h
  | cons c cs ih =>
    intro off t h
    simp only [withLabels, List.mem_append, List.mem_cons] at h
    rcases h with h | h | h
    · split at h
      · simp at h; subst h; simp [starts]
      · simp at h
    · cases h
    · simp [starts, ih h]

theorem scale_pos (py : Bool) : 0 < scale py := by cases py <;> decide

/-- The label of the `m`-th instruction is right before it. -/
theorem label_place {py : Bool} {kind : Nat → Option Bool} {targets : List Nat} :
    ∀ {cs : List Concrete} {off m t : Nat}, (∀ c ∈ cs, 0 < c.size) → (starts py off cs)[m]? = some t →
      t ∈ targets →
      ∃ before after, withLabels py kind targets off cs = before ++ .label t :: after ∧
        .label t ∉ after ∧ (instrs before).length = m := by
  intro cs
  induction cs with
  | nil => intro off m t _ h; simp [starts] at h
  | cons c cs ih =>
    intro off m t hpos h ht
    cases m with
    | zero =>
      simp [starts] at h
      subst h
      refine ⟨[], .instr c.op (abstractArg py kind off c) c.line ::
        withLabels py kind targets (off + scale py * c.size) cs, ?_, ?_, rfl⟩
      · simp [withLabels, ht]
      · intro h
        rcases List.mem_cons.mp h with h | h
        · cases h
        · have := starts_ge (label_starts h)
          have h1 := hpos c (List.mem_cons_self ..)
          have h2 := Nat.mul_pos (scale_pos py) h1
          omega
    | succ m =>
      obtain ⟨b, a, h1, h2, h3⟩ :=
        ih (off := off + scale py * c.size) (fun c hc => hpos c (List.mem_cons_of_mem _ hc))
          (by simpa [starts] using h) ht
      refine ⟨(if targets.contains off then [.label off] else []) ++
        .instr c.op (abstractArg py kind off c) c.line :: b, a, ?_, h2, ?_⟩
      · simp only [withLabels, h1, List.append_assoc, List.cons_append]
      · rw [instrs_append]
        split <;> simp [instrs, h3]

theorem matches_pos {ls : Nat → Option Int} {first : Int} :
    ∀ {cs : List Concrete} {rs : List Read} {s : Nat}, Matches ls first s rs cs → ∀ c ∈ cs, 0 < c.size := by
  intro cs
  induction cs with
  | nil => intro rs s _ c hc; cases hc
  | cons c cs ih =>
    intro rs s h c' hc
    cases rs with
    | nil => simp [Matches] at h
    | cons r rs =>
      rcases List.mem_cons.mp hc with rfl | hc
      · exact h.2.2.2.1
      · exact ih h.2.2.2.2.2.2.2 c' hc

theorem instrs_withLabels_length {py : Bool} {kind : Nat → Option Bool} {targets : List Nat} :
    ∀ {cs : List Concrete} {off : Nat}, (instrs (withLabels py kind targets off cs)).length = cs.length := by
  intro cs
  induction cs with
  | nil => intro off; rfl
  | cons c cs ih =>
    intro off
    simp only [withLabels]
    split <;> simp [instrs, ih]

/-! ## C63 -/

/-- C63: the program that is read from a code object has the instructions that the
interpreter reads from it, one by one: the operation, the argument, the line, and a
jump has the label that is right before the instruction it goes to. -/
theorem c63_read_back {py310 : Bool} {kind : Nat → Option Bool} {ls : Nat → Option Int} {first : Int}
    {c : Code} {items : List Item} (hk : ∀ op rel, kind op = some rel → 90 ≤ op)
    (h : fromCode py310 kind ls first c.code = some items) :
    (instrs items).length = c.read.length ∧
    ∀ (n : Nat) (r : Read), c.read[n]? = some r →
      ∃ arg line, (instrs items)[n]? = some (r.op, arg, line) ∧
        ReadBack py310 kind ls first c items r arg line := by
  simp only [fromCode, Option.bind_eq_bind, Option.bind_eq_some_iff] at h
  obtain ⟨cs, hcs, h⟩ := h
  split at h
  · rename_i hall
    obtain rfl := Option.some.inj h
    have hm : Matches ls first 0 c.read cs := by
      have := matches_of_remove ls first c.code 0 0 none first 0 cs rfl rfl (fun _ => rfl) hcs
      simpa [Code.read] using this
    have hm' : Matches ls first (bytes py310 0) c.read cs := by
      have : bytes py310 0 = 0 := by cases py310 <;> rfl
      rw [this]; exact hm
    refine ⟨by rw [instrs_withLabels_length, matches_length hm], ?_⟩
    intro n r hr
    obtain ⟨ci, o, g1, g2, g3, g4, g5, g6, g7, g8, g9, g10⟩ :=
      matches_get (kind := kind) (targets := jumpTargets py310 kind 0 cs) hm' n r hr
    refine ⟨_, _, by rw [g5]; exact g4, ?_⟩
    constructor
    · exact g9
    · intro hlt
      have hnone : kind ci.op = none := by
        cases hkk : kind ci.op with
        | none => rfl
        | some rel => have := hk _ _ hkk; omega
      simp [abstractArg, hnone, g8 hlt]
    · intro hge hnone
      rw [g5] at hnone
      simp [abstractArg, hnone, g7 hge]
    · intro rel hrel
      have harg := g7 (hk _ _ hrel)
      rw [g5] at hrel
      have htgt : ∃ t, jumpTarget py310 kind o ci = some t ∧ r.target py310 rel = bytes py310 t := by
        cases rel with
        | true =>
          refine ⟨o + scale py310 * ci.size + ci.arg.getD 0, by simp only [jumpTarget, hrel], ?_⟩
          rw [harg]
          simp only [Read.target, if_true, g6, Option.getD_some]
          cases py310 <;> simp [bytes, scale] <;> omega
        | false =>
          refine ⟨ci.arg.getD 0, by simp only [jumpTarget, hrel], ?_⟩
          rw [harg]
          simp only [Read.target, Option.getD_some]
          cases py310 <;> simp [bytes]
      obtain ⟨t, ht, hrt⟩ := htgt
      refine ⟨t, by simp only [abstractArg, hrel, ht], ?_⟩
      have hmem := g10 t ht
      have hst : t ∈ starts py310 0 cs := by
        have := List.all_eq_true.mp hall t hmem
        simpa using this
      obtain ⟨m, hmt⟩ := List.getElem?_of_mem hst
      obtain ⟨b, a, h1, h2, h3⟩ := label_place (kind := kind) (matches_pos hm) hmt hmem
      refine ⟨b, a, h1, h2, ?_⟩
      obtain ⟨r', hr', hs'⟩ := matches_start hm' m t hmt
      have hlt : m < c.read.length := (List.getElem?_eq_some_iff.mp hr').1
      rw [h3, hrt, Code.place, if_neg (by omega), hr']
      simp [hs']
  · cases h

theorem last_label {l : Nat} {b a b' a' : List Item} (h : b ++ .label l :: a = b' ++ .label l :: a')
    (ha : .label l ∉ a) (ha' : .label l ∉ a') : b = b' := by
  rcases List.append_eq_append_iff.mp h with ⟨x, h1, h2⟩ | ⟨x, h1, h2⟩
  · cases x with
    | nil => simpa using h1.symm
    | cons y x =>
      simp only [List.cons_append, List.cons.injEq] at h2
      exact (ha (by rw [h2.2]; simp)).elim
  · cases x with
    | nil => simpa using h1
    | cons y x =>
      simp only [List.cons_append, List.cons.injEq] at h2
      exact (ha' (by rw [h2.2]; simp)).elim

/-- C63: reading a code object and building one again gives the same program: as many
instructions, and the `n`-th one has the same operation, the same argument and the
same line, and jumps to the instruction with the same number. -/
theorem c63_round_trip {py310 : Bool} {kind : Nat → Option Bool} {ls : Nat → Option Int} {first : Int}
    {c c' : Code} {items : List Item} (hk : ∀ op rel, kind op = some rel → 90 ≤ op)
    (h : fromCode py310 kind ls first c.code = some items) (h' : toCode py310 first items = some c') :
    c'.read.length = c.read.length ∧
    ∀ (n : Nat) (r : Read), c.read[n]? = some r → ∃ r', c'.read[n]? = some r' ∧ r'.op = r.op ∧
      (90 ≤ r.op → kind r.op = none → r'.arg = r.arg) ∧
      (∀ rel, kind r.op = some rel → ∃ m, c.place m = some (r.target py310 rel) ∧
        c'.place m = some (r'.target py310 rel)) ∧
      (∀ address, r'.start ≤ address → address < r'.next →
        c'.lineAt py310 first address = some (lineInForce ls first (r.next / 2 - 1))) := by
  obtain ⟨hl, hg⟩ := c63_read_back hk h
  have hno : ∀ op arg line, .instr op arg line ∈ items → op ≠ 144 := by
    intro op arg line hmem heq
    simp only [fromCode, Option.bind_eq_bind, Option.bind_eq_some_iff] at h
    obtain ⟨cs, hcs, h⟩ := h
    split at h
    · obtain rfl := Option.some.inj h
      have key : ∀ (us : List (Nat × Option Nat × Int)) nb ext cs, removeExtendedArgs nb ext us = some cs →
          ∀ ci ∈ cs, ci.op ≠ 144 := by
        intro us
        induction us with
        | nil =>
          intro nb ext cs h
          cases ext with
          | none => rw [removeExtendedArgs_nil] at h; simp at h; subst h; intro ci hci; cases hci
          | some e => rw [removeExtendedArgs_nil] at h; simp at h
        | cons u us ih =>
          intro nb ext cs h
          obtain ⟨op, arg, line⟩ := u
          rw [removeExtendedArgs_cons] at h
          split at h
          · split at h
            · exact ih _ _ _ h
            · exact ih _ _ _ h
          · rename_i hne
            split at h
            · split at h
              · simp only [Option.map_eq_some_iff] at h
                obtain ⟨cs', h1, rfl⟩ := h
                intro ci hci
                rcases List.mem_cons.mp hci with rfl | hci
                · exact hne
                · exact ih _ _ _ h1 ci hci
              · cases h
            · cases h
            · simp only [Option.map_eq_some_iff] at h
              obtain ⟨cs', h1, rfl⟩ := h
              intro ci hci
              rcases List.mem_cons.mp hci with rfl | hci
              · exact hne
              · exact ih _ _ _ h1 ci hci
      have key2 : ∀ (cs : List Concrete) off, .instr op arg line ∈ withLabels py310 kind
          (jumpTargets py310 kind 0 cs) off cs → ∃ ci ∈ cs, ci.op = op := by
        intro cs
        generalize jumpTargets py310 kind 0 cs = tg
        induction cs with
        | nil => intro off h; simp [withLabels] at h
        | cons ci cs ih =>
          intro off h
          simp only [withLabels, List.mem_append, List.mem_cons] at h
          rcases h with h | h | h
          · split at h <;> simp at h
          · cases h; exact ⟨ci, List.mem_cons_self .., rfl⟩
          · obtain ⟨c₁, h1, h2⟩ := ih _ h
            exact ⟨c₁, List.mem_cons_of_mem _ h1, h2⟩
      obtain ⟨ci, h1, h2⟩ := key2 cs 0 hmem
      exact key _ _ _ _ hcs ci h1 (h2.trans heq)
    · cases h
  obtain ⟨hl', hg'⟩ := c62_faithful h' hno
  refine ⟨hl'.trans hl, ?_⟩
  intro n r hr
  obtain ⟨arg, line, hi, hb⟩ := hg n r hr
  obtain ⟨r', hr', hf⟩ := hg' n r.op arg line hi
  refine ⟨r', hr', hf.op, ?_, ?_, ?_⟩
  · intro h1 h2
    exact hf.num _ (hb.num h1 h2)
  · intro rel hrel
    obtain ⟨l, hl, b, a, h1, h2, h3⟩ := hb.jump rel hrel
    obtain ⟨b', a', h1', h2', h3'⟩ := hf.jump rel l hl
    have : b = b' := last_label (h1.symm.trans h1') h2 h2'
    subst this
    exact ⟨_, h3, h3'⟩
  · intro address h1 h2
    rw [← hb.line]
    exact hf.line address h1 h2

/-! ### An example -/

/-- `FOR_ITER` is a relative jump and `JUMP_ABSOLUTE` an absolute one. -/
def exampleKind (op : Nat) : Option Bool := if op = 93 then some true else if op = 113 then some false else none

/-- Lines start at the first two instructions. -/
def exampleStarts (pos : Nat) : Option Int := if pos = 0 then some 1000 else if pos = 2 then some 3 else none

/-- A code object to read, and what is read from it. -/
def exampleCode : Code := (toCode true 1 loopItems).getD ⟨[], []⟩

@[inherit_doc exampleCode]
def exampleItems : List Item := (fromCode true exampleKind exampleStarts 1 exampleCode.code).getD []

/-- A code object with a jump of two pairs of bytes is read, with its two labels, and
the code object built from that has the same bytes. -/
theorem c63_example : toCode true 1 loopItems = some exampleCode ∧
    fromCode true exampleKind exampleStarts 1 exampleCode.code = some exampleItems ∧
    exampleItems.length = 308 ∧
    exampleItems.take 3 = [.instr 124 (.num 0) 1000, .label 1, .instr 93 (.jump true 307) 3] ∧
    (toCode true 1 exampleItems).map (·.code) = some exampleCode.code := by
  decide +kernel

end Assemble
