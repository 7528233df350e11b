import Verif.StackSize.Insert
/-!
C92: the stack size given to code with breakpoints put into it is enough for every run of that code.

The interpreter does not check the stack size while it runs a frame: with too small a size it writes behind the frame. The specification
(`Spec.lean`) lets every condition go both ways and lets every instruction raise, so it has every run of the code.
-/

namespace StackSize

open Bytecode (Lab Arg Instr Item Original insertBreaks)

/-- C92: when the computation gives a size, no run of the code ever has more values on its stack than that (or than it began with). -/
theorem c92_enough {eff : Eff} {D : Lab → Option Int} {initial n : Int} {items : List Item} (hsane : Sane eff)
    (hlabels : (labelsOf items).Nodup) (hb : Balanced eff D (some initial) items) (h0 : 0 ≤ initial)
    (h : stackSize eff initial items = some n) :
    ∀ c, Reach eff items initial c → c.depth ≤ max n initial := by
  intro c hc
  obtain ⟨t, S, hf, hi⟩ := found hsane hlabels hb h0 h
  exact (sim_reach hf h0 hi hc).depth

/-- C92: the size computed for code the debugger has put breakpoints into is enough for every run of that code, whatever the lines are,
in both variants of the insertion. -/
theorem c92_inserted {eff : Eff} {D : Lab → Option Int} {initial n : Int} {track : Bool} {lines : List Int} {first : Int} {has : Bool}
    {items items' : List Item} (hsane : Sane eff) (htable : Table eff) (ho : Original items) (hlabels : (labelsOf items).Nodup)
    (hb : Balanced eff D (some initial) items) (h0 : 0 ≤ initial) (hins : insertBreaks track lines first has items = some items')
    (h : stackSize eff initial items' = some n) :
    ∀ c, Reach eff items' initial c → c.depth ≤ max n initial := by
  obtain ⟨h1, D', h2⟩ := inserted_balanced htable ho hlabels hb hins
  exact c92_enough hsane h1 h2 h0 h

/-! ### Examples -/

/-- the entries of the interpreter's table used below -/
def table : Eff := fun name _ jump =>
  if begins name c!"DUP_TOP" then 1
  else if begins name c!"UNPACK_" then 1
  else if begins name c!"ROT_" then 0
  else
    match name, jump with
    | "LOAD_CONST", _ => 1
    | "LOAD_NAME", _ => 1
    | "CALL_FUNCTION", _ => -1
    | "POP_JUMP_IF_FALSE", _ => -1
    | "POP_TOP", _ => -1
    | "RETURN_VALUE", _ => -1
    | "FOR_ITER", false => 1
    | "FOR_ITER", true => -1
    | "STORE_NAME", _ => -1
    | "JUMP_IF_TRUE_OR_POP", false => -1
    | "SETUP_FINALLY", true => 6
    | _, _ => 0

theorem not_begins {p : List Char} (name : String) (q : List Char) (h : begins name p = true) (hne : Py.startsWith p q = false) (hl : q.length ≤ p.length) :
    begins name q = false := by
  cases hq : begins name q with
  | false => rfl
  | true =>
    exfalso
    unfold begins at h hq
    have h := (Py.startsWith_iff _ _).1 h
    have hq := (Py.startsWith_iff _ _).1 hq
    obtain ⟨a, ha⟩ := h
    obtain ⟨b, hb⟩ := hq
    have : q <+: p := by
      rw [List.prefix_iff_eq_take]
      have e := congrArg (List.take q.length) (ha.trans hb.symm)
      rw [List.take_append_of_le_length hl, List.take_append_of_le_length (Nat.le_refl _), List.take_length] at e
      exact e.symm
    have := (Py.startsWith_iff p q).2 this
    rw [this] at hne
    cases hne

theorem table_sane : Sane table where
  dup := by
    intro n a j h
    simp [table, h]
  unpack := by
    intro n a j h
    have : begins n c!"DUP_TOP" = false := by
      cases hq : begins n c!"DUP_TOP" with
      | false => rfl
      | true =>
        have := not_begins n (p := c!"DUP_TOP") c!"UNPACK_" hq (by decide) (by decide)
        rw [h] at this; cases this
    simp [table, this, h]
  forIter := fun _ => rfl
  rotN := fun _ _ => by simp [table, show begins "ROT_N" c!"DUP_TOP" = false by decide, show begins "ROT_N" c!"UNPACK_" = false by decide, show begins "ROT_N" c!"ROT_" = true by decide]
  rotTwo := fun _ _ => by simp [table, show begins "ROT_TWO" c!"DUP_TOP" = false by decide, show begins "ROT_TWO" c!"UNPACK_" = false by decide, show begins "ROT_TWO" c!"ROT_" = true by decide]
  rotThree := fun _ _ => by simp [table, show begins "ROT_THREE" c!"DUP_TOP" = false by decide, show begins "ROT_THREE" c!"UNPACK_" = false by decide, show begins "ROT_THREE" c!"ROT_" = true by decide]
  rotFour := fun _ _ => by simp [table, show begins "ROT_FOUR" c!"DUP_TOP" = false by decide, show begins "ROT_FOUR" c!"UNPACK_" = false by decide, show begins "ROT_FOUR" c!"ROT_" = true by decide]

theorem table_table : Table table where
  loadConst := fun _ => rfl
  call := rfl
  popJump := fun _ j => by cases j <;> rfl
  popTop := rfl
  nop := rfl

/-- `for x in xs: f(x)` in a `try`, on two lines -/
def loopCode : List Item :=
  [ .instr ⟨"SETUP_FINALLY", .lab (.orig 2), some 1, some 0⟩,
    .instr ⟨"LOAD_NAME", .sym "xs", some 1, some 2⟩,
    .instr ⟨"GET_ITER", .unset, some 1, some 4⟩,
    .label (.orig 0),
    .instr ⟨"FOR_ITER", .lab (.orig 1), some 1, some 6⟩,
    .instr ⟨"STORE_NAME", .sym "x", some 1, some 8⟩,
    .instr ⟨"LOAD_NAME", .sym "f", some 2, some 10⟩,
    .instr ⟨"LOAD_NAME", .sym "x", some 2, some 12⟩,
    .instr ⟨"CALL_FUNCTION", .num 1, some 2, some 14⟩,
    .instr ⟨"POP_TOP", .unset, some 2, some 16⟩,
    .instr ⟨"JUMP_ABSOLUTE", .lab (.orig 0), some 2, some 18⟩,
    .label (.orig 1),
    .instr ⟨"LOAD_CONST", .const (.other 0), some 3, some 20⟩,
    .instr ⟨"RETURN_VALUE", .unset, some 3, some 22⟩,
    .label (.orig 2),
    .instr ⟨"RERAISE", .unset, some 3, some 24⟩ ]

def loopDepth : Lab → Option Int
  | .orig 0 => some 1
  | .orig 1 => some 0
  | .orig 2 => some 6
  | _ => none

def withinB : Option Int → Option Int → Bool
  | none, _ => true
  | some _, none => false
  | some a, some b => a ≤ b

/-- `Balanced`, to be computed -/
def balancedB (eff : Eff) (D : Lab → Option Int) : Option Int → List Item → Bool
  | _, [] => true
  | d, .label l :: rest => withinB d (D l) && balancedB eff D (D l) rest
  | none, .instr _ :: rest => balancedB eff D none rest
  | some d, .instr i :: rest =>
    (match i.arg with | .lab l => withinB (some (d + eff i.name i.arg true)) (D l) | _ => true) &&
      balancedB eff D (if Leaves i then none else some (d + eff i.name i.arg false)) rest

theorem withinB_sound {a b : Option Int} (h : withinB a b = true) : Within a b := by
  cases a <;> cases b <;> simp_all [withinB, Within]

theorem balancedB_sound {eff : Eff} {D : Lab → Option Int} : ∀ (items : List Item) (d : Option Int), balancedB eff D d items = true →
    Balanced eff D d items := by
  intro items
  induction items with
  | nil => intro d _; simp [Balanced]
  | cons x items ih =>
    intro d h
    cases x with
    | label l =>
      simp only [balancedB, Bool.and_eq_true] at h
      exact ⟨withinB_sound h.1, ih _ h.2⟩
    | instr i =>
      cases d with
      | none => exact ih _ h
      | some d =>
        simp only [balancedB, Bool.and_eq_true] at h
        refine ⟨fun l hl => ?_, ih _ h.2⟩
        have := h.1
        rw [hl] at this
        rw [hl]
        exact withinB_sound this

/-- Non-vacuity: the code is balanced; its size is 6, and still is 6 with a breakpoint in the loop; a run comes to depth 3 in the
loop, where the breakpoint asks whether it stops. -/
theorem c92_example :
    Balanced table loopDepth (some 0) loopCode ∧ (labelsOf loopCode).Nodup ∧ Original loopCode ∧
    stackSize table 0 loopCode = some 6 ∧
    (∃ items, insertBreaks false [2] 1 true loopCode = some items ∧ stackSize table 0 items = some 6 ∧
      Reach table items 0 ⟨some 8, 3, [(.orig 2, 6)]⟩) := by
  refine ⟨?_, by decide, ?_, by decide +kernel, _, rfl, by decide +kernel, ?_⟩
  · exact balancedB_sound _ _ (by decide +kernel)
  · intro x hx
    simp only [loopCode, List.mem_cons, List.not_mem_nil, or_false] at hx
    rcases hx with rfl | rfl | rfl | rfl | rfl | rfl | rfl | rfl | rfl | rfl | rfl | rfl | rfl | rfl | rfl | rfl <;>
      simp [Bytecode.Item.Original]
  · have r0 := Reach.start (eff := table) (prog := Bytecode.withLines 1 (Bytecode.insertLoop false [2] {} loopCode)) (initial := 0)
    have r1 := r0.step (.setup rfl rfl (show c!"SETUP_" <+: "SETUP_FINALLY".toList from ⟨c!"FINALLY", by decide⟩))
    have r2 := r1.step (.next rfl rfl)
    have r3 := r2.step (.next rfl rfl)
    have r4 := r3.step (.label rfl)
    have r5 := r4.step (.next rfl rfl)
    have r6 := r5.step (.next rfl rfl)
    have r7 := r6.step (.next rfl rfl)
    have r8 := r7.step (.next rfl rfl)
    exact r8

/-- Where code is not balanced - a loop which leaves a value on the stack each time - a size is given and is not enough. -/
def growing : List Item :=
  [ .label (.orig 0),
    .instr ⟨"LOAD_CONST", .const (.other 0), some 1, some 0⟩,
    .instr ⟨"JUMP_ABSOLUTE", .lab (.orig 0), some 1, some 2⟩ ]

theorem c92_unbalanced_witness :
    stackSize table 0 growing = some 1 ∧ Reach table growing 0 ⟨some 2, 2, []⟩ := by
  refine ⟨by decide +kernel, ?_⟩
  have r0 := Reach.start (eff := table) (prog := growing) (initial := 0)
  have r1 := r0.step (.label rfl)
  have r2 := r1.step (.next rfl rfl)
  have r3 := r2.step (.jump (q := 0) rfl rfl (by unfold Setup; decide +kernel) rfl)
  have r4 := r3.step (.label rfl)
  have r5 := r4.step (.next rfl rfl)
  exact r5

/-- `if c: a or b`, with both ways out of `a or b` going on behind the `if` -/
def orCode : List Item :=
  [ .instr ⟨"LOAD_NAME", .sym "c", some 1, some 0⟩,
    .instr ⟨"POP_JUMP_IF_FALSE", .lab (.orig 1), some 1, some 2⟩,
    .instr ⟨"LOAD_NAME", .sym "a", some 2, some 4⟩,
    .instr ⟨"JUMP_IF_TRUE_OR_POP", .lab (.orig 0), some 2, some 6⟩,
    .instr ⟨"LOAD_NAME", .sym "b", some 2, some 8⟩,
    .label (.orig 0),
    .instr ⟨"POP_TOP", .unset, some 2, some 10⟩,
    .label (.orig 1),
    .instr ⟨"LOAD_CONST", .const (.other 0), some 3, some 12⟩,
    .instr ⟨"RETURN_VALUE", .unset, some 3, some 14⟩ ]

/-- The size of this code is computed; with a breakpoint on its second line the label of the breakpoint comes directly before a label
of the code, `block[-1]` raises, and the code gets no breakpoints. -/
theorem c92_labels_witness :
    stackSize table 0 orCode = some 1 ∧
    ∃ items, insertBreaks true [2] 1 true orCode = some items ∧ stackSize table 0 items = none := by
  refine ⟨by decide +kernel, _, rfl, by decide +kernel⟩

end StackSize
