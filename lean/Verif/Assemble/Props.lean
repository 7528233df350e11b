import Verif.Assemble.Lines

/-!
C62: the code object that is built is the program that was asked for.
-/
namespace Assemble

/-! ### Arguments -/

theorem units_pos (a : Nat) : 0 < units a := by
  rw [units]; split <;> omega

theorem decode_prefixes (arg : Nat) (acc rest : List (Nat × Nat)) (start pos : Nat) :
    decode start pos 0 (prefixes arg acc ++ rest) =
      decode start (pos + 2 * (units arg - 1)) (arg / 256) (acc ++ rest) := by
  fun_induction prefixes arg acc generalizing pos with
  | case1 arg acc h ih =>
    have hu := units_pos (arg / 256)
    rw [ih]
    simp only [List.cons_append, decode, extendedArg, if_true]
    rw [show units arg = units (arg / 256) + 1 by rw [units, if_pos h]]
    congr 1 <;> omega
  | case2 arg acc h =>
    rw [units, if_neg h, show arg / 256 = 0 by omega]; rfl

theorem decode_assemble {op : Nat} (h : op ≠ 144) (a s : Nat) (rest : List (Nat × Nat)) :
    decode s s 0 (assemble op a ++ rest) =
      ⟨s, op, a, s + 2 * units a⟩ :: decode (s + 2 * units a) (s + 2 * units a) 0 rest := by
  have hu := units_pos a
  rw [assemble, decode_prefixes]
  simp only [List.cons_append, List.nil_append, decode, if_neg h]
  rw [show s + 2 * (units a - 1) + 2 = s + 2 * units a by omega,
    show a / 256 * 256 + a % 256 = a by omega]

theorem prefixes_length (arg : Nat) (acc : List (Nat × Nat)) :
    (prefixes arg acc).length = acc.length + (units arg - 1) := by
  fun_induction prefixes arg acc with
  | case1 arg acc h ih =>
    have hu := units_pos (arg / 256)
    rw [ih, show units arg = units (arg / 256) + 1 by rw [units, if_pos h], List.length_cons]
    omega
  | case2 arg acc h => rw [units, if_neg h]; simp

theorem assemble_length (op a : Nat) : (assemble op a).length = units a := by
  have := units_pos a
  rw [assemble, prefixes_length]; simp only [List.length_singleton]; omega

/-- How many pairs of bytes the arguments take. -/
def total : Args → Nat
  | [] => 0
  | a :: rest => units a + total rest

/-- The instructions with these arguments, from `s` on. -/
def reads : Nat → List (Nat × Arg × Int) → Args → List Read
  | s, (op, _, _) :: is, a :: as => ⟨s, op, a, s + 2 * units a⟩ :: reads (s + 2 * units a) is as
  | _, _, _ => []

theorem decode_all (is : List (Nat × Arg × Int)) (h : ∀ i ∈ is, i.1 ≠ 144) :
    ∀ (as : Args) (s : Nat), decode s s 0 (assembleAll is as) = reads s is as := by
  induction is with
  | nil => intro as s; simp [assembleAll, reads, decode]
  | cons i is ih =>
    intro as s
    obtain ⟨op, arg, line⟩ := i
    cases as with
    | nil => simp [assembleAll, reads, decode]
    | cons a as =>
      rw [assembleAll, decode_assemble (h _ (List.mem_cons_self ..)), reads,
        ih (fun i hi => h i (List.mem_cons_of_mem _ hi))]

theorem assembleAll_length (is : List (Nat × Arg × Int)) :
    ∀ (as : Args), as.length = is.length → (assembleAll is as).length = total as := by
  induction is with
  | nil => intro as h; simp at h; subst h; rfl
  | cons i is ih =>
    intro as h
    obtain ⟨op, arg, line⟩ := i
    cases as with
    | nil => simp at h
    | cons a as =>
      rw [assembleAll, List.length_append, assemble_length, total, ih as (by simpa using h)]

theorem reads_length (is : List (Nat × Arg × Int)) :
    ∀ (as : Args) (s : Nat), as.length = is.length → (reads s is as).length = is.length := by
  induction is with
  | nil => intro as s h; simp at h; subst h; rfl
  | cons i is ih =>
    intro as s h
    obtain ⟨op, arg, line⟩ := i
    cases as with
    | nil => simp at h
    | cons a as => simp [reads, ih as _ (by simpa using h)]

theorem reads_get (is : List (Nat × Arg × Int)) :
    ∀ (as : Args) (s n : Nat) (i : Nat × Arg × Int) (a : Nat), is[n]? = some i → as[n]? = some a →
      (reads s is as)[n]? =
        some ⟨s + 2 * total (as.take n), i.1, a, s + 2 * total (as.take n) + 2 * units a⟩ := by
  induction is with
  | nil => intro as s n i a h; simp at h
  | cons j is ih =>
    intro as s n i a h ha
    obtain ⟨op, arg, line⟩ := j
    cases as with
    | nil => simp at ha
    | cons b as =>
      cases n with
      | zero =>
        simp at h ha
        subst h; subst ha
        simp [reads, total]
      | succ n =>
        simp only [List.getElem?_cons_succ] at h ha
        simp only [reads, List.getElem?_cons_succ, List.take_succ_cons, total]
        rw [ih as _ n i a h ha]
        simp only [Option.some.injEq, Read.mk.injEq, true_and, and_true]
        omega

theorem offsets_get (py : Bool) (as : Args) :
    ∀ (off n : Nat), n ≤ as.length → (offsets py off as)[n]? = some (off + scale py * total (as.take n)) := by
  induction as with
  | nil => intro off n h; simp at h; subst h; simp [offsets, total]
  | cons a as ih =>
    intro off n h
    cases n with
    | zero => simp [offsets, total]
    | succ n =>
      simp only [offsets, List.getElem?_cons_succ, List.take_succ_cons, total]
      rw [ih _ n (by simpa using h), Nat.mul_add, Nat.add_assoc]

theorem offsets_length (py : Bool) (as : Args) : ∀ off, (offsets py off as).length = as.length + 1 := by
  induction as with
  | nil => intro off; rfl
  | cons a as ih => intro off; simp [offsets, ih]

theorem offsets_units (py : Bool) (as : Args) :
    ∀ (as' : Args) (off : Nat), as'.map units = as.map units → offsets py off as' = offsets py off as := by
  induction as with
  | nil => intro as' off h; simp at h; subst h; rfl
  | cons a as ih =>
    intro as' off h
    cases as' with
    | nil => simp at h
    | cons a' as' =>
      simp only [List.map_cons, List.cons.injEq] at h
      simp only [offsets, h.1, ih as' _ h.2]

/-! ### Jumps -/

theorem newArgs_get {py : Bool} {items : List Item} {offs : List Nat} (is : List (Nat × Arg × Int)) :
    ∀ (as as' : Args) (k : Nat), as.length = is.length → newArgs py items offs k is as = some as' →
      as'.length = is.length ∧
      ∀ n i a, is[n]? = some i → as[n]? = some a → ∃ a', as'[n]? = some a' ∧
        newArg py items offs (k + n) a i.2.1 = some a' := by
  induction is with
  | nil =>
    intro as as' k h ha
    simp [newArgs] at ha
    subst ha
    exact ⟨rfl, fun n i a hi => by simp at hi⟩
  | cons j is ih =>
    intro as as' k h ha
    obtain ⟨op, arg, line⟩ := j
    cases as with
    | nil => simp at h
    | cons b as =>
      simp only [newArgs, Option.bind_eq_bind, Option.bind_eq_some_iff, Option.pure_def,
        Option.some.injEq] at ha
      obtain ⟨a₁, h1, as₁, h2, rfl⟩ := ha
      obtain ⟨hl, hg⟩ := ih as as₁ (k + 1) (by simpa using h) h2
      refine ⟨by simp [hl], ?_⟩
      intro n i a hi ha
      cases n with
      | zero =>
        simp at hi ha
        subst hi; subst ha
        exact ⟨a₁, by simp, by simpa using h1⟩
      | succ n =>
        simp only [List.getElem?_cons_succ] at hi ha ⊢
        obtain ⟨a', h3, h4⟩ := hg n i a hi ha
        exact ⟨a', h3, by rw [← h4]; congr 1; omega⟩

/-- The arguments of the instructions that are not jumps are what they were. -/
def Kept (is : List (Nat × Arg × Int)) (as : Args) : Prop :=
  as.length = is.length ∧
  ∀ (n : Nat) (i : Nat × Arg × Int) (a : Nat), is[n]? = some i → as[n]? = some a → (∀ r l, i.2.1 ≠ .jump r l) → a = initialArg i.2.1

theorem newArgs_kept {py : Bool} {items : List Item} {offs : List Nat} {is : List (Nat × Arg × Int)}
    {as as' : Args} {k : Nat} (hk : Kept is as) (h : newArgs py items offs k is as = some as') :
    Kept is as' := by
  obtain ⟨hl, hg⟩ := newArgs_get is as as' k hk.1 h
  refine ⟨hl, ?_⟩
  intro n i a hi ha hj
  have hn : n < as.length := by
    rw [hk.1]; exact (List.getElem?_eq_some_iff.mp hi).1
  obtain ⟨a', h1, h2⟩ := hg n i as[n] hi (by simp [hn])
  have h3 := hk.2 n i as[n] hi (by simp [hn]) hj
  rw [ha] at h1
  obtain rfl := Option.some.inj h1
  obtain ⟨op, arg, line⟩ := i
  cases arg with
  | unset => simp only [newArg, Option.some.injEq] at h2; rw [← h2]; exact h3
  | num m => simp only [newArg, Option.some.injEq] at h2; rw [← h2]; exact h3
  | jump r l => exact (hj r l rfl).elim

/-- The arguments that are found do not change any more, but for jumps that the last
pass has set. -/
theorem computeJumps_some {py : Bool} {items : List Item} :
    ∀ (passes : Nat) (as as' : Args), Kept (instrs items) as → computeJumps py items passes as = some as' →
      Kept (instrs items) as' ∧ ∃ as₀ : Args, as₀.length = (instrs items).length ∧
        as'.map units = as₀.map units ∧
        newArgs py items (offsets py 0 as') 0 (instrs items) as₀ = some as' := by
  intro passes
  induction passes with
  | zero => intro as as' _ h; cases h
  | succ passes ih =>
    intro as as' hk h
    simp only [computeJumps, Option.bind_eq_bind, Option.bind_eq_some_iff] at h
    obtain ⟨as₁, h1, h2⟩ := h
    have hk₁ := newArgs_kept hk h1
    split at h2
    · rename_i heq
      obtain rfl := Option.some.inj h2
      exact ⟨hk₁, as, hk.1, heq, by rw [offsets_units py as as₁ 0 heq]; exact h1⟩
    · exact ih as₁ as' hk₁ h2

theorem labelIndex_some (l : Nat) (items : List Item) :
    ∀ (i : Nat) (found : Option Nat) (n : Nat), labelIndex l i found items = some n →
      (.label l ∉ items ∧ found = some n) ∨
      ∃ before after, items = before ++ .label l :: after ∧ .label l ∉ after ∧
        n = i + (instrs before).length := by
  induction items with
  | nil => intro i found n h; exact Or.inl ⟨by simp, h⟩
  | cons x items ih =>
    intro i found n h
    cases x with
    | label l' =>
      rcases ih i _ n h with ⟨h1, h2⟩ | ⟨b, a, h1, h2, h3⟩
      · by_cases hl : l' = l
        · subst hl
          rw [if_pos rfl] at h2
          refine Or.inr ⟨[], items, rfl, h1, ?_⟩
          rw [Option.some.injEq] at h2
          simp [instrs, h2]
        · rw [if_neg hl] at h2
          refine Or.inl ⟨?_, h2⟩
          simp only [List.mem_cons, Item.label.injEq, not_or]
          exact ⟨fun h => hl h.symm, h1⟩
      · exact Or.inr ⟨.label l' :: b, a, by simp [h1], h2, by simpa [instrs] using h3⟩
    | instr op arg line =>
      rcases ih (i + 1) found n h with ⟨h1, h2⟩ | ⟨b, a, h1, h2, h3⟩
      · exact Or.inl ⟨by simpa using h1, h2⟩
      · refine Or.inr ⟨.instr op arg line :: b, a, by simp [h1], h2, ?_⟩
        simp only [instrs, List.length_cons]; omega

theorem instrs_append (a b : List Item) : instrs (a ++ b) = instrs a ++ instrs b := by
  induction a with
  | nil => rfl
  | cons x a ih => cases x <;> simp [instrs, ih]

/-! ### Lines -/

theorem linenos_laid (py : Bool) (is : List (Nat × Arg × Int)) :
    ∀ (as : Args) (off : Nat), Laid (if py then off * 2 else off) (linenos py off is as) := by
  induction is with
  | nil => intro as off; simp [linenos, Laid]
  | cons i is ih =>
    intro as off
    obtain ⟨op, arg, line⟩ := i
    cases as with
    | nil => simp [linenos, Laid]
    | cons a as =>
      have hu := units_pos a
      refine ⟨rfl, by omega, ?_⟩
      have := ih as (off + scale py * units a)
      cases py
      · simpa [scale] using this
      · simpa [scale, Nat.add_mul, Nat.mul_comm] using this

theorem linenos_get (py : Bool) (is : List (Nat × Arg × Int)) :
    ∀ (as : Args) (off n : Nat) (i : Nat × Arg × Int) (a : Nat), is[n]? = some i → as[n]? = some a →
      ((if py then off * 2 else off) + 2 * total (as.take n), 2 * units a, i.2.2) ∈ linenos py off is as := by
  induction is with
  | nil => intro as off n i a h; simp at h
  | cons j is ih =>
    intro as off n i a h ha
    obtain ⟨op, arg, line⟩ := j
    cases as with
    | nil => simp at ha
    | cons b as =>
      cases n with
      | zero =>
        simp at h ha
        subst h; subst ha
        simp [linenos, total]
      | succ n =>
        simp only [List.getElem?_cons_succ] at h ha
        simp only [linenos, List.mem_cons]
        right
        have := ih as (off + scale py * units b) n i a h ha
        have heq : (if py then off * 2 else off) + 2 * total ((b :: as).take (n + 1)) =
            (if py then (off + scale py * units b) * 2 else (off + scale py * units b)) + 2 * total (as.take n) := by
          cases py <;> simp [scale, total] <;> omega
        rw [heq]
        exact this

/-! ## C62 -/

/-- What is known of a code object that was built. -/
theorem toCode_some {py : Bool} {first : Int} {items : List Item} {c : Code}
    (h : toCode py first items = some c) :
    ∃ args, computeJumps py items 10 ((instrs items).map fun i => initialArg i.2.1) = some args ∧
      c.code = assembleAll (instrs items) args ∧
      c.lines = if py then assembleLinestable first (linenos py 0 (instrs items) args)
        else assembleLnotab 0 first ((linenos py 0 (instrs items) args).map fun l => (l.1, l.2.2)) := by
  unfold toCode at h
  split at h
  · simp only [Option.bind_eq_bind, Option.bind_eq_some_iff, Option.pure_def, Option.some.injEq] at h
    obtain ⟨args, h1, rfl⟩ := h
    exact ⟨args, h1, rfl, rfl⟩
  · cases h

theorem kept_initial (is : List (Nat × Arg × Int)) : Kept is (is.map fun i => initialArg i.2.1) := by
  refine ⟨by simp, ?_⟩
  intro n i a hi ha _
  rw [List.getElem?_map, hi] at ha
  simpa using ha.symm

/-- C62: the interpreter reads from the code object that was built the instructions of
the program, one by one: the operation, the argument, the line, and a jump goes to
the instruction after its label. -/
theorem c62_faithful {py310 : Bool} {first : Int} {items : List Item} {c : Code}
    (h : toCode py310 first items = some c) (hop : ∀ op arg line, .instr op arg line ∈ items → op ≠ 144) :
    c.read.length = (instrs items).length ∧
    ∀ (n : Nat) (op : Nat) (arg : Arg) (line : Int), (instrs items)[n]? = some (op, arg, line) →
      ∃ r : Read, c.read[n]? = some r ∧ Faithful py310 first items c op arg line r := by
  obtain ⟨args, hj, hcode, hlines⟩ := toCode_some h
  obtain ⟨hk, as₀, hl₀, hu, hn⟩ := computeJumps_some 10 _ _ (kept_initial _) hj
  have hop' : ∀ i ∈ instrs items, i.1 ≠ 144 := by
    intro i hi
    have : ∀ its : List Item, i ∈ instrs its → .instr i.1 i.2.1 i.2.2 ∈ its := by
      intro its
      induction its with
      | nil => intro h; cases h
      | cons x its ih =>
        intro h
        cases x with
        | label l => exact List.mem_cons_of_mem _ (ih h)
        | instr op arg line =>
          rcases List.mem_cons.mp h with rfl | h
          · exact List.mem_cons_self ..
          · exact List.mem_cons_of_mem _ (ih h)
    exact hop _ _ _ (this items hi)
  have hread : c.read = reads 0 (instrs items) args := by
    rw [Code.read, hcode, decode_all _ hop']
  have hlen : c.read.length = (instrs items).length := by rw [hread, reads_length _ _ _ hk.1]
  refine ⟨hlen, ?_⟩
  have hplace : ∀ n, n ≤ args.length → c.place n = some (2 * total (args.take n)) := by
    intro n hle
    unfold Code.place
    split
    · rename_i heq
      rw [hcode, assembleAll_length _ _ hk.1, heq, hlen, ← hk.1, List.take_length]
    · rename_i hne
      have hlt : n < (instrs items).length := by have := hk.1; omega
      rw [hread, reads_get (instrs items) args 0 n (instrs items)[n] (args[n]'(by rw [hk.1]; exact hlt))
        (by simp [hlt]) (by simp [hk.1, hlt])]
      simp
  intro n op arg line hi
  have hlt : n < (instrs items).length := (List.getElem?_eq_some_iff.mp hi).1
  have ha : args[n]? = some (args[n]'(by rw [hk.1]; exact hlt)) := by simp [hk.1, hlt]
  have hr := reads_get (instrs items) args 0 n _ _ hi ha
  refine ⟨_, by rw [hread]; exact hr, ?_⟩
  constructor
  · rfl
  · intro harg
    exact (hk.2 n _ _ hi ha (by intro r l; simp [harg])).trans (by simp [harg, initialArg])
  · intro m harg
    exact (hk.2 n _ _ hi ha (by intro r l; simp [harg])).trans (by simp [harg, initialArg])
  · intro relative l harg
    have ha₀ : as₀[n]? = some (as₀[n]'(by rw [hl₀]; exact hlt)) := by simp [hl₀, hlt]
    obtain ⟨a', h1, h2⟩ := (newArgs_get _ _ _ _ hl₀ hn).2 n _ _ hi ha₀
    rw [ha] at h1
    obtain rfl := Option.some.inj h1
    have hunit : units (as₀[n]'(by rw [hl₀]; exact hlt)) = units (args[n]'(by rw [hk.1]; exact hlt)) := by
      have := congrArg (fun l => l[n]?) hu
      simp only [List.getElem?_map, ha, ha₀, Option.map_some, Option.some.injEq] at this
      exact this.symm
    simp only [harg, newArg, Nat.zero_add, Option.bind_eq_bind, Option.bind_eq_some_iff] at h2
    obtain ⟨target, ht, toff, hto, h2⟩ := h2
    rcases labelIndex_some l items 0 none target ht with ⟨_, h⟩ | ⟨before, after, h3, h4, h5⟩
    · cases h
    · refine ⟨before, after, h3, h4, ?_⟩
      have htl : target ≤ args.length := by
        have := (List.getElem?_eq_some_iff.mp hto).1
        rw [offsets_length] at this; omega
      rw [offsets_get py310 args 0 target htl, Option.some.injEq, Nat.zero_add] at hto
      rw [Nat.zero_add] at h5
      rw [← h5, hplace target htl, Option.some.injEq]
      have hnl : n ≤ args.length := by rw [hk.1]; omega
      simp only [Read.target]
      cases relative with
      | true =>
        simp only [if_true, Option.bind_eq_some_iff] at h2
        obtain ⟨ioff, hio, h2⟩ := h2
        rw [offsets_get py310 args 0 n hnl, Option.some.injEq, Nat.zero_add] at hio
        split at h2
        · rename_i hle
          rw [Option.some.injEq] at h2
          rw [hunit] at h2 hle
          obtain ⟨hle, -⟩ := hle
          rw [← hto, ← hio] at h2 hle
          generalize units (args[n]'(by rw [hk.1]; exact hlt)) = u at *
          generalize total (args.take n) = x at *
          generalize total (args.take target) = y at *
          cases py310 <;> simp only [scale, Bool.false_eq_true, if_true, if_false] at h2 hle ⊢ <;> omega
        · cases h2
      | false =>
        simp only [Bool.false_eq_true, if_false] at h2
        split at h2
        · rw [Option.some.injEq] at h2
          rw [← h2]
          cases py310 <;> simp [scale] at * <;> omega
        · cases h2
  · intro address h1 h2
    have hmem := linenos_get py310 (instrs items) args 0 n _ _ hi ha
    have hlaid := linenos_laid py310 (instrs items) args 0
    simp only [Nat.zero_mul, ite_self, Nat.zero_add] at hmem hlaid h1 h2
    unfold Code.lineAt
    rw [hlines]
    cases py310 with
    | true => exact linestable_all address first _ hlaid _ hmem h1 h2
    | false =>
      simp only [Bool.false_eq_true, if_false, Option.some.injEq]
      exact lnotab_line address _ 0 0 first (Nat.le_refl _) hlaid _ hmem h1 h2

/-- C62: the table of lines consists of bytes, whatever the distances and the lines, so
that packing it never fails. -/
theorem c62_table_fits {py310 : Bool} {first : Int} {items : List Item} {c : Code}
    (h : toCode py310 first items = some c) : ∀ e ∈ c.lines, Entry.Fits e := by
  obtain ⟨args, _, _, hlines⟩ := toCode_some h
  rw [hlines]
  cases py310 with
  | true => exact linestable_fits _ _
  | false => exact lnotab_fits _ _ _

/-! ### It can be built -/

theorem newArgs_all {py : Bool} {items : List Item} {offs : List Nat} (p : Nat → Prop)
    (is : List (Nat × Arg × Int)) :
    ∀ (as : Args) (k : Nat),
      (∀ (n : Nat) (i : Nat × Arg × Int) (a : Nat), is[n]? = some i → as[n]? = some a →
        ∃ a', newArg py items offs (k + n) a i.2.1 = some a' ∧ p a') →
      ∃ as', newArgs py items offs k is as = some as' ∧ ∀ a ∈ as', p a := by
  induction is with
  | nil => intro as k _; exact ⟨[], by simp [newArgs], by simp⟩
  | cons j is ih =>
    intro as k h
    obtain ⟨op, arg, line⟩ := j
    cases as with
    | nil => exact ⟨[], by simp [newArgs], by simp⟩
    | cons b as =>
      obtain ⟨a₁, h1, h2⟩ := h 0 _ b rfl rfl
      obtain ⟨as₁, h3, h4⟩ := ih as (k + 1) (fun n i a hi ha => by
        have := h (n + 1) i a (by simpa using hi) (by simpa using ha)
        rwa [show k + (n + 1) = k + 1 + n by omega] at this)
      refine ⟨a₁ :: as₁, ?_, ?_⟩
      · simp only [Nat.add_zero] at h1
        simp [newArgs, h1, h3]
      · intro a ha
        rcases List.mem_cons.mp ha with rfl | ha
        · exact h2
        · exact h4 a ha

theorem labelIndex_mem (l : Nat) (items : List Item) :
    ∀ (i : Nat) (found : Option Nat), .label l ∈ items →
      ∃ n, labelIndex l i found items = some n ∧ n ≤ i + (instrs items).length := by
  have some' : ∀ (items : List Item) (i m : Nat), m ≤ i → ∃ n, labelIndex l i (some m) items = some n ∧
      n ≤ i + (instrs items).length := by
    intro items
    induction items with
    | nil => intro i m h; exact ⟨m, rfl, by omega⟩
    | cons x items ih =>
      intro i m h
      cases x with
      | label l' =>
        simp only [labelIndex, instrs]
        split
        · exact ih i i (Nat.le_refl _)
        · exact ih i m h
      | instr op arg line =>
        obtain ⟨n, h1, h2⟩ := ih (i + 1) m (by omega)
        exact ⟨n, h1, by simp only [instrs, List.length_cons]; omega⟩
  induction items with
  | nil => intro i found h; cases h
  | cons x items ih =>
    intro i found h
    cases x with
    | label l' =>
      simp only [labelIndex, instrs]
      by_cases hl : l' = l
      · rw [if_pos hl]; exact some' items i i (Nat.le_refl _)
      · rw [if_neg hl]
        exact ih i found (by
          rcases List.mem_cons.mp h with h | h
          · cases h; exact (hl rfl).elim
          · exact h)
    | instr op arg line =>
      obtain ⟨n, h1, h2⟩ := ih (i + 1) found (by simpa using h)
      exact ⟨n, h1, by simp only [instrs, List.length_cons]; omega⟩

theorem total_ones (as : Args) (h : ∀ a ∈ as, a ≤ 255) : total as = as.length := by
  induction as with
  | nil => rfl
  | cons a as ih =>
    have h1 := h a (List.mem_cons_self ..)
    rw [total, ih (fun a ha => h a (List.mem_cons_of_mem _ ha)), units, if_neg (by omega), List.length_cons]
    omega

theorem units_ones (as : Args) (h : ∀ a ∈ as, a ≤ 255) : as.map units = List.replicate as.length 1 := by
  induction as with
  | nil => rfl
  | cons a as ih =>
    have h1 := h a (List.mem_cons_self ..)
    rw [List.map_cons, ih (fun a ha => h a (List.mem_cons_of_mem _ ha)), units, if_neg (by omega),
      List.length_cons, List.replicate_succ]

/-- C62: a program of up to 127 instructions can always be built, if its arguments fit
a byte, its labels are there, and its relative jumps go forward. -/
theorem c62_small_is_built {py310 : Bool} (first : Int) {items : List Item}
    (hlen : (instrs items).length ≤ 127)
    (hnum : ∀ op n line, .instr op (.num n) line ∈ items → n ≤ 255)
    (hlab : ∀ op r l line, .instr op (.jump r l) line ∈ items → .label l ∈ items)
    (hfwd : ∀ (n : Nat) (op l : Nat) (line : Int) (m : Nat),
      (instrs items)[n]? = some (op, .jump true l, line) → labelIndex l 0 none items = some m → n < m) :
    ∃ c, toCode py310 first items = some c := by
  have hmem : ∀ (its : List Item) (i : Nat × Arg × Int), i ∈ instrs its → .instr i.1 i.2.1 i.2.2 ∈ its := by
    intro its i
    induction its with
    | nil => intro h; cases h
    | cons x its ih =>
      intro h
      cases x with
      | label l => exact List.mem_cons_of_mem _ (ih h)
      | instr op arg line =>
        rcases List.mem_cons.mp h with rfl | h
        · exact List.mem_cons_self ..
        · exact List.mem_cons_of_mem _ (ih h)
  have hinit : ∀ i ∈ instrs items, initialArg i.2.1 ≤ 255 := by
    intro i hi
    obtain ⟨op, arg, line⟩ := i
    cases arg with
    | unset => simp [initialArg]
    | num n => exact hnum op n line (hmem _ _ hi)
    | jump r l => simp [initialArg]
  unfold toCode
  rw [if_pos (by
    rw [List.all_eq_true]
    intro i hi
    have := hinit i hi
    simp only [decide_eq_true_eq]; omega)]
  have has : ∀ a ∈ (instrs items).map (fun i => initialArg i.2.1), a ≤ 255 := by
    intro a ha
    obtain ⟨i, hi, rfl⟩ := List.mem_map.mp ha
    exact hinit i hi
  have htake : ∀ n, n ≤ (instrs items).length →
      total (((instrs items).map (fun i => initialArg i.2.1)).take n) = n := by
    intro n hn
    rw [total_ones _ (fun a ha => has a (List.mem_of_mem_take ha))]
    simp [hn]
  obtain ⟨as', h1, h2⟩ := newArgs_all (py := py310) (items := items)
    (offs := offsets py310 0 ((instrs items).map fun i => initialArg i.2.1)) (fun a => a ≤ 255)
    (instrs items) ((instrs items).map fun i => initialArg i.2.1) 0 (by
      intro n i a hi ha
      have hn : n < (instrs items).length := (List.getElem?_eq_some_iff.mp hi).1
      have ha255 : a ≤ 255 := has a (List.mem_of_getElem? ha)
      obtain ⟨op, arg, line⟩ := i
      have hit : .instr op arg line ∈ items := hmem items (op, arg, line) (List.mem_of_getElem? hi)
      cases arg with
      | unset => exact ⟨a, rfl, ha255⟩
      | num m => exact ⟨a, rfl, ha255⟩
      | jump r l =>
        obtain ⟨t, ht, htl⟩ := labelIndex_mem l items 0 none (hlab op r l line hit)
        rw [Nat.zero_add] at htl
        have hto := offsets_get py310 ((instrs items).map fun i => initialArg i.2.1) 0 t (by simpa using htl)
        have hio := offsets_get py310 ((instrs items).map fun i => initialArg i.2.1) 0 n
          (by rw [List.length_map]; omega)
        rw [htake t htl, Nat.zero_add] at hto
        rw [htake n (by omega), Nat.zero_add] at hio
        have hs : scale py310 ≤ 2 := by cases py310 <;> decide
        have hst : scale py310 * t ≤ 254 := by
          have : scale py310 * t ≤ 2 * 127 := Nat.mul_le_mul hs (by omega)
          omega
        have hu : units a = 1 := by rw [units, if_neg (by omega)]
        cases r with
        | false =>
          refine ⟨scale py310 * t, ?_, by omega⟩
          simp only [newArg, ht, hto, Option.bind_eq_bind, Option.bind_some]
          rw [if_neg (by simp), if_pos (by omega)]
        | true =>
          have hlt := hfwd n op l line t hi ht
          have hle : scale py310 * n + scale py310 * 1 ≤ scale py310 * t := by
            rw [← Nat.mul_add]; exact Nat.mul_le_mul_left _ (by omega)
          refine ⟨scale py310 * t - (scale py310 * n + scale py310 * 1), ?_, by omega⟩
          simp only [newArg, ht, hto, Nat.zero_add, hio, Option.bind_eq_bind, Option.bind_some, hu, if_true]
          rw [if_pos ⟨hle, by omega⟩])
  have hl' := (newArgs_get _ _ _ _ (by simp) h1).1
  have heq : as'.map units = ((instrs items).map fun i => initialArg i.2.1).map units := by
    rw [units_ones _ h2, units_ones _ has]; simp [hl']
  have hj : computeJumps py310 items 10 ((instrs items).map fun i => initialArg i.2.1) = some as' := by
    rw [computeJumps]
    simp only [h1, Option.bind_eq_bind, Option.bind_some]
    rw [if_pos heq]; rfl
  rw [hj]
  exact ⟨_, rfl⟩

/-! ### An example -/

/-- A loop: a jump back over 300 instructions, which needs a prefix and so moves the
label the other jump goes to; lines that go back and forth. -/
def loopItems : List Item :=
  [.instr 124 (.num 0) 1000, .label 1, .instr 93 (.jump true 2) 3, .instr 125 (.num 70000) 3] ++
  (List.range 300).map (fun n => .instr 1 .unset (n + 4)) ++
  [.instr 113 (.jump false 1) 3, .label 2, .instr 100 (.num 1) 1000, .instr 83 .unset 1000]

/-- The example is built for both kinds of offsets, and its jumps need prefixes. -/
theorem c62_example : ∃ c c', toCode true 1 loopItems = some c ∧ toCode false 1 loopItems = some c' ∧
    c.code.length = 309 ∧ c'.code.length = 309 ∧
    (c.read[1]?).map (fun r => (r.op, r.arg, r.start, r.next)) = some (93, 304, 2, 6) ∧
    (c'.read[1]?).map (fun r => (r.op, r.arg, r.start, r.next)) = some (93, 608, 2, 6) ∧
    c.lineAt true 1 12 = some 4 ∧ c'.lineAt false 1 12 = some 4 := by
  refine ⟨(toCode true 1 loopItems).get (by decide +kernel),
    (toCode false 1 loopItems).get (by decide +kernel), by simp, by simp, ?_⟩
  decide +kernel

end Assemble
