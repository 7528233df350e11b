import Verif.Bytecode.Entries

/-!
C60: programmatic breakpoints do not change what a program does.
C61: programmatic breakpoints are met whenever a line is entered.
-/
namespace Bytecode
variable {U E D : Type}

/-! ## C60 -/

/-- C60: the instructions and labels of the program are all still there, in the
same order and with the same arguments, and have the same lines; from 3.10 on
an instruction which the interpreter predicts has the line of the one before
it. -/
theorem c60_program_kept {t : Track} {lines : List Int} {first : Int} {has : Bool} {P Q : List Item}
    (h : insertBreaks t lines first has P = some Q) (hO : Original P) :
    Q.filter Item.own = if t then predictedLines none P else P := by
  rw [insertBreaks_eq h]
  exact own_out t lines P {} first none hO rfl

/-- C60: whatever the program does, the instrumented program does, whatever the
debugger answers: it runs the same instructions on the same values, and is left
when the program is left, with the same result. -/
theorem c60_does_the_same {t : Track} {lines : List Int} {first : Int} {has : Bool} {P Q : List Item}
    (h : insertBreaks t lines first has P = some Q) (hO : Original P)
    (w : World U E D) (hw : Unaware w) (st : List (Val U)) (e : E) (d d' : D) (hc : Clean st) (n : Nat) :
    ∃ m, seen (run w Q m (start Q st e d')).2 = seen (run w P n (start P st e d)).2 ∧
      (run w Q m (start Q st e d')).1.stack = (run w P n (start P st e d)).1.stack ∧
      (run w Q m (start Q st e d')).1.env = (run w P n (start P st e d)).1.env ∧
      (run w Q m (start Q st e d')).1.code.isNone = (run w P n (start P st e d)).1.code.isNone := by
  have hQ := insertBreaks_eq h
  subst hQ
  obtain ⟨m, g', tr', hr, hb, hs⟩ :=
    follow w hw hO ⟨first, rfl⟩ n (bound_start t lines P first st e d d' hc)
  refine ⟨m, ?_, ?_, ?_, ?_⟩
  · rw [hr, hs]
  · rw [hr]; exact hb.stack
  · rw [hr]; exact hb.env
  · rw [hr]
    rcases hb.code with ⟨h1, h2⟩ | ⟨r, q, c, cur, pre, done, h1, h2, _⟩ <;> simp [h1, h2]

/-- C60: the instrumented program does nothing else: what can be seen of any run
of it is what can be seen of a run of the program; and if it was left, so was
the program, with the same result. -/
theorem c60_does_nothing_else {t : Track} {lines : List Int} {first : Int} {has : Bool}
    {P Q : List Item} (h : insertBreaks t lines first has P = some Q) (hO : Original P)
    (w : World U E D) (hw : Unaware w) (st : List (Val U)) (e : E) (d d' : D) (hc : Clean st) (m : Nat) :
    ∃ n, seen (run w P n (start P st e d)).2 = seen (run w Q m (start Q st e d')).2 ∧
      ((run w Q m (start Q st e d')).1.code = none →
        (run w P n (start P st e d)).1.code = none ∧
        (run w P n (start P st e d)).1.stack = (run w Q m (start Q st e d')).1.stack ∧
        (run w P n (start P st e d)).1.env = (run w Q m (start Q st e d')).1.env) := by
  have hQ := insertBreaks_eq h
  subst hQ
  have hb₀ := bound_start (D := D) t lines P first st e d d' hc
  obtain ⟨n, k, g', tr', hr, hb, hs, _⟩ :=
    cover w hw hO ⟨first, rfl⟩ (fun _ => True) (fun _ _ _ _ => trivial) m hb₀ trivial
  by_cases hcode : (run w (out t lines {} first P) m (start (out t lines {} first P) st e d')).1.code = none
  · rw [run_add] at hr
    rw [run_halted w (out t lines {} first P)
      (run w (out t lines {} first P) m (start (out t lines {} first P) st e d')).1
      (by simp [step, hcode]) k] at hr
    simp only [List.append_nil, Prod.mk.injEq] at hr
    obtain ⟨hr1, hr2⟩ := hr
    refine ⟨n, by rw [hr2, hs], fun _ => ?_⟩
    rw [hr1]
    refine ⟨?_, hb.stack.symm, hb.env.symm⟩
    rcases hb.code with ⟨h1, _⟩ | ⟨r, q, c, cur, pre, done, _, h2, _⟩
    · exact h1
    · rw [← hr1, hcode] at h2; cases h2
  · have hpre := run_prefix w (out t lines {} first P) m k (start (out t lines {} first P) st e d')
    rw [hr] at hpre
    obtain ⟨s, hs'⟩ := hpre
    have : seen (run w (out t lines {} first P) m (start (out t lines {} first P) st e d')).2 <+:
        seen (run w P n (start P st e d)).2 := by
      rw [← hs]
      exact ⟨seen s, by rw [← seen_append]; exact congrArg seen hs'⟩
    obtain ⟨n', hn'⟩ := prefix_run w hw hO ⟨first, rfl⟩ n _ hb₀ this
    exact ⟨n', hn'.symm, fun hx => absurd hx hcode⟩

/-- C60: no lines, a line that is not positive, or an instruction of the table at
the end: nothing is inserted (and the code is traced instead). -/
theorem c60_refused (t : Track) (lines : List Int) (first : Int) (has : Bool) (P : List Item) :
    insertBreaks t lines first has P = none ↔
      has = false ∨ (∃ L ∈ lines, L ≤ 0) ∨ failsAtEnd t P = true := by
  unfold insertBreaks
  cases has with
  | false => simp
  | true =>
    by_cases hl : ∃ L ∈ lines, L ≤ 0
    · have : lines.any (· ≤ 0) = true := by simpa using hl
      simp [this, hl]
    · have : lines.any (· ≤ 0) = false := by simpa using hl
      cases hf : failsAtEnd t P <;> simp [this, hl]

/-! ## C61 -/

/-- C61 (3.10 and later): whenever the program enters a line with a breakpoint,
the debugger is asked about that line. -/
theorem c61_every_entry_asks {lines : List Int} {first : Int} {has : Bool} {P Q : List Item}
    (h : insertBreaks true lines first has P = some Q) (hO : Original P)
    (w : World U E D) (hw : Unaware w) (st : List (Val U)) (e : E) (d : D) (hc : Clean st) (m : Nat) :
    EntriesAsked Q lines (run w Q m (start Q st e d)).2 := by
  have hQ := insertBreaks_eq h
  subst hQ
  obtain ⟨n, k, g', tr', hr, hb, hs, hg⟩ :=
    cover w hw hO ⟨first, rfl⟩ _ (strong_kept true lines P _) m
      (bound_start (D := D) true lines P first st e d d hc)
      (by intro before i st e rest L heq; simp at heq)
  have hpre := run_prefix w (out true lines {} first P) m k (start (out true lines {} first P) st e d)
  rw [hr] at hpre
  rw [List.nil_append] at hg
  intro before i stack env rest L heq hi hst hl hL
  rcases strong_prefix hg hpre before i stack env rest L heq hi hst hl hL with (h | h) | h
  · exact Or.inl h
  · exact Or.inr (Or.inl h)
  · exact Or.inr (Or.inr h)

/-- C61 (before 3.10): whenever the program runs the first instruction, in the
order of the code, of a line with a breakpoint, the debugger is asked about
that line. -/
theorem c61_first_entry_asks {lines : List Int} {first : Int} {has : Bool} {P Q : List Item}
    (h : insertBreaks false lines first has P = some Q) (hO : Original P) (hpl : Placed P)
    (w : World U E D) (hw : Unaware w) (st : List (Val U)) (e : E) (d : D) (hc : Clean st) (m : Nat) :
    FirstEntriesAsked P Q lines (run w Q m (start Q st e d)).2 := by
  have hQ := insertBreaks_eq h
  subst hQ
  obtain ⟨n, k, g', tr', hr, hb, hs, hg⟩ :=
    cover w hw hO ⟨first, rfl⟩ _ (strong_kept false lines P _) m
      (bound_start (D := D) false lines P first st e d d hc)
      (by intro before i st e rest L heq; simp at heq)
  have hpre := run_prefix w (out false lines {} first P) m k (start (out false lines {} first P) st e d)
  rw [hr] at hpre
  rw [List.nil_append] at hg
  intro before i stack env rest L heq hi hst hl hL hf
  rcases strong_prefix hg hpre before i stack env rest L heq hi hst hl hL with h | h
  · exact h
  · exact (first_not_earlier hpl hi hl hf h).elim

theorem stops_announced_of {lines : List Int} {tr tr' : List (Ev U E)} (h : StopsStrong lines tr)
    (hp : tr' <+: tr) : StopsAnnounced lines tr' := by
  obtain ⟨s, hs⟩ := hp
  intro before L rest heq
  obtain ⟨h1, h2, i, st, e, j, st', e', rest', hr, h3, h4, h5, h6⟩ :=
    h before L (rest ++ s) (by rw [← hs, heq]; simp)
  refine ⟨h1, h2, ?_⟩
  intro x y r hxy
  rw [hxy] at hr
  simp only [List.cons_append, List.cons.injEq] at hr
  exact ⟨i, st, e, j, st', e', hr.1, hr.2.1, h3, h4, h5, h6⟩

/-- C61: the debugger is told to stop only at a line with a breakpoint, only when
it has just said it needs to, and the interpreter then passes from another
line to that line. -/
theorem c61_stops_announced {t : Track} {lines : List Int} {first : Int} {has : Bool} {P Q : List Item}
    (h : insertBreaks t lines first has P = some Q) (hO : Original P)
    (w : World U E D) (hw : Unaware w) (st : List (Val U)) (e : E) (d : D) (hc : Clean st) (m : Nat) :
    StopsAnnounced lines (run w Q m (start Q st e d)).2 := by
  have hQ := insertBreaks_eq h
  subst hQ
  obtain ⟨n, k, g', tr', hr, hb, hs, hg⟩ :=
    cover w hw hO ⟨first, rfl⟩ _ (stops_kept t lines P _) m
      (bound_start (D := D) t lines P first st e d d hc)
      (by intro before L rest heq; simp at heq)
  have hpre := run_prefix w (out t lines {} first P) m k (start (out t lines {} first P) st e d)
  rw [hr] at hpre
  rw [List.nil_append] at hg
  exact stops_announced_of hg hpre

/-- C61: when the debugger says it needs to stop it is told to, before the
program goes on. -/
theorem c61_checks_obeyed {t : Track} {lines : List Int} {first : Int} {has : Bool} {P Q : List Item}
    (h : insertBreaks t lines first has P = some Q) (hO : Original P)
    (w : World U E D) (hw : Unaware w) (st : List (Val U)) (e : E) (d : D) (hc : Clean st) (m : Nat) :
    ChecksObeyed (run w Q m (start Q st e d)).2 := by
  have hQ := insertBreaks_eq h
  subst hQ
  obtain ⟨n, k, g', tr', hr, hb, hs, hg⟩ :=
    cover w hw hO ⟨first, rfl⟩ _ (obeyed_kept t lines P _) m
      (bound_start (D := D) t lines P first st e d d hc)
      (by intro before L rest heq; simp at heq)
  have hpre := run_prefix w (out t lines {} first P) m k (start (out t lines {} first P) st e d)
  rw [hr] at hpre
  rw [List.nil_append] at hg
  obtain ⟨s, hs⟩ := hpre
  intro before L rest heq
  simp only at hs
  obtain ⟨a, b, hr', hba⟩ := hg before L (rest ++ s) (by rw [← hs, heq]; simp)
  rcases List.append_eq_append_iff.mp hr' with ⟨l, h1, h2⟩ | ⟨l, h1, h2⟩
  · left; intro ev hev; exact hba ev (by rw [h1]; simp [hev])
  · cases l with
    | nil => rw [List.append_nil] at h1; subst h1; exact Or.inl hba
    | cons y l =>
      simp only [List.cons_append, List.cons.injEq] at h2
      obtain ⟨rfl, -⟩ := h2
      exact Or.inr ⟨a, l, h1, hba⟩

/-- C61: the debugger is asked about lines with breakpoints only. -/
theorem c61_asks_only_wanted {t : Track} {lines : List Int} {first : Int} {has : Bool} {P Q : List Item}
    (h : insertBreaks t lines first has P = some Q) (hO : Original P)
    (w : World U E D) (hw : Unaware w) (st : List (Val U)) (e : E) (d : D) (hc : Clean st) (m : Nat)
    (L : Int) (b : Bool) (hm : Ev.check L b ∈ (run w Q m (start Q st e d)).2) : L ∈ lines := by
  have hQ := insertBreaks_eq h
  subst hQ
  obtain ⟨n, k, g', tr', hr, hb, hs, hg⟩ :=
    cover w hw hO ⟨first, rfl⟩ _ (checks_kept t lines P _) m
      (bound_start (D := D) t lines P first st e d d hc)
      (by intro L b h; simp at h)
  have hpre := run_prefix w (out t lines {} first P) m k (start (out t lines {} first P) st e d)
  rw [hr] at hpre
  rw [List.nil_append] at hg
  exact hg L b (hpre.subset hm)

/-! ### With the debugger's own functions -/

/-- What the debugger's functions do to its state in a run. -/
theorem dbg_run (w : World U E Dbg) (hn : w.needs = needsStop) (hs : w.stop = stopAt)
    (Q : List Item) (n : Nat) :
    ∀ (f : Frame U E Dbg) bps, f.dbg.isTracing = false → f.dbg.breakpoints = some bps →
      ∀ before L b rest, (run w Q n f).2 = before ++ .check L b :: rest →
        b = (bps.contains L && !f.dbg.traced && !before.any fun ev => match ev with
          | .stopped _ => true | _ => false) := by
  induction n with
  | zero => intro f bps _ _ before L b rest h; simp [run] at h
  | succ n ih =>
    intro f bps ht hb before L b rest h
    obtain ⟨code, st, e, d⟩ := f
    simp only at ht hb ⊢
    cases code with
    | none => simp [run, step] at h
    | some code =>
      cases code with
      | nil => simp [run, step] at h
      | cons it code =>
        cases it with
        | label l =>
          simp only [run, step, List.nil_append] at h
          exact ih _ bps ht hb before L b rest h
        | instr i =>
          simp only [run, step] at h
          -- the effect of one instruction
          have hex : ∀ (o : Out U E) (d' : Dbg) (evs : List (Ev U E)),
              exec w i.name i.arg st e d = (o, d', evs) →
              (d' = d ∧ evs = []) ∨ (∃ L, d' = d ∧ evs = [.check L (needsStop d L).2]) ∨
              (∃ L, d' = stopAt d L ∧ evs = [.stopped L]) := by
            intro o d' evs hx
            unfold exec at hx
            have hfst : ∀ L, (needsStop d L).1 = d := by
              intro L; unfold needsStop; split <;> try rfl
              split <;> try rfl
              split <;> rfl
            split at hx <;> simp only [Prod.mk.injEq] at hx <;> obtain ⟨_, rfl, rfl⟩ := hx
            · exact Or.inl ⟨rfl, rfl⟩
            · exact Or.inr (Or.inl ⟨_, by rw [hn, hfst], by rw [hn]⟩)
            · exact Or.inr (Or.inr ⟨_, by rw [hs], rfl⟩)
            · exact Or.inl ⟨rfl, rfl⟩
            · exact Or.inl ⟨rfl, rfl⟩
            · exact Or.inl ⟨rfl, rfl⟩
            · exact Or.inl ⟨rfl, rfl⟩
          have hland : ∀ o (d' : Dbg), (land (U := U) (E := E) Q code d' o).dbg = d' := by
            intro o d'; cases o <;> rfl
          cases hx : exec w i.name i.arg st e d with
          | mk o rest' =>
            obtain ⟨d', evs⟩ := rest'
            rw [hx] at h
            simp only at h
            cases before with
            | nil => simp at h
            | cons x before =>
              simp only [List.cons_append, List.cons.injEq] at h
              obtain ⟨rfl, h⟩ := h
              rcases hex o d' evs hx with ⟨rfl, rfl⟩ | ⟨L', rfl, rfl⟩ | ⟨L', rfl, rfl⟩
              · rw [List.nil_append] at h
                have := ih (land Q code d' o) bps (by rw [hland]; exact ht) (by rw [hland]; exact hb)
                  before L b rest h
                rw [hland] at this
                simpa using this
              · cases before with
                | nil =>
                  simp only [List.cons_append, List.nil_append, List.cons.injEq, Ev.check.injEq] at h
                  obtain ⟨⟨rfl, rfl⟩, _⟩ := h
                  simp only [needsStop, ht, hb]
                  cases d'.traced <;> simp
                | cons y before =>
                  simp only [List.cons_append, List.cons.injEq] at h
                  obtain ⟨rfl, h⟩ := h
                  have := ih (land Q code d' o) bps (by rw [hland]; exact ht) (by rw [hland]; exact hb)
                    before L b rest h
                  rw [hland] at this
                  simpa using this
              · cases before with
                | nil => simp at h
                | cons y before =>
                  simp only [List.cons_append, List.cons.injEq] at h
                  obtain ⟨rfl, h⟩ := h
                  have hd : stopAt d L' = { d with traced := true } := by
                    simp [stopAt, ht, hb]
                  have := ih (land Q code (stopAt d L') o) bps (by rw [hland, hd]; exact ht)
                    (by rw [hland, hd]; exact hb) before L b rest h
                  rw [hland, hd] at this
                  simpa using this

/-- C61: with the debugger's own functions, in a thread that is not in the
debugger's own code: the answer to the question is yes exactly when the line
has a breakpoint and the frame is not traced yet. -/
theorem c61_answer (w : World U E Dbg) (hn : w.needs = needsStop) (hs : w.stop = stopAt)
    (Q : List Item) (st : List (Val U)) (e : E) (d : Dbg) (bps : List Int)
    (hd : d.isTracing = false) (hb : d.breakpoints = some bps) (m : Nat)
    (before : List (Ev U E)) (L : Int) (b : Bool) (rest : List (Ev U E))
    (h : (run w Q m (start Q st e d)).2 = before ++ .check L b :: rest) :
    b = true ↔ L ∈ bps ∧ d.traced = false ∧ ∀ L', Ev.stopped L' ∉ before := by
  have := dbg_run w hn hs Q m (start Q st e d) bps hd hb before L b rest h
  rw [this]
  simp only [start, Bool.and_eq_true, List.contains_iff_mem, Bool.not_eq_true', and_assoc]
  refine and_congr Iff.rfl (and_congr Iff.rfl ?_)
  rw [List.any_eq_false]
  constructor
  · intro h L' hm; exact h _ hm rfl
  · intro h x hx
    cases x with
    | stopped L' => exact absurd hx (h L')
    | ran => simp
    | check => simp

/-- C61: in a thread that is in the debugger's own code, or in a file without breakpoints, the answer is no. -/
theorem c61_no (w : World U E Dbg) (hn : w.needs = needsStop) (hs : w.stop = stopAt) (Q : List Item) (n : Nat) :
    ∀ (f : Frame U E Dbg), (f.dbg.isTracing = true ∨ f.dbg.breakpoints = none) →
      ∀ L b, Ev.check L b ∈ (run w Q n f).2 → b = false := by
  induction n with
  | zero => intro f _ L b h; simp [run] at h
  | succ n ih =>
    intro f ht L b h
    obtain ⟨code, st, e, d⟩ := f
    simp only at ht
    have hno : ∀ L, needsStop d L = (d, false) := by
      intro L
      unfold needsStop
      rcases ht with h | h
      · simp [h]
      · rw [h]; split
        · rfl
        · split <;> rfl
    have hst : ∀ L, stopAt d L = d := by
      intro L
      unfold stopAt
      rcases ht with h | h
      · simp [h]
      · rw [h]; split <;> rfl
    cases code with
    | none => simp [run, step] at h
    | some code =>
      cases code with
      | nil => simp [run, step] at h
      | cons it code =>
        cases it with
        | label l =>
          simp only [run, step, List.nil_append] at h
          exact ih _ ht L b h
        | instr i =>
          simp only [run, step] at h
          have hex : (exec w i.name i.arg st e d).2.1 = d ∧
              ∀ L b, Ev.check L b ∈ (exec w i.name i.arg st e d).2.2 → b = false := by
            unfold exec
            split
            · exact ⟨rfl, by simp⟩
            · rw [hn, hno]
              refine ⟨rfl, ?_⟩
              intro L b h
              simp at h
              exact h.2
            · rw [hs, hst]; exact ⟨rfl, by simp⟩
            · exact ⟨rfl, by simp⟩
            · exact ⟨rfl, by simp⟩
            · exact ⟨rfl, by simp⟩
            · exact ⟨rfl, by simp⟩
          have hland : ∀ o (d' : Dbg), (land (U := U) (E := E) Q code d' o).dbg = d' := by
            intro o d'; cases o <;> rfl
          rw [List.cons_append, List.mem_cons, List.mem_append] at h
          rcases h with h | h | h
          · exact absurd h (by simp)
          · exact hex.2 L b h
          · exact ih _ (by rw [hland, hex.1]; exact ht) L b h

/-! ## Examples and counterexamples -/

/-- A loop: `for x in it: f(x)` with the body on line 2, read from a code object. -/
def loopProg : List Item :=
  [ .instr { name := "GET_ITER", lineno := some 1, offset := some 0 },
    .label (.orig 0),
    .instr { name := "FOR_ITER", arg := .lab (.orig 1), lineno := some 1, offset := some 2 },
    .instr { name := "STORE_FAST", arg := .sym "x", lineno := some 1, offset := some 4 },
    .instr { name := "CALL_F", arg := .sym "x", lineno := some 2, offset := some 6 },
    .instr { name := "POP_TOP", lineno := some 2, offset := some 8 },
    .instr { name := "JUMP_ABSOLUTE", arg := .lab (.orig 0), lineno := some 2, offset := some 10 },
    .label (.orig 1),
    .instr { name := "RETURN_NONE", lineno := some 1, offset := some 12 } ]

theorem loopProg_original : Original loopProg := by
  intro it h
  simp only [loopProg, List.mem_cons, List.not_mem_nil, or_false] at h
  rcases h with rfl | rfl | rfl | rfl | rfl | rfl | rfl | rfl | rfl <;>
    first
      | exact ⟨_, rfl⟩
      | exact ⟨by decide, by decide, by decide, by decide, by intro k; simp, by decide⟩

theorem loopProg_placed : Placed loopProg := by unfold Placed; decide

/-- A world for the loop: `E` counts the rounds still to do. -/
def loopWorld : World Nat Nat Dbg where
  const := fun n => .user n
  sem := fun name arg st e =>
    match name, arg, st with
    | "GET_ITER", _, _ => .fall [.user 7] e
    | "FOR_ITER", .lab (.orig n), st => if e = 0 then .goto (.orig n) st.tail e else .fall (.user e :: st) (e - 1)
    | "STORE_FAST", _, st => .fall st.tail e
    | "CALL_F", _, st => .fall (.none :: st) e
    | "JUMP_ABSOLUTE", .lab (.orig n), st => .goto (.orig n) st e
    | _, _, _ => .leave [.none] e
  needs := needsStop
  stop := stopAt

/-- `insert_pydevd_breaks` puts a break in the loop, before line 2. -/
example : ((insertBreaks true [2] 1 true loopProg).map List.length) = some 19 := by decide +kernel

/-- The break is met in the first round, and after that the frame is traced:
the debugger is asked in each of the two rounds, and told to stop once. -/
example :
    ((insertBreaks true [2] 1 true loopProg).map fun Q =>
      ((run loopWorld Q 100 (start Q [] 2 { breakpoints := some [2] })).2.filterMap fun ev =>
        match ev with
        | .check L b => some (L, b)
        | .stopped L => some (L, true)
        | .ran .. => none)) = some [(2, true), (2, true), (2, false)] := by
  decide +kernel

theorem loopWorld_unaware : Unaware loopWorld := by
  have htail : ∀ st : List (Val Nat), Clean st → Clean st.tail :=
    fun st h v hv => h v (List.mem_of_mem_tail hv)
  have hpush : ∀ (st : List (Val Nat)) (u : Nat), Clean st → Clean (.user u :: st) := by
    intro st u h v hv
    rcases List.mem_cons.mp hv with rfl | hv
    · simp
    · exact h v hv
  have hnone : ∀ st : List (Val Nat), Clean st → Clean (.none :: st) := by
    intro st h v hv
    rcases List.mem_cons.mp hv with rfl | hv
    · simp
    · exact h v hv
  have hfine : ∀ name arg (st : List (Val Nat)) e, Clean st → (loopWorld.sem name arg st e).Fine := by
    intro name arg st e h
    simp only [loopWorld]
    split
    · exact hpush [] 7 (by intro v hv; simp at hv)
    · split
      · exact ⟨⟨_, rfl⟩, htail _ h⟩
      · exact hpush _ _ h
    · exact htail _ h
    · exact hnone _ h
    · exact ⟨⟨_, rfl⟩, h⟩
    · exact hnone [] (by intro v hv; simp at hv)
  refine ⟨by intro n; simp [loopWorld], ?_, ?_, ?_⟩
  · intro name arg st e st' e' h hc
    have := hfine name arg st e hc
    rw [h] at this; exact this
  · intro name arg st e l st' e' h
    refine ⟨?_, fun hc => ?_⟩
    · simp only [loopWorld] at h
      split at h
      · cases h
      · split at h
        · cases h; exact ⟨_, rfl⟩
        · cases h
      · cases h
      · cases h
      · cases h; exact ⟨_, rfl⟩
      · cases h
    · have := hfine name arg st e hc
      rw [h] at this; exact this.2
  · intro name arg st e st' e' h hc
    have := hfine name arg st e hc
    rw [h] at this; exact this

/-- A line that is twice in the code, as the body of a `finally` is: line 5 is run
on either of two ways. -/
def twiceProg : List Item :=
  [ .instr { name := "BRANCH", arg := .lab (.orig 0), lineno := some 1, offset := some 0 },
    .instr { name := "WORK", lineno := some 5, offset := some 2 },
    .instr { name := "RETURN", lineno := some 6, offset := some 4 },
    .label (.orig 0),
    .instr { name := "WORK", lineno := some 5, offset := some 6 },
    .instr { name := "RETURN", lineno := some 6, offset := some 8 } ]

/-- A world in which the branch is taken. -/
def twiceWorld : World Nat Nat Dbg where
  const := fun n => .user n
  sem := fun name arg st e =>
    match name, arg with
    | "BRANCH", .lab (.orig n) => .goto (.orig n) st e
    | "WORK", _ => .fall st e
    | _, _ => .leave st e
  needs := needsStop
  stop := stopAt

/-- What of a run is asked and which lines the program runs. -/
def outline (tr : List (Ev Nat Nat)) : List (String × Int) :=
  tr.filterMap fun ev => match ev with
    | .ran i _ _ => if i.offset.isSome then some ("line", i.lineno.getD 0) else none
    | .check L _ => some ("asked", L)
    | .stopped L => some ("stopped", L)

/-- C61 (before 3.10), counterexample to asking at every entry: the second copy of
line 5 has no break, so the program runs line 5 and the breakpoint is missed. -/
theorem c61_second_copy_missed :
    ((insertBreaks false [5] 1 true twiceProg).map fun Q =>
      outline (run twiceWorld Q 50 (start Q [] 0 { breakpoints := some [5] })).2) =
      some [("line", 1), ("line", 5), ("line", 6)] := by
  decide +kernel

/-- From 3.10 on it is met. -/
theorem c61_second_copy_met :
    ((insertBreaks true [5] 1 true twiceProg).map fun Q =>
      outline (run twiceWorld Q 50 (start Q [] 0 { breakpoints := some [5] })).2) =
      some [("line", 1), ("asked", 5), ("stopped", 5), ("line", 5), ("line", 6)] := by
  decide +kernel

/-- A handler that begins with `POP_TOP`: the debugger is asked after it, and once
more at the next instruction of the line. -/
def handlerProg : List Item :=
  [ .instr { name := "BRANCH", arg := .lab (.orig 0), lineno := some 1, offset := some 0 },
    .label (.orig 0),
    .instr { name := "POP_TOP", lineno := some 4, offset := some 2 },
    .instr { name := "WORK", lineno := some 4, offset := some 4 },
    .instr { name := "RETURN", lineno := some 4, offset := some 6 } ]

example :
    ((insertBreaks true [4] 1 true handlerProg).map fun Q =>
      outline (run twiceWorld Q 60 (start Q [.none] 0 { breakpoints := some [] })).2) =
      some [("line", 1), ("line", 4), ("asked", 4), ("asked", 4), ("line", 4), ("line", 4)] := by
  decide +kernel

/-- The hypotheses of the theorems are met by the loop. -/
theorem c60_example : ∃ Q, insertBreaks true [2] 1 true loopProg = some Q ∧ Original loopProg ∧
    Placed loopProg ∧ Unaware loopWorld ∧ Clean ([] : List (Val Nat)) := by
  refine ⟨(insertBreaks true [2] 1 true loopProg).get (by decide +kernel), by simp,
    loopProg_original, loopProg_placed, loopWorld_unaware, ?_⟩
  intro v hv; simp at hv

/-- The program returns, and so does the instrumented one. -/
example : (run loopWorld loopProg 100 (start loopProg [] 2 {})).1.code = none := by decide +kernel

end Bytecode
