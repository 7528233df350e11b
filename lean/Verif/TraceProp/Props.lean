import Verif.TraceProp.Model
/-!
C89: properties behave as they do without the debugger, and are left out of tracing as asked.
-/

namespace TraceProp

/-! ## Specification: `property` as Python has it

A property does not change: `getter` and the others make another one. The number tells one object from another. -/

/-- A property with another function of a kind, and the others of `p`. -/
def P3.changed {F : Type} (p : P3 F) (k : Kind) (f : F) : P3 F :=
  ⟨if k = .get then some f else p.fget, if k = .set then some f else p.fset, if k = .del then some f else p.fdel⟩

theorem put_changed {F : Type} (p : P3 F) (k : Kind) (f : F) : p.put k f = p.changed k f := by
  cases k <;> rfl

structure Plain (V F : Type) where
  env : V → Option (Nat × P3 F)
  next : Nat

def Plain.bind {V F : Type} [DecidableEq V] (s : Plain V F) (y : V) (v : Nat × P3 F) : Plain V F :=
  { s with env := fun z => if z = y then some v else s.env z }

def Plain.declare {V F : Type} [DecidableEq V] (s : Plain V F) : Decl V F → Option (Plain V F)
  | .new x p => some (Plain.bind { s with next := s.next + 1 } x (s.next, p))
  | .put y x k f =>
    match s.env x with
    | none => none
    | some (_, p) => some (Plain.bind { s with next := s.next + 1 } y (s.next, p.changed k f))
  | .alias y x =>
    match s.env x with
    | none => none
    | some v => some (s.bind y v)

/-- A step changes a property only under its own name, and while it has no other name. -/
def Plain.Own {V F : Type} (s : Plain V F) : Decl V F → Prop
  | .put y x _ _ => y = x ∧ ∀ z o p q, z ≠ x → s.env x = some (o, p) → s.env z ≠ some (o, q)
  | _ => True

/-- The program with plain properties, all its steps being `Own`. -/
def Plain.Runs {V F : Type} [DecidableEq V] (s : Plain V F) : List (Decl V F) → Option (Plain V F) → Prop
  | [], r => r = some s
  | d :: ds, r => s.Own d ∧
    match s.declare d with
    | none => r = none
    | some s' => s'.Runs ds r

/-- The two agree on every attribute, and on which are one object. -/
structure Rel {V F : Type} (s : State V F) (b : Plain V F) : Prop where
  look : ∀ x, s.look x = (b.env x).map (·.2)
  same : ∀ x y o o' q q' v v', s.env x = some o → s.env y = some o' → b.env x = some (v, q) → b.env y = some (v', q') →
    (o = o' ↔ v = v')
  fresh : ∀ x o, s.env x = some o → o < s.next
  freshB : ∀ x v q, b.env x = some (v, q) → v < b.next

theorem Rel.both {V F : Type} {s : State V F} {b : Plain V F} (r : Rel s b) (x : V) :
    (s.env x = none ∧ b.env x = none) ∨
    ∃ o v, s.env x = some o ∧ b.env x = some (v, s.heap o) := by
  have h := r.look x
  unfold State.look at h
  cases hs : s.env x with
  | none =>
    rw [hs] at h
    cases hb : b.env x with
    | none => exact Or.inl ⟨rfl, rfl⟩
    | some v => rw [hb] at h; simp at h
  | some o =>
    rw [hs] at h
    cases hb : b.env x with
    | none => rw [hb] at h; simp at h
    | some v =>
      rw [hb] at h
      simp at h
      exact Or.inr ⟨o, v.1, rfl, by rw [h]⟩

theorem rel_step {V F : Type} [DecidableEq V] {s : State V F} {b : Plain V F} (r : Rel s b) (d : Decl V F)
    (own : b.Own d) :
    (declare s d = none ∧ b.declare d = none) ∨
    ∃ s' b', declare s d = some s' ∧ b.declare d = some b' ∧ Rel s' b' := by
  cases d with
  | new x p =>
    refine Or.inr ⟨_, _, rfl, rfl, ?_⟩
    constructor
    · intro z
      simp only [State.look, State.bind, Plain.bind]
      by_cases hz : z = x
      · simp [hz]
      · simp only [if_neg hz]
        rcases r.both z with ⟨h1, h2⟩ | ⟨o, v, h1, h2⟩
        · simp [h1, h2]
        · have := r.fresh z o h1
          have hne : o ≠ s.next := by omega
          simp [h1, h2, hne]
    · intro z y o o' q q' v v' h1 h2 h3 h4
      simp only [State.bind, Plain.bind] at h1 h2 h3 h4
      by_cases hz : z = x <;> by_cases hy : y = x
      · simp only [if_pos hz, if_pos hy] at h1 h2 h3 h4
        simp at h1 h2 h3 h4
        rw [← h1, ← h2, ← h3.1, ← h4.1]; simp
      · simp only [if_pos hz, if_neg hy] at h1 h2 h3 h4
        simp at h1 h3
        have a := r.fresh y o' h2
        have c := r.freshB y v' q' h4
        omega
      · simp only [if_neg hz, if_pos hy] at h1 h2 h3 h4
        simp at h2 h4
        have a := r.fresh z o h1
        have c := r.freshB z v q h3
        omega
      · simp only [if_neg hz, if_neg hy] at h1 h2 h3 h4
        exact r.same z y o o' q q' v v' h1 h2 h3 h4
    · intro z o h
      simp only [State.bind] at h ⊢
      split at h
      · simp at h; omega
      · have := r.fresh z o h; omega
    · intro z v q h
      simp only [Plain.bind] at h ⊢
      split at h
      · simp at h; omega
      · have := r.freshB z v q h; omega
  | put y x k f =>
    obtain ⟨rfl, own⟩ := own
    rcases r.both y with ⟨h1, h2⟩ | ⟨o, v, h1, h2⟩
    · exact Or.inl ⟨by simp [declare, h1], by simp [Plain.declare, h2]⟩
    · refine Or.inr ⟨_, _, by simp only [declare, h1]; rfl, by simp only [Plain.declare, h2]; rfl, ?_⟩
      have other : ∀ z o', z ≠ y → s.env z = some o' → o' ≠ o := by
        intro z o' hz ho' he
        rcases r.both z with ⟨h3, _⟩ | ⟨o2, v2, h3, h4⟩
        · rw [ho'] at h3; simp at h3
        · rw [ho'] at h3
          injection h3 with h3
          have := (r.same z y o' o _ _ v2 v ho' h1 h4 h2).1 he
          exact own z v (s.heap o) (s.heap o2) hz h2 (by rw [h4, this])
      constructor
      · intro z
        simp only [State.look, State.bind, Plain.bind]
        by_cases hz : z = y
        · simp [hz, put_changed]
        · simp only [if_neg hz]
          rcases r.both z with ⟨h3, h4⟩ | ⟨o2, v2, h3, h4⟩
          · simp [h3, h4]
          · have := other z o2 hz h3
            simp [h3, h4, this]
      · intro z w o1 o2 q q' v1 v2 e1 e2 e3 e4
        simp only [State.bind, Plain.bind] at e1 e2 e3 e4
        by_cases hz : z = y <;> by_cases hy : w = y
        · simp only [if_pos hz, if_pos hy] at e1 e2 e3 e4
          simp at e1 e2 e3 e4
          rw [← e1, ← e2, ← e3.1, ← e4.1]; simp
        · simp only [if_pos hz, if_neg hy] at e1 e2 e3 e4
          simp at e1 e3
          have a := other w o2 hy e2
          have c := r.freshB w v2 q' e4
          constructor
          · intro h; exact absurd (by rw [← h, e1]) a
          · intro h; omega
        · simp only [if_neg hz, if_pos hy] at e1 e2 e3 e4
          simp at e2 e4
          have a := other z o1 hz e1
          have c := r.freshB z v1 q e3
          constructor
          · intro h; exact absurd (by rw [h, e2]) a
          · intro h; omega
        · simp only [if_neg hz, if_neg hy] at e1 e2 e3 e4
          exact r.same z w o1 o2 q q' v1 v2 e1 e2 e3 e4
      · intro z o' h
        simp only [State.bind] at h ⊢
        split at h
        · simp at h; rw [← h]; exact r.fresh y o h1
        · exact r.fresh z o' h
      · intro z v' q h
        simp only [Plain.bind] at h ⊢
        split at h
        · simp at h; omega
        · have := r.freshB z v' q h; omega
  | «alias» y x =>
    rcases r.both x with ⟨h1, h2⟩ | ⟨o, v, h1, h2⟩
    · exact Or.inl ⟨by simp [declare, h1], by simp [Plain.declare, h2]⟩
    · refine Or.inr ⟨_, _, by simp only [declare, h1]; rfl, by simp only [Plain.declare, h2]; rfl, ?_⟩
      constructor
      · intro z
        simp only [State.look, State.bind, Plain.bind]
        by_cases hz : z = y
        · simp [hz]
        · simp only [if_neg hz]; exact r.look z
      · intro z w o1 o2 q q' v1 v2 e1 e2 e3 e4
        simp only [State.bind, Plain.bind] at e1 e2 e3 e4
        by_cases hz : z = y <;> by_cases hy : w = y
        · simp only [if_pos hz, if_pos hy] at e1 e2 e3 e4
          simp at e1 e2 e3 e4
          rw [← e1, ← e2, ← e3.1, ← e4.1]; simp
        · simp only [if_pos hz, if_neg hy] at e1 e2 e3 e4
          simp at e1 e3
          exact r.same x w o1 o2 q q' v1 v2 (by rw [h1, e1]) e2 (by rw [h2, e3.1, e3.2]) e4
        · simp only [if_neg hz, if_pos hy] at e1 e2 e3 e4
          simp at e2 e4
          exact r.same z x o1 o2 q q' v1 v2 e1 (by rw [h1, e2]) e3 (by rw [h2, e4.1, e4.2])
        · simp only [if_neg hz, if_neg hy] at e1 e2 e3 e4
          exact r.same z w o1 o2 q q' v1 v2 e1 e2 e3 e4
      · intro z o' h
        simp only [State.bind] at h ⊢
        split at h
        · simp at h; rw [← h]; exact r.fresh x o h1
        · exact r.fresh z o' h
      · intro z v' q h
        simp only [Plain.bind] at h ⊢
        split at h
        · simp at h; rw [← h.1]; exact r.freshB x v _ h2
        · exact r.freshB z v' q h

/-- Before any property is declared. -/
def State.start (V F : Type) : State V F := ⟨fun _ => none, fun _ => ⟨none, none, none⟩, 0⟩
def Plain.start (V F : Type) : Plain V F := ⟨fun _ => none, 0⟩

theorem rel_start (V F : Type) : Rel (State.start V F) (Plain.start V F) :=
  ⟨fun _ => rfl, fun _ _ _ _ _ _ _ _ h => by simp [State.start] at h, fun _ _ h => by simp [State.start] at h,
    fun _ _ _ h => by simp [Plain.start] at h⟩

/-- **C89, the functions.** In every program in which a property is changed only under its own name and while it has no
other name, each attribute is the property (with the functions) it is without the debugger, and the program ends at a
name that is not there just when it would. -/
theorem c89_declare {V F : Type} [DecidableEq V] (ds : List (Decl V F)) (r : Option (Plain V F))
    (h : (Plain.start V F).Runs ds r) :
    (declareAll (State.start V F) ds = none ↔ r = none) ∧
    ∀ s b, declareAll (State.start V F) ds = some s → r = some b → ∀ x, s.look x = (b.env x).map (·.2) := by
  have gen : ∀ (ds : List (Decl V F)) (s : State V F) (b : Plain V F), Rel s b → b.Runs ds r →
      (declareAll s ds = none ↔ r = none) ∧
      ∀ s' b', declareAll s ds = some s' → r = some b' → ∀ x, s'.look x = (b'.env x).map (·.2) := by
    intro ds
    induction ds with
    | nil =>
      intro s b hr hrun
      simp only [Plain.Runs] at hrun
      subst hrun
      refine ⟨by simp [declareAll], ?_⟩
      intro s' b' h1 h2 x
      simp only [declareAll] at h1
      injection h1 with h1
      injection h2 with h2
      rw [← h1, ← h2]
      exact hr.look x
    | cons d ds ih =>
      intro s b hr hrun
      simp only [Plain.Runs] at hrun
      obtain ⟨own, hrun⟩ := hrun
      rcases rel_step hr d own with ⟨h1, h2⟩ | ⟨s', b', h1, h2, hr'⟩
      · rw [h2] at hrun
        simp only at hrun
        subst hrun
        simp [declareAll, h1]
      · rw [h2] at hrun
        simp only [declareAll, h1]
        exact ih s' b' hr' hrun
  exact gen ds _ _ (rel_start V F) h

/-! ## Using properties -/

mutual
/-- Which lines run, and whether it raises: nothing here knows of a debugger. -/
def plainItem : Item → List Nat × Bool
  | .line n => ([n], false)
  | .sub none _ body raises caught => ((plainItems body).1, ((plainItems body).2 || raises) && !caught)
  | .sub (some _) present body raises caught =>
    if present then ((plainItems body).1, ((plainItems body).2 || raises) && !caught) else ([], !caught)
def plainItems : List Item → List Nat × Bool
  | [] => ([], false)
  | i :: is => if (plainItem i).2 then plainItem i else ((plainItem i).1 ++ (plainItems is).1, (plainItems is).2)
end

mutual
/-- The lines that run outside of the properties that are to be left out. -/
def seenItem (off : Kind → Bool) : Item → List Nat
  | .line n => [n]
  | .sub none _ body _ _ => seenItems off body
  | .sub (some k) present body _ _ => if present && !off k then seenItems off body else []
def seenItems (off : Kind → Bool) : List Item → List Nat
  | [] => []
  | i :: is => if (plainItem i).2 then seenItem off i else seenItem off i ++ seenItems off is
end

mutual
/-- No property is used. -/
def noProps : Item → Bool
  | .line _ => true
  | .sub none _ body _ _ => noPropss body
  | .sub (some _) _ _ _ _ => false
def noPropss : List Item → Bool
  | [] => true
  | i :: is => noProps i && noPropss is
end

mutual
/-- The properties that are to be left out use no properties. -/
def flat (off : Kind → Bool) : Item → Bool
  | .line _ => true
  | .sub none _ body _ _ => flats off body
  | .sub (some k) _ body _ _ => if off k then noPropss body else flats off body
def flats (off : Kind → Bool) : List Item → Bool
  | [] => true
  | i :: is => flat off i && flats off is
end

mutual
theorem run_plain_item (c : Cfg) (here tracing : Bool) (i : Item) :
    (runItem c here tracing i).ran = (plainItem i).1 ∧ (runItem c here tracing i).raised = (plainItem i).2 := by
  match i with
  | .line n => simp [runItem, plainItem]
  | .sub none p body raises caught =>
    have := run_plain_items c tracing tracing body
    simp [runItem, plainItem, this.1, this.2]
  | .sub (some k) p body raises caught =>
    have := run_plain_items c (c.enter k tracing) (c.enter k tracing) body
    cases p <;> simp [runItem, plainItem, this.1, this.2]
theorem run_plain_items (c : Cfg) (here tracing : Bool) (is : List Item) :
    (runItems c here tracing is).ran = (plainItems is).1 ∧ (runItems c here tracing is).raised = (plainItems is).2 := by
  match is with
  | [] => simp [runItems, plainItems]
  | i :: is =>
    have h1 := run_plain_item c here tracing i
    have h2 := run_plain_items c here (runItem c here tracing i).tracing is
    simp only [runItems, plainItems, h1.2]
    split
    · exact h1
    · simp [h1.1, h2.1, h2.2]
end

/-- **C89, the same run.** Whatever is left out of tracing, the same lines run and the same exceptions reach the caller
as without a debugger. -/
theorem c89_same_run (c : Cfg) (here tracing : Bool) (is : List Item) :
    (runItems c here tracing is).ran = (plainItems is).1 ∧ (runItems c here tracing is).raised = (plainItems is).2 :=
  run_plain_items c here tracing is

mutual
theorem seen_item (off : Kind → Bool) (i : Item) :
    (runItem ⟨true, off⟩ true true i).tracing = true ∧ (seenItem off i).Sublist (runItem ⟨true, off⟩ true true i).traced := by
  match i with
  | .line n => simp [runItem, seenItem]
  | .sub none p body raises caught =>
    have := seen_items off body
    simpa [runItem, seenItem] using this
  | .sub (some k) p body raises caught =>
    have := seen_items off body
    cases p
    · simp [runItem, seenItem, Cfg.leave]
    · cases hk : off k
      · simpa [runItem, seenItem, Cfg.leave, Cfg.enter, hk] using this.2
      · simp [runItem, seenItem, Cfg.leave, hk]
theorem seen_items (off : Kind → Bool) (is : List Item) :
    (runItems ⟨true, off⟩ true true is).tracing = true ∧
      (seenItems off is).Sublist (runItems ⟨true, off⟩ true true is).traced := by
  match is with
  | [] => simp [runItems, seenItems]
  | i :: is =>
    have h1 := seen_item off i
    have h2 := seen_items off is
    have h3 := (run_plain_item ⟨true, off⟩ true true i).2
    simp only [runItems, seenItems, h3]
    split
    · exact h1
    · simp only [h1.1]
      exact ⟨h2.1, h1.2.append h2.2⟩
end

/-- **C89, nothing else is left out.** Code entered with tracing on: tracing is on after it, and every line that runs
outside of the properties to be left out is traced, in order. -/
theorem c89_seen (off : Kind → Bool) (is : List Item) :
    (runItems ⟨true, off⟩ true true is).tracing = true ∧
      (seenItems off is).Sublist (runItems ⟨true, off⟩ true true is).traced :=
  seen_items off is

mutual
theorem hidden_item (off : Kind → Bool) (i : Item) (h : noProps i = true) :
    (runItem ⟨true, off⟩ false false i).tracing = false ∧ (runItem ⟨true, off⟩ false false i).traced = [] := by
  match i with
  | .line n => simp [runItem]
  | .sub none p body raises caught =>
    have := hidden_items off body (by simpa [noProps] using h)
    simpa [runItem] using this
  | .sub (some k) p body raises caught => simp [noProps] at h
theorem hidden_items (off : Kind → Bool) (is : List Item) (h : noPropss is = true) :
    (runItems ⟨true, off⟩ false false is).tracing = false ∧ (runItems ⟨true, off⟩ false false is).traced = [] := by
  match is with
  | [] => simp [runItems]
  | i :: is =>
    simp [noPropss] at h
    have h1 := hidden_item off i h.1
    have h2 := hidden_items off is h.2
    simp only [runItems]
    split
    · exact h1
    · simp [h1.1, h1.2, h2.1, h2.2]
end

mutual
theorem exact_item (off : Kind → Bool) (i : Item) (h : flat off i = true) :
    (runItem ⟨true, off⟩ true true i).traced = seenItem off i := by
  match i with
  | .line n => simp [runItem, seenItem]
  | .sub none p body raises caught =>
    simpa [runItem, seenItem] using exact_items off body (by simpa [flat] using h)
  | .sub (some k) p body raises caught =>
    cases p
    · simp [runItem, seenItem]
    · cases hk : off k
      · simpa [runItem, seenItem, Cfg.enter, hk] using exact_items off body (by simpa [flat, hk] using h)
      · simpa [runItem, seenItem, Cfg.enter, hk] using (hidden_items off body (by simpa [flat, hk] using h)).2
theorem exact_items (off : Kind → Bool) (is : List Item) (h : flats off is = true) :
    (runItems ⟨true, off⟩ true true is).traced = seenItems off is := by
  match is with
  | [] => simp [runItems, seenItems]
  | i :: is =>
    simp [flats] at h
    have h0 := (seen_item off i).1
    have h1 := exact_item off i h.1
    have h2 := exact_items off is h.2
    have h3 := (run_plain_item ⟨true, off⟩ true true i).2
    simp only [runItems, seenItems, h3]
    split
    · exact h1
    · simp only [h0, h1, h2]
end

/-- **C89, what is to be left out.** If the properties to be left out use no properties themselves, the traced lines
are exactly those outside of them. -/
theorem c89_exact (off : Kind → Bool) (is : List Item) (h : flats off is = true) :
    (runItems ⟨true, off⟩ true true is).traced = seenItems off is := exact_items off is h

/-- **C89, nothing to be left out.** With no kind to be left out, every line that runs is traced. -/
theorem c89_all (is : List Item) :
    (runItems ⟨true, fun _ => false⟩ true true is).traced = (plainItems is).1 := by
  have key : (∀ i, flat (fun _ => false) i = true ∧ seenItem (fun _ => false) i = (plainItem i).1) ∧
      (∀ is, flats (fun _ => false) is = true ∧ seenItems (fun _ => false) is = (plainItems is).1) := by
    have one : ∀ n, (∀ i : Item, sizeOf i < n → flat (fun _ => false) i = true ∧ seenItem (fun _ => false) i = (plainItem i).1) ∧
        (∀ is : List Item, sizeOf is < n → flats (fun _ => false) is = true ∧ seenItems (fun _ => false) is = (plainItems is).1) := by
      intro n
      induction n with
      | zero => exact ⟨fun _ h => absurd h (by omega), fun _ h => absurd h (by omega)⟩
      | succ n ih =>
        constructor
        · intro i hi
          match i with
          | .line n => simp [flat, seenItem, plainItem]
          | .sub none p body raises caught =>
            have := ih.2 body (by simp at hi; omega)
            simp [flat, seenItem, plainItem, this.1, this.2]
          | .sub (some k) p body raises caught =>
            have := ih.2 body (by simp at hi; omega)
            cases p <;> simp [flat, seenItem, plainItem, this.1, this.2]
        · intro is his
          match is with
          | [] => simp [flats, seenItems, plainItems]
          | i :: is =>
            have h1 := ih.1 i (by simp at his; omega)
            have h2 := ih.2 is (by simp at his; omega)
            refine ⟨by simp [flats, h1.1, h2.1], ?_⟩
            simp only [seenItems, plainItems]
            split
            · exact h1.2
            · rw [h1.2, h2.2]
    exact ⟨fun i => (one (sizeOf i + 1)).1 i (by omega), fun is => (one (sizeOf is + 1)).2 is (by omega)⟩
  rw [c89_exact _ is (key.2 is).1, (key.2 is).2]

/-! ## The command -/

/-- **C89, the command.** With four parts or more, each of the last three sets whether its kind is left out, whatever
was set before; the type is replaced once asked for, and stays. -/
theorem c89_command (fl : Flags) (a b c d : Str) (rest : List Str)
    (h : ∀ w ∈ a :: b :: c :: d :: rest, ';' ∉ w) :
    setTrace fl (Py.join1 ';' (a :: b :: c :: d :: rest)) =
      (⟨fl.replaced || a == c!"true", b == c!"true", c == c!"true", d == c!"true"⟩, false) := by
  unfold setTrace
  have hne : Py.join1 ';' (a :: b :: c :: d :: rest) ≠ [] := by
    rw [Py.join1_cons ';' a _ (by simp)]; simp
  rw [if_neg hne, Py.split1_join1 ';' _ (by simp) h]

/-! ## Cases -/

/-- `x = property(g)`, then `x = x.setter(s)`; a second attribute is declared on its own. -/
theorem c89_example :
    ((declareAll (State.start Nat Nat) [.new 0 ⟨some 10, none, none⟩, .put 0 0 .set 11, .new 1 ⟨some 12, none, none⟩]).map
      (fun s => (s.look 0, s.look 1))) = some (some ⟨some 10, some 11, none⟩, some ⟨some 12, none, none⟩) ∧
    (∃ b, (Plain.start Nat Nat).Runs [.new 0 ⟨some 10, none, none⟩, .put 0 0 .set 11, .new 1 ⟨some 12, none, none⟩] (some b)) := by
  refine ⟨by decide, ⟨fun z => if z = 1 then some (2, ⟨some 12, none, none⟩) else if z = 0 then some (1, ⟨some 10, some 11, none⟩)
    else if z = 0 then some (0, ⟨some 10, none, none⟩) else none, 3⟩, ?_⟩
  refine ⟨trivial, ⟨rfl, ?_⟩, trivial, rfl⟩
  intro z o p q hz h1 h2
  simp [Plain.bind, Plain.start, hz] at h2

/-- A line, a property to be left out (whose function calls another), a line. -/
theorem c89_example_run :
    let off : Kind → Bool := fun k => k == .get
    let is : List Item := [.line 1, .sub (some .get) true [.line 2, .sub none true [.line 3] false false] false false,
      .sub (some .set) true [.line 4] true true, .line 5]
    flats off is = true ∧ (runItems ⟨true, off⟩ true true is).traced = [1, 4, 5] ∧ (plainItems is).1 = [1, 2, 3, 4, 5] := by
  decide +kernel

/-- A subclass that adds a setter to the property of its base changes the base. -/
theorem c89_base_witness :
    let ds : List (Decl Nat Nat) := [.new 0 ⟨some 10, none, none⟩, .put 1 0 .set 11]
    ((declareAll (State.start Nat Nat) ds).map (fun s => s.look 0)) = some (some ⟨some 10, some 11, none⟩) ∧
    (((Plain.start Nat Nat).declare ds[0]).bind (fun b => (b.declare ds[1]).map (fun b => (b.env 0).map (·.2)))) =
      some (some ⟨some 10, none, none⟩) := by
  decide

/-- When a property to be left out uses another property, what it calls afterwards is traced. -/
theorem c89_nested_witness :
    (runItems ⟨true, fun _ => true⟩ true true
      [.sub (some .get) true [.sub (some .get) true [.line 1] false false, .sub none true [.line 2] false false] false false]).traced
      = [2] := by
  decide +kernel

/-- Where tracing was off, using a property turns it on. -/
theorem c89_on_witness :
    (runItems ⟨true, fun _ => false⟩ false false [.sub (some .get) true [.line 1] false false]).tracing = true := by
  decide +kernel

/-- With three parts the command fails half done. -/
theorem c89_command_witness :
    setTrace { deleter := true } c!"true;true;true" = (⟨true, true, true, true⟩, true) := by decide +kernel

end TraceProp
