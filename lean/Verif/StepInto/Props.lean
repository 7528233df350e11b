import Verif.StepInto.Model
/-!
# C82: stepping into a chosen call
-/
namespace StepInto

/-! ## Which calls there are -/

/-- The line of a call is among those asked for. -/
def InRange (lo hi : Nat) (c : Call) : Prop := lo ≤ c.pos.line ∧ c.pos.line ≤ hi

instance (lo hi : Nat) (c : Call) : Decidable (InRange lo hi c) := by unfold InRange; infer_instance

/-- The calls of a code object and the code objects it loads. -/
def Code.calls : Code → List Call
  | .mk cs _ => cs

def Code.consts : Code → List Code
  | .mk _ ks => ks

/-- Places in a file, in order. -/
def upTo (l c l' c' : Nat) : Prop := l < l' ∨ l = l' ∧ c ≤ c'

/-- Inside means it neither begins before nor ends after. -/
theorem c82_inside (a b : Pos) :
    isInside a b = true ↔ upTo b.line b.startCol a.line a.startCol ∧ upTo a.endLine a.endCol b.endLine b.endCol := by
  unfold isInside upTo
  split
  · simp; omega
  · split
    · simp; omega
    · split
      · simp; omega
      · simp; omega

theorem attach_calls (ts : List Target) (t : Target) : (attach ts t).map Target.call = ts.map Target.call := by
  induction ts with
  | nil => rfl
  | cons a ts ih =>
    obtain ⟨c, cs⟩ := a
    rw [attach]
    split
    · rfl
    · simp only [List.map_cons, ih]

theorem foldl_attach_calls (l ts : List Target) : (l.foldl attach ts).map Target.call = ts.map Target.call := by
  induction l generalizing ts with
  | nil => rfl
  | cons t l ih => rw [List.foldl_cons, ih, attach_calls]

theorem targets_calls (code : Code) : (targets code).map Target.call = code.calls := by
  obtain ⟨calls, consts⟩ := code
  rw [targets, foldl_attach_calls, List.map_map]
  simp [Code.calls, Function.comp_def, Target.call]

theorem targetsAll_calls (ks : List Code) : (targetsAll ks).map Target.call = ks.flatMap Code.calls := by
  induction ks with
  | nil => rw [targetsAll]; rfl
  | cons k ks ih => rw [targetsAll, List.map_append, ih, targets_calls, List.flatMap_cons]

/-- What is attached to each target: those it is the first to contain. -/
theorem foldl_attach_children (l ts : List Target) (i : Nat) (t : Target) (ht : ts[i]? = some t) :
    ∃ t', (l.foldl attach ts)[i]? = some t' ∧ t'.call = t.call ∧
      t'.children = t.children ++ l.filter (fun x => isInside x.call.pos t.call.pos &&
        (ts.take i).all fun u => !isInside x.call.pos u.call.pos) := by
  induction l generalizing ts t with
  | nil => exact ⟨t, ht, rfl, by simp⟩
  | cons x l ih =>
    have step : ∀ (ts : List Target) (i : Nat) (t : Target), ts[i]? = some t → ∃ t1, (attach ts x)[i]? = some t1 ∧ t1.call = t.call ∧
        t1.children = t.children ++ (if isInside x.call.pos t.call.pos && (ts.take i).all fun u => !isInside x.call.pos u.call.pos then [x] else []) := by
      intro ts
      induction ts with
      | nil => intro i t h; simp at h
      | cons a ts ih2 =>
        intro i t h
        obtain ⟨c, cs⟩ := a
        rw [attach]
        cases i with
        | zero =>
          simp only [List.getElem?_cons_zero, Option.some.injEq] at h
          subst h
          by_cases hi : isInside x.call.pos c.pos
          · exact ⟨.mk c (cs ++ [x]), by simp [hi], rfl, by
              have : (Target.mk c cs).call = c := rfl
              rw [this]; simp [Target.children, hi]⟩
          · exact ⟨.mk c cs, by simp [hi], rfl, by
              have : (Target.mk c cs).call = c := rfl
              rw [this]; simp [Target.children, hi]⟩
        | succ i =>
          rw [List.getElem?_cons_succ] at h
          by_cases hi : isInside x.call.pos c.pos
          · refine ⟨t, by simp [hi, h], rfl, ?_⟩
            have : (Target.mk c cs).call = c := rfl
            simp [this, hi]
          · obtain ⟨t1, h1, h2, h3⟩ := ih2 i t h
            refine ⟨t1, by simp [hi, h1], h2, ?_⟩
            rw [h3]
            have : (Target.mk c cs).call = c := rfl
            simp [this, hi]
    obtain ⟨t1, h1, h2, h3⟩ := step ts i t ht
    rw [List.foldl_cons]
    obtain ⟨t2, g1, g2, g3⟩ := ih (attach ts x) t1 h1
    refine ⟨t2, g1, g2.trans h2, ?_⟩
    have htake : ∀ y : Target, ((attach ts x).take i).all (fun u => !isInside y.call.pos u.call.pos) =
        (ts.take i).all (fun u => !isInside y.call.pos u.call.pos) := by
      intro y
      have := congrArg (fun l => (l.take i).all fun c => !isInside y.call.pos c.pos) (attach_calls ts x)
      simpa [← List.map_take, List.all_map, Function.comp_def] using this
    rw [g3, h3, h2]
    simp only [htake, List.filter_cons]
    split <;> simp

/-- To each call of the code are attached, in order, the calls of the code objects it loads, and no
others, which are inside it and inside no call before it. -/
theorem c82_children (code : Code) (i : Nat) (c : Call) (hc : code.calls[i]? = some c) :
    ∃ t, (targets code)[i]? = some t ∧ t.call = c ∧
      t.children.map Target.call = (code.consts.flatMap Code.calls).filter fun x =>
        isInside x.pos c.pos && (code.calls.take i).all fun u => !isInside x.pos u.pos := by
  obtain ⟨calls, consts⟩ := code
  have h0 : (calls.map fun c => Target.mk c [])[i]? = some (.mk c []) := by
    rw [List.getElem?_map]; simp only [Code.calls] at hc; rw [hc]; rfl
  obtain ⟨t, h1, h2, h3⟩ := foldl_attach_children (targetsAll consts) _ i _ h0
  refine ⟨t, by rw [targets]; exact h1, h2, ?_⟩
  rw [h3]
  simp only [Target.children, List.nil_append, Code.consts, ← targetsAll_calls, Code.calls, List.filter_map]
  congr 1
  apply List.filter_congr
  intro x _
  simp [Target.call, Function.comp_def, ← List.map_take, List.all_map]

/-! ## Variants -/

theorem allSome_iff (l : List (Option Variant)) (vs : List Variant) : allSome l = some vs ↔ l = vs.map some := by
  induction l generalizing vs with
  | nil => cases vs <;> simp [allSome]
  | cons a l ih =>
    cases a with
    | none => cases vs <;> simp [allSome]
    | some v =>
      simp only [allSome, Option.map_eq_some_iff, ih]
      constructor
      · rintro ⟨a, rfl, rfl⟩; rfl
      · intro h
        cases vs with
        | nil => simp at h
        | cons w ws =>
          simp only [List.map_cons, List.cons.injEq, Option.some.injEq] at h
          exact ⟨ws, h.2, by rw [h.1]⟩

theorem filterMap_id_some (vs : List Variant) : (vs.map some).filterMap id = vs := by
  induction vs with
  | nil => rfl
  | cons v vs ih => simp [ih]

/-- One target gives its variant if its line is in range. -/
theorem convert_call (lo hi lasti : Nat) (t : Target) (cache cache' : Cache) (v : Option Variant)
    (h : convert lo hi lasti t cache = some (cache', v)) :
    v.map Variant.call = if InRange lo hi t.call then some t.call else none := by
  obtain ⟨c, cs⟩ := t
  rw [convert] at h
  show v.map Variant.call = if InRange lo hi c then some c else none
  by_cases h1 : c.pos.line > hi
  · rw [if_pos h1] at h; simp only [Option.some.injEq, Prod.mk.injEq] at h
    rw [← h.2, if_neg (by unfold InRange; omega)]; rfl
  · rw [if_neg h1] at h
    by_cases h2 : c.pos.line < lo
    · rw [if_pos h2] at h; simp only [Option.some.injEq, Prod.mk.injEq] at h
      rw [← h.2, if_neg (by unfold InRange; omega)]; rfl
    · rw [if_neg h2] at h
      simp only at h
      split at h
      · simp at h
      · split at h
        · simp at h
        · simp only [Option.some.injEq, Prod.mk.injEq] at h
          rw [← h.2, if_pos (by unfold InRange; omega)]; rfl

theorem convertAll_calls (lo hi lasti : Nat) (ts : List Target) (cache cache' : Cache) (vs : List (Option Variant))
    (h : convertAll lo hi lasti ts cache = some (cache', vs)) :
    (vs.filterMap id).map Variant.call = (ts.map Target.call).filter (InRange lo hi ·) := by
  induction ts generalizing cache vs with
  | nil => simp only [convertAll, Option.some.injEq, Prod.mk.injEq] at h; rw [← h.2]; rfl
  | cons t ts ih =>
    rw [convertAll] at h
    split at h
    · simp at h
    · rename_i c1 v hv
      split at h
      · simp at h
      · rename_i c2 vs' hvs
        simp only [Option.some.injEq, Prod.mk.injEq] at h
        obtain ⟨rfl, rfl⟩ := h
        have := convert_call lo hi lasti t cache c1 v hv
        rw [List.map_cons, List.filter_cons]
        by_cases hr : InRange lo hi t.call
        · rw [if_pos hr] at this
          cases v with
          | none => simp at this
          | some v => simp only [Option.map_some, Option.some.injEq] at this; simp [hr, ih c1 vs' hvs, this]
        · rw [if_neg hr] at this
          cases v with
          | none => simp [hr, ih c1 vs' hvs]
          | some v => simp at this

/-- The calls listed for a frame are exactly those of its code with a line among those asked for, each
once and in order. -/
theorem c82_listed (code : Code) (lo hi lasti : Nat) (vs : List Variant) (h : calculate code lo hi lasti = some vs) :
    vs.map Variant.call = code.calls.filter (InRange lo hi ·) := by
  unfold calculate at h
  rw [Option.map_eq_some_iff] at h
  obtain ⟨⟨c, r⟩, h1, rfl⟩ := h
  rw [← targets_calls]
  exact convertAll_calls lo hi lasti _ _ _ _ h1

theorem convertAll_visited (lo hi lasti : Nat) (ts : List Target) (cache cache' : Cache) (vs : List (Option Variant))
    (h : convertAll lo hi lasti ts cache = some (cache', vs)) :
    ∀ v ∈ vs.filterMap id, v.visited = decide (v.call.offset ≤ lasti) := by
  induction ts generalizing cache vs with
  | nil => simp only [convertAll, Option.some.injEq, Prod.mk.injEq] at h; rw [← h.2]; simp
  | cons t ts ih =>
    rw [convertAll] at h
    split at h
    · simp at h
    · rename_i c1 v hv
      split at h
      · simp at h
      · rename_i c2 vs' hvs
        simp only [Option.some.injEq, Prod.mk.injEq] at h
        obtain ⟨rfl, rfl⟩ := h
        intro w hw
        rw [List.mem_filterMap] at hw
        obtain ⟨o, ho, rfl⟩ := hw
        rcases List.mem_cons.1 ho with ho | ho
        · subst ho
          obtain ⟨c, cs⟩ := t
          rw [convert] at hv
          split at hv
          · simp at hv
          · split at hv
            · simp at hv
            · simp only at hv
              split at hv
              · simp at hv
              · split at hv
                · simp at hv
                · simp only [Option.some.injEq, Prod.mk.injEq] at hv
                  rw [← hv.2]; rfl
        · exact ih c1 vs' hvs w (List.mem_filterMap.2 ⟨_, ho, rfl⟩)

/-- Passed are those calls of the frame's code at or before the instruction it is at. -/
theorem c82_passed (code : Code) (lo hi lasti : Nat) (vs : List Variant) (h : calculate code lo hi lasti = some vs) :
    ∀ v ∈ vs, v.visited = true ↔ v.call.offset ≤ lasti := by
  unfold calculate at h
  rw [Option.map_eq_some_iff] at h
  obtain ⟨⟨c, r⟩, h1, rfl⟩ := h
  intro v hv
  rw [convertAll_visited lo hi lasti _ _ _ _ h1 v hv]
  simp

mutual
/-- All lines of a target and those attached to it are in range. -/
def Target.AllIn (lo hi : Nat) : Target → Prop
  | .mk c cs => InRange lo hi c ∧ allIn lo hi cs
def allIn (lo hi : Nat) : List Target → Prop
  | [] => True
  | t :: ts => t.AllIn lo hi ∧ allIn lo hi ts
end

mutual
theorem convert_ok (lo hi lasti : Nat) : ∀ (t : Target) (cache : Cache), t.AllIn lo hi →
    ∃ c v, convert lo hi lasti t cache = some (c, some v)
  | .mk c cs, cache, h => by
    rw [Target.AllIn] at h
    obtain ⟨cache2, vs, hv⟩ := convertAll_ok lo hi lasti cs (cache.bump c.name) h.2
    have h1 := h.1
    unfold InRange at h1
    rw [convert, if_neg (by omega), if_neg (by omega)]
    have := (allSome_iff (vs.map some) vs).2 rfl
    simp only [hv, this]
    exact ⟨_, _, rfl⟩
theorem convertAll_ok (lo hi lasti : Nat) : ∀ (ts : List Target) (cache : Cache), allIn lo hi ts →
    ∃ (c : Cache) (vs : List Variant), convertAll lo hi lasti ts cache = some (c, vs.map some)
  | [], cache, _ => ⟨cache, [], rfl⟩
  | t :: ts, cache, h => by
    rw [allIn] at h
    obtain ⟨c1, v, hv⟩ := convert_ok lo hi lasti t cache h.1
    obtain ⟨c2, vs, hvs⟩ := convertAll_ok lo hi lasti ts c1 h.2
    rw [convertAll]
    simp only [hv, hvs]
    exact ⟨c2, v :: vs, rfl⟩
end

mutual
/-- All calls of a code object and of those in it are in range. -/
def Code.AllIn (lo hi : Nat) : Code → Prop
  | .mk cs ks => (∀ c ∈ cs, InRange lo hi c) ∧ codesIn lo hi ks
def codesIn (lo hi : Nat) : List Code → Prop
  | [] => True
  | k :: ks => k.AllIn lo hi ∧ codesIn lo hi ks
end

theorem allIn_iff (lo hi : Nat) (ts : List Target) : allIn lo hi ts ↔ ∀ t ∈ ts, t.AllIn lo hi := by
  induction ts with
  | nil => simp [allIn]
  | cons t ts ih => rw [allIn, ih]; simp

theorem attach_allIn (lo hi : Nat) (ts : List Target) (t : Target) (h : allIn lo hi ts) (ht : t.AllIn lo hi) :
    allIn lo hi (attach ts t) := by
  induction ts with
  | nil => simp [attach, allIn]
  | cons a ts ih =>
    obtain ⟨c, cs⟩ := a
    rw [allIn, Target.AllIn] at h
    rw [attach]
    split
    · rw [allIn, Target.AllIn]
      refine ⟨⟨h.1.1, ?_⟩, h.2⟩
      rw [allIn_iff]
      intro x hx
      rcases List.mem_append.1 hx with hx | hx
      · exact (allIn_iff lo hi cs).1 h.1.2 x hx
      · simp at hx; rw [hx]; exact ht
    · rw [allIn, Target.AllIn]
      exact ⟨h.1, ih h.2⟩

mutual
theorem targets_allIn (lo hi : Nat) : ∀ (code : Code), code.AllIn lo hi → allIn lo hi (targets code)
  | .mk cs ks, h => by
    rw [Code.AllIn] at h
    have hk := targetsAll_allIn lo hi ks h.2
    rw [targets]
    have h0 : allIn lo hi (cs.map fun c => Target.mk c []) := by
      rw [allIn_iff]
      intro t ht
      obtain ⟨c, hc, rfl⟩ := List.mem_map.1 ht
      rw [Target.AllIn]
      exact ⟨h.1 c hc, by simp [allIn]⟩
    rw [allIn_iff] at hk
    refine List.foldlRecOn (motive := allIn lo hi) _ _ h0 ?_
    intro ts hts t ht
    exact attach_allIn lo hi ts t hts (hk t ht)
theorem targetsAll_allIn (lo hi : Nat) : ∀ (ks : List Code), codesIn lo hi ks → allIn lo hi (targetsAll ks)
  | [], _ => by simp [targetsAll, allIn]
  | k :: ks, h => by
    rw [codesIn] at h
    have h1 := targets_allIn lo hi k h.1
    have h2 := targetsAll_allIn lo hi ks h.2
    rw [targetsAll]
    rw [allIn_iff] at *
    intro t ht
    rcases List.mem_append.1 ht with ht | ht
    · exact h1 t ht
    · exact h2 t ht
end

/-- If all lines are in range (as they are in the requests of the DAP), there is no error. -/
theorem c82_no_error (code : Code) (lo hi lasti : Nat) (h : code.AllIn lo hi) : ∃ vs, calculate code lo hi lasti = some vs := by
  obtain ⟨c, vs, hv⟩ := convertAll_ok lo hi lasti (targets code) (fun _ => 0) (targets_allIn lo hi code h)
  exact ⟨_, by rw [calculate, hv]; rfl⟩

/-! ## Names -/

/-- Names numbered by how often they came before. -/
def Numbered (c : Cache) : List (String × Nat) → Prop
  | [] => True
  | (n, o) :: r => o = c n + 1 ∧ Numbered (c.bump n) r

def after (c : Cache) : List (String × Nat) → Cache
  | [] => c
  | (n, _) :: r => after (c.bump n) r

mutual
/-- Names and orders of a variant and those in it. -/
def Variant.keys : Variant → List (String × Nat)
  | .mk c _ o cs => (c.name, o) :: keysAll cs
def keysAll : List Variant → List (String × Nat)
  | [] => []
  | v :: vs => v.keys ++ keysAll vs
end

theorem numbered_append (c : Cache) (a b : List (String × Nat)) : Numbered c (a ++ b) ↔ Numbered c a ∧ Numbered (after c a) b := by
  induction a generalizing c with
  | nil => simp [Numbered, after]
  | cons x a ih => simp only [List.cons_append, Numbered, after, ih, and_assoc]

theorem after_append (c : Cache) (a b : List (String × Nat)) : after c (a ++ b) = after (after c a) b := by
  induction a generalizing c with
  | nil => rfl
  | cons x a ih => simp only [List.cons_append, after, ih]

theorem numbered_gt (c : Cache) (l : List (String × Nat)) (h : Numbered c l) (n : String) (o : Nat) (m : (n, o) ∈ l) : c n < o := by
  induction l generalizing c with
  | nil => simp at m
  | cons x l ih =>
    obtain ⟨n', o'⟩ := x
    rw [Numbered] at h
    rcases List.mem_cons.1 m with e | m
    · simp only [Prod.mk.injEq] at e
      rw [e.1, e.2, h.1]; omega
    · have := ih _ h.2 m
      unfold Cache.bump at this
      split at this
      · rename_i e; subst e; omega
      · exact this

theorem numbered_nodup (c : Cache) (l : List (String × Nat)) (h : Numbered c l) : l.Nodup := by
  induction l generalizing c with
  | nil => simp
  | cons x l ih =>
    obtain ⟨n, o⟩ := x
    rw [Numbered] at h
    rw [List.nodup_cons]
    refine ⟨?_, ih _ h.2⟩
    intro m
    have := numbered_gt _ _ h.2 n o m
    simp only [Cache.bump, if_true] at this
    omega

mutual
theorem convert_numbered (lo hi lasti : Nat) : ∀ (t : Target) (cache cache' : Cache) (v : Option Variant),
    convert lo hi lasti t cache = some (cache', v) →
    Numbered cache (keysAll v.toList) ∧ cache' = after cache (keysAll v.toList)
  | .mk c cs, cache, cache', v, h => by
    rw [convert] at h
    split at h
    · simp only [Option.some.injEq, Prod.mk.injEq] at h
      rw [← h.2, ← h.1]; exact ⟨trivial, rfl⟩
    · split at h
      · simp only [Option.some.injEq, Prod.mk.injEq] at h
        rw [← h.2, ← h.1]; exact ⟨trivial, rfl⟩
      · simp only at h
        split at h
        · simp at h
        · rename_i cache2 ws hws
          split at h
          · simp at h
          · rename_i vs hvs
            simp only [Option.some.injEq, Prod.mk.injEq] at h
            obtain ⟨h1, h2⟩ := convertAll_numbered lo hi lasti cs _ _ _ hws
            rw [allSome_iff] at hvs
            rw [hvs, filterMap_id_some] at h1 h2
            rw [← h.2, ← h.1]
            simp only [Option.toList_some, keysAll, Variant.keys, List.append_nil, Numbered, after]
            exact ⟨⟨by simp [Cache.bump], h1⟩, h2⟩
theorem convertAll_numbered (lo hi lasti : Nat) : ∀ (ts : List Target) (cache cache' : Cache) (vs : List (Option Variant)),
    convertAll lo hi lasti ts cache = some (cache', vs) →
    Numbered cache (keysAll (vs.filterMap id)) ∧ cache' = after cache (keysAll (vs.filterMap id))
  | [], cache, cache', vs, h => by
    simp only [convertAll, Option.some.injEq, Prod.mk.injEq] at h
    rw [← h.2, ← h.1]; exact ⟨trivial, rfl⟩
  | t :: ts, cache, cache', vs, h => by
    rw [convertAll] at h
    split at h
    · simp at h
    · rename_i c1 v hv
      split at h
      · simp at h
      · rename_i c2 vs' hvs
        simp only [Option.some.injEq, Prod.mk.injEq] at h
        obtain ⟨a1, a2⟩ := convert_numbered lo hi lasti t _ _ _ hv
        obtain ⟨b1, b2⟩ := convertAll_numbered lo hi lasti ts _ _ _ hvs
        rw [← h.2, ← h.1]
        have e : keysAll ((v :: vs').filterMap id) = keysAll v.toList ++ keysAll (vs'.filterMap id) := by
          cases v with
          | none => simp [keysAll]
          | some v => simp [keysAll]
        rw [e, numbered_append, after_append, ← a2]
        exact ⟨⟨a1, b1⟩, b2⟩
end

/-- No two calls offered have the same name and the same number. -/
theorem c82_named (code : Code) (lo hi lasti : Nat) (vs : List Variant) (h : calculate code lo hi lasti = some vs) :
    (keysAll vs).Nodup ∧ Numbered (fun _ => 0) (keysAll vs) := by
  unfold calculate at h
  rw [Option.map_eq_some_iff] at h
  obtain ⟨⟨c, r⟩, h1, rfl⟩ := h
  have := (convertAll_numbered lo hi lasti _ _ _ _ h1).1
  exact ⟨numbered_nodup _ _ this, this⟩

/-! ## The targets offered -/

/-- All there is to offer: of the calls not passed yet those in other code objects, or themselves. -/
def all (vs : List Variant) : List Entry :=
  vs.flatMap fun v =>
    if v.visited then []
    else if v.children ≠ [] then v.children.map fun w => ⟨w.call, w.order, some v.call.offset⟩
    else [⟨v.call, v.order, none⟩]

theorem take15 {α : Type} (a b : List α) (h : 15 ≤ a.length) : (a ++ b).take 15 = a.take 15 := by
  rw [List.take_append_of_le_length h]

theorem offerChildren_spec (p : Nat) (es : List Entry) (vs : List Variant) (h : es.length < 15) :
    (offerChildren p es vs = es ++ vs.map fun w => ⟨w.call, w.order, some p⟩) ∨
    ((offerChildren p es vs).length = 15 ∧ ∃ r, es ++ (vs.map fun w => (⟨w.call, w.order, some p⟩ : Entry)) = offerChildren p es vs ++ r) := by
  induction vs generalizing es with
  | nil => left; simp [offerChildren]
  | cons v vs ih =>
    rw [offerChildren]
    by_cases h15 : (es ++ [(⟨v.call, v.order, some p⟩ : Entry)]).length ≥ 15
    · right
      simp only [h15, if_true]
      simp at h15 ⊢
      omega
    · simp only [h15, if_false]
      rcases ih (es ++ [⟨v.call, v.order, some p⟩]) (by omega) with e | ⟨e1, r, e2⟩
      · left; rw [e]; simp
      · right; exact ⟨e1, r, by rw [← e2]; simp⟩

theorem offerChildren_grows (p : Nat) (es : List Entry) (vs : List Variant) : ∃ r, offerChildren p es vs = es ++ r := by
  induction vs generalizing es with
  | nil => exact ⟨[], by simp [offerChildren]⟩
  | cons v vs ih =>
    rw [offerChildren]
    split
    · exact ⟨_, rfl⟩
    · obtain ⟨r, hr⟩ := ih (es ++ [⟨v.call, v.order, some p⟩])
      exact ⟨_, by rw [hr, List.append_assoc]⟩

theorem offer_grows (es : List Entry) (vs : List Variant) : ∃ r, offer es vs = es ++ r := by
  induction vs generalizing es with
  | nil => exact ⟨[], by simp [offer]⟩
  | cons v vs ih =>
    rw [offer]
    split
    · exact ih es
    · split
      · obtain ⟨r, hr⟩ := offerChildren_grows v.call.offset es v.children
        obtain ⟨r', hr'⟩ := ih (offerChildren v.call.offset es v.children)
        exact ⟨r ++ r', by rw [hr', hr, List.append_assoc]⟩
      · simp only
        split
        · exact ⟨_, rfl⟩
        · obtain ⟨r, hr⟩ := ih (es ++ [⟨v.call, v.order, none⟩])
          exact ⟨_, by rw [hr, List.append_assoc]⟩

theorem offer_spec (es : List Entry) (vs : List Variant) (h : es.length < 15) :
    (offer es vs).take 15 = (es ++ all vs).take 15 := by
  induction vs generalizing es with
  | nil => simp [offer, all]
  | cons v vs ih =>
    rw [offer]
    have hall : all (v :: vs) = (if v.visited then []
        else if v.children ≠ [] then v.children.map fun w => ⟨w.call, w.order, some v.call.offset⟩
        else [⟨v.call, v.order, none⟩]) ++ all vs := by simp [all]
    rw [hall]
    by_cases hv : v.visited
    · simp only [hv, if_true, List.nil_append]; exact ih es h
    · simp only [hv, Bool.false_eq_true, if_false]
      by_cases hc : v.children ≠ []
      · rw [if_pos hc, if_pos hc]
        rcases offerChildren_spec v.call.offset es v.children h with e | ⟨e1, r, e2⟩
        · by_cases hl : (offerChildren v.call.offset es v.children).length < 15
          · rw [ih _ hl, e, List.append_assoc]
          · obtain ⟨r', hr'⟩ := offer_grows (offerChildren v.call.offset es v.children) vs
            rw [hr', ← List.append_assoc, ← e, take15 _ _ (by omega), take15 _ _ (by omega)]
        · obtain ⟨r', hr'⟩ := offer_grows (offerChildren v.call.offset es v.children) vs
          rw [hr', take15 _ _ (by omega), ← List.append_assoc, e2, List.append_assoc, take15 _ _ (by omega)]
      · rw [if_neg hc, if_neg hc]
        split
        · rename_i h15
          rw [← List.append_assoc, take15 _ _ h15]
        · rename_i h15
          rw [ih _ (by omega), List.append_assoc]

theorem offer_length (es : List Entry) (vs : List Variant) (h : es.length < 15) (hl : (es ++ all vs).length < 15) :
    offer es vs = es ++ all vs := by
  have h1 := offer_spec es vs h
  rw [List.take_of_length_le (by omega : (es ++ all vs).length ≤ 15)] at h1
  by_cases hlen : (offer es vs).length ≤ 15
  · rw [List.take_of_length_le hlen] at h1; exact h1
  · have := congrArg List.length h1
    rw [List.length_take, Nat.min_eq_left (by omega)] at this
    omega

/-- The targets offered begin with the first fifteen there are (with fewer, they are all), in order. The id
of a target is its place. -/
theorem c82_offered (vs : List Variant) :
    (offer [] vs).take 15 = (all vs).take 15 ∧ ((all vs).length < 15 → offer [] vs = all vs) := by
  constructor
  · simpa using offer_spec [] vs (by simp)
  · intro h
    simpa using offer_length [] vs (by simp) (by simpa using h)

/-! ## Looking up the call -/

theorem bisect_spec (a : Nat → Nat) (x lo hi : Nat) (n : Nat) (hn : hi - lo ≤ n) (hle : lo ≤ hi)
    (mono : ∀ i j, i < j → j < hi → a i < a j) (hlo : ∀ i, i < lo → a i ≤ x) :
    lo ≤ bisect a x lo hi ∧ bisect a x lo hi ≤ hi ∧ (∀ i, i < bisect a x lo hi → a i ≤ x) ∧
    (∀ i, bisect a x lo hi ≤ i → i < hi → x < a i) := by
  induction n generalizing lo hi with
  | zero =>
    rw [bisect, if_neg (by omega)]
    exact ⟨by omega, hle, hlo, fun i h1 h2 => by omega⟩
  | succ n ih =>
    rw [bisect]
    by_cases h : lo < hi
    · rw [if_pos h]
      have h1 : lo ≤ (lo + hi) / 2 := by omega
      have h2 : (lo + hi) / 2 < hi := by omega
      generalize (lo + hi) / 2 = mid at h1 h2 ⊢
      by_cases hx : x < a mid
      · rw [if_pos hx]
        obtain ⟨a1, a2, a3, a4⟩ := ih lo mid (by omega) h1 (fun i j h3 h4 => mono i j h3 (by omega)) hlo
        refine ⟨a1, by omega, a3, ?_⟩
        intro i h3 h4
        by_cases hm : i < mid
        · exact a4 i h3 hm
        · by_cases e : i = mid
          · rw [e]; exact hx
          · have := mono mid i (by omega) h4; omega
      · rw [if_neg hx]
        have hlo' : ∀ i, i < mid + 1 → a i ≤ x := by
          intro i h3
          by_cases e : i = mid
          · rw [e]; omega
          · have := mono i mid (by omega) h2; omega
        obtain ⟨a1, a2, a3, a4⟩ := ih (mid + 1) hi (by omega) (by omega) mono hlo'
        exact ⟨by omega, a2, a3, a4⟩
    · rw [if_neg h]
      exact ⟨by omega, hle, hlo, fun i h1 h2 => by omega⟩

/-- Variants in the order of their instructions. -/
def Ordered (vs : List Variant) : Prop := vs.Pairwise fun v w => v.call.offset < w.call.offset

/-- The variant found for an instruction is the last one not after it. -/
theorem c82_lookup (vs : List Variant) (ho : Ordered vs) (x i : Nat) :
    lookup x vs = some i ↔ ∃ v, vs[i]? = some v ∧ v.call.offset ≤ x ∧ ∀ w, vs[i + 1]? = some w → x < w.call.offset := by
  unfold lookup
  by_cases he : vs.isEmpty
  · simp only [he, if_true]
    rw [List.isEmpty_iff] at he
    subst he
    simp
  · simp only [he, Bool.false_eq_true, if_false]
    generalize hA : (fun k : Nat => (vs[k]?.map fun v : Variant => v.call.offset).getD 0) = A
    have hget : ∀ k (hk : k < vs.length), A k = vs[k].call.offset := by
      intro k hk; rw [← hA]; simp [List.getElem?_eq_getElem hk]
    have mono : ∀ i j, i < j → j < vs.length → A i < A j := by
      intro i j h1 h2
      rw [hget i (by omega), hget j h2]
      exact List.pairwise_iff_getElem.1 ho i j (by omega) h2 h1
    obtain ⟨-, b1, b2, b3⟩ := bisect_spec A x 0 vs.length vs.length (by omega) (by omega) mono (by simp)
    generalize bisect A x 0 vs.length = r at b1 b2 b3
    constructor
    · intro h
      split at h
      · simp at h
      · simp only [Option.some.injEq] at h
        have hi : i < vs.length := by omega
        refine ⟨vs[i], List.getElem?_eq_getElem hi, ?_, ?_⟩
        · rw [← hget i hi]; exact b2 i (by omega)
        · intro w hw
          obtain ⟨h1, h2⟩ := List.getElem?_eq_some_iff.1 hw
          rw [← h2, ← hget (i + 1) h1]
          exact b3 (i + 1) (by omega) h1
    · rintro ⟨v, h1, h2, h3⟩
      obtain ⟨hi, rfl⟩ := List.getElem?_eq_some_iff.1 h1
      rw [← hget i hi] at h2
      have hr1 : ¬ r ≤ i := by intro hr; have := b3 i hr hi; omega
      have hr2 : ¬ i + 1 < r := by
        intro hr
        have h4 : i + 1 < vs.length := by omega
        have h5 := h3 vs[i + 1] (List.getElem?_eq_getElem h4)
        rw [← hget (i + 1) h4] at h5
        have := b2 (i + 1) hr
        omega
      rw [if_neg (by omega), show r - 1 = i by omega]

theorem lookup_exact (vs : List Variant) (ho : Ordered vs) (i : Nat) (v : Variant) (h : vs[i]? = some v) :
    lookup v.call.offset vs = some i := by
  rw [c82_lookup vs ho]
  refine ⟨v, h, by omega, ?_⟩
  intro w hw
  obtain ⟨h1, rfl⟩ := List.getElem?_eq_some_iff.1 h
  obtain ⟨h2, rfl⟩ := List.getElem?_eq_some_iff.1 hw
  exact List.pairwise_iff_getElem.1 ho i (i + 1) h1 h2 (by omega)

theorem lookup_eq_iff (vs : List Variant) (ho : Ordered vs) (v w : Variant) (hv : v ∈ vs) (hw : w ∈ vs) :
    lookup v.call.offset vs = lookup w.call.offset vs ↔ v.call.offset = w.call.offset := by
  constructor
  · obtain ⟨i, hi⟩ := List.getElem?_of_mem hv
    obtain ⟨j, hj⟩ := List.getElem?_of_mem hw
    rw [lookup_exact vs ho i v hi, lookup_exact vs ho j w hj]
    intro h
    simp only [Option.some.injEq] at h
    subst h
    rw [hi] at hj
    simp only [Option.some.injEq] at hj
    rw [hj]
  · intro h; rw [h]

/-- The variants of a frame are in order if the instructions of its code are. -/
theorem c82_ordered (code : Code) (lo hi lasti : Nat) (vs : List Variant) (h : calculate code lo hi lasti = some vs)
    (hc : code.calls.Pairwise fun a b => a.offset < b.offset) : Ordered vs := by
  have hl := c82_listed code lo hi lasti vs h
  have : (vs.map Variant.call).Pairwise fun a b => a.offset < b.offset := by
    rw [hl]; exact hc.filter _
  rw [List.pairwise_map] at this
  exact this

/-! ## Where it stops -/

/-- Where the step into a call of the frame itself should stop: at a line of a function the frame called by
that instruction, or when the frame ends. -/
def target (frame offset : Nat) (e : Event) : Bool :=
  (!e.isLine && e.frame == frame) || (e.isLine && e.back == frame && e.backLasti == offset)

/-- A step into a call of the frame itself stops at the first event it should. Provided the functions the
frame calls are called by instructions which are listed. -/
theorem c82_stops (frame : Nat) (vs : List Variant) (ho : Ordered vs) (v : Variant) (hv : v ∈ vs) (es : List Event)
    (hes : ∀ e ∈ es, e.isLine = true → e.back = frame → ∃ w ∈ vs, w.call.offset = e.backLasti) :
    es.find? (stops frame vs (v.call.offset, none)) = es.find? (target frame v.call.offset) := by
  have hne : vs.isEmpty = false := by cases vs <;> simp_all
  have key : ∀ e ∈ es, stops frame vs (v.call.offset, none) e = target frame v.call.offset e := by
    intro e he
    unfold stops target
    cases hl : e.isLine with
    | false => by_cases hf : frame = e.frame <;> simp [hf, Ne.symm] <;> exact fun h => hf h.symm
    | true =>
      by_cases hb : frame = e.back
      · obtain ⟨w, hw, hwo⟩ := hes e he hl hb.symm
        have := lookup_eq_iff vs ho w v hw hv
        rw [hwo] at this
        by_cases h2 : e.backLasti = v.call.offset
        · simp [hb, hne, h2]
        · have h3 : lookup e.backLasti vs ≠ lookup v.call.offset vs := fun h => h2 (this.1 h)
          simp [hb, hne, h2, h3]
      · have hb' : ¬ e.back = frame := fun h => hb h.symm
        simp [hb, hb']
  induction es with
  | nil => rfl
  | cons e es ih =>
    rw [List.find?_cons, List.find?_cons, key e (by simp),
      ih (fun x hx => hes x (by simp [hx])) (fun x hx => key x (by simp [hx]))]

/-- Where the step into a call in another code object should stop: at a line of a function called by that
instruction of a frame called from the frame, or when the frame ends. -/
def targetIn (frame offset : Nat) (e : Event) : Bool :=
  (!e.isLine && e.frame == frame) || (e.isLine && e.back != frame && e.backBack == frame && e.backLasti == offset)

/-- A step into a call in another code object stops at the first event it should. Provided the code attached
to the call is one code object, in order, and while the step lasts no other function which the frame calls
calls functions. -/
theorem c82_stops_in (frame : Nat) (vs : List Variant) (ho : Ordered vs) (i : Nat) (v w : Variant) (hv : vs[i]? = some v)
    (hw : w ∈ v.children) (hco : Ordered v.children) (es : List Event)
    (hes : ∀ e ∈ es, e.isLine = true → e.backBack = frame → ∃ x ∈ v.children, x.call.offset = e.backLasti) :
    es.find? (stops frame vs (v.call.offset, some w.call.offset)) = es.find? (targetIn frame w.call.offset) := by
  have hne : vs.isEmpty = false := by cases vs <;> simp_all
  have hce : v.children.isEmpty = false := by
    cases h : v.children with
    | nil => rw [h] at hw; simp at hw
    | cons => rfl
  have hlook := lookup_exact vs ho i v hv
  have key : ∀ e ∈ es, stops frame vs (v.call.offset, some w.call.offset) e = targetIn frame w.call.offset e := by
    intro e he
    unfold stops targetIn
    simp only [hlook, hv, hne, Option.map_some, Option.getD_some, hce]
    cases hl : e.isLine with
    | false => by_cases hf : frame = e.frame <;> simp [hf] <;> exact fun h => hf h.symm
    | true =>
      by_cases hb : frame = e.back
      · simp [hb]
      · have hb' : ¬ e.back = frame := fun h => hb h.symm
        by_cases hbb : frame = e.backBack
        · obtain ⟨x, hx, hxo⟩ := hes e he hl hbb.symm
          have := lookup_eq_iff v.children hco x w hx hw
          rw [hxo] at this
          by_cases h2 : e.backLasti = w.call.offset
          · simp [hb, hb', ← hbb, h2]
          · have h3 : lookup e.backLasti v.children ≠ lookup w.call.offset v.children := fun h => h2 (this.1 h)
            simp [hb, hb', ← hbb, h2, h3]
        · have hbb' : ¬ e.backBack = frame := fun h => hbb h.symm
          simp [hb, hb', hbb, hbb']
  induction es with
  | nil => rfl
  | cons e es ih =>
    rw [List.find?_cons, List.find?_cons, key e (by simp),
      ih (fun x hx => hes x (by simp [hx])) (fun x hx => key x (by simp [hx]))]

/-- Choosing a target asks for the step into it: into the call itself, or, if it is attached to a call,
into the instruction of the attached one. With `c82_stops` and `c82_stops_in` this says where it stops. -/
theorem c82_request (vs : List Variant) (e : Entry) (he : e ∈ all vs) :
    (∃ v ∈ vs, v.visited = false ∧ v.call = e.call ∧ v.children = [] ∧ e.request = (v.call.offset, none)) ∨
    (∃ v ∈ vs, v.visited = false ∧ ∃ w ∈ v.children, w.call = e.call ∧ e.request = (v.call.offset, some w.call.offset)) := by
  unfold all at he
  rw [List.mem_flatMap] at he
  obtain ⟨v, hv, h⟩ := he
  by_cases hvis : v.visited = true
  · simp [hvis] at h
  · rw [if_neg hvis] at h
    simp only [Bool.not_eq_true] at hvis
    by_cases hc : v.children ≠ []
    · rw [if_pos hc] at h
      obtain ⟨w, hw, rfl⟩ := List.mem_map.1 h
      exact Or.inr ⟨v, hv, hvis, w, hw, rfl, rfl⟩
    · rw [if_neg hc] at h
      simp only [List.mem_singleton] at h
      subst h
      exact Or.inl ⟨v, hv, hvis, rfl, by simpa using hc, rfl⟩

/-! ## An example

`any(ok(x) for x in xs())`, with `ok` called in the code of the generator. -/

def okCall : Call := ⟨"ok", ⟨1, 1, 4, 9⟩, 8⟩
def xsCall : Call := ⟨"xs", ⟨1, 1, 19, 23⟩, 10⟩
def genCall : Call := ⟨"ok(x) for x in xs()", ⟨1, 1, 3, 24⟩, 20⟩
def anyCall : Call := ⟨"any", ⟨1, 1, 0, 24⟩, 30⟩

def exCode : Code := .mk [xsCall, genCall, anyCall] [.mk [okCall] []]

def exVariants : List Variant :=
  [.mk xsCall false 1 [], .mk genCall false 1 [.mk okCall false 1 []], .mk anyCall false 1 []]

def c82_example_events : List Event :=
  [⟨true, 2, 1, 10, 0⟩, ⟨false, 2, 1, 10, 0⟩, ⟨true, 3, 1, 20, 0⟩, ⟨true, 4, 3, 8, 1⟩, ⟨false, 1, 0, 5, 0⟩]

theorem c82_example :
    calculate exCode 0 100 5 = some exVariants ∧ Ordered exVariants ∧ exCode.AllIn 0 100 ∧
    (offer [] exVariants).map (fun e => (e.label, e.request)) = [("xs", 10, none), ("ok", 20, some 8), ("any", 30, none)] ∧
    (∀ e ∈ c82_example_events, e.isLine = true → e.back = 1 → ∃ w ∈ exVariants, w.call.offset = e.backLasti) ∧
    (∀ e ∈ c82_example_events, e.isLine = true → e.backBack = 1 →
      ∃ x ∈ (Variant.mk genCall false 1 [.mk okCall false 1 []]).children, x.call.offset = e.backLasti) ∧
    c82_example_events.find? (target 1 10) = some ⟨true, 2, 1, 10, 0⟩ ∧
    c82_example_events.find? (target 1 30) = some ⟨false, 1, 0, 5, 0⟩ ∧
    c82_example_events.find? (targetIn 1 8) = some ⟨true, 4, 3, 8, 1⟩ := by
  refine ⟨rfl, ?_, ?_, ?_, ?_, ?_, by decide, by decide, by decide⟩
  · simp [Ordered, exVariants, Variant.call, xsCall, genCall, anyCall]
  · simp [exCode, Code.AllIn, codesIn, InRange, xsCall, genCall, anyCall, okCall]
  · decide
  · simp [c82_example_events, exVariants, Variant.call, xsCall, genCall, anyCall]
  · simp [c82_example_events, Variant.children, Variant.call, okCall]

/-! ## Where the code falls short -/

/-- A function called by an instruction which is not listed (an operator, a property, `f(*a)`) stops the
step into the call before it: here the step into the call at 10 stops in what the instruction at 20 called. -/
theorem c82_unlisted_witness :
    stops 1 [.mk xsCall false 1 [], .mk anyCall false 1 []] (10, none) ⟨true, 7, 1, 20, 0⟩ = true ∧
    target 1 10 ⟨true, 7, 1, 20, 0⟩ = false := by
  constructor
  · simp [stops, lookup, bisect, Variant.call, xsCall, anyCall]
  · decide

/-- Two functions in one call: their instructions are told apart only by their offsets, so the step into
one stops in the other. -/
theorem c82_two_codes_witness :
    let a : Variant := .mk ⟨"a", ⟨1, 1, 10, 13⟩, 8⟩ false 1 []
    let b : Variant := .mk ⟨"b", ⟨1, 1, 20, 23⟩, 8⟩ false 1 []
    stops 1 [.mk anyCall false 1 [a, b]] (30, some 8) ⟨true, 7, 3, 8, 1⟩ = true ∧
    ((offer [] [.mk anyCall false 1 [a, b]]).map fun e => (e.call.name, e.request)) = [("a", 30, some 8), ("b", 30, some 8)] := by
  constructor
  · simp [stops, lookup, bisect, Variant.call, Variant.children, anyCall]
  · decide

/-- A call on a line outside those asked for, in a code object inside a call on a line in them, is an
error of the whole request. -/
theorem c82_range_witness :
    calculate (.mk [⟨"f", ⟨1, 2, 0, 9⟩, 10⟩] [.mk [⟨"g", ⟨2, 2, 2, 5⟩, 8⟩] []]) 1 1 0 = none := rfl

/-- The limit of fifteen ends only the inner loop. -/
theorem c82_limit_witness :
    (offer [] [.mk genCall false 1 (List.replicate 15 (.mk okCall false 1 [])), .mk anyCall false 1 []]).length = 16 := by
  decide

/-- A call passed already is not offered, though in a loop it is still to come. -/
theorem c82_loop_witness :
    (calculate exCode 0 100 15).map (fun vs => (offer [] vs).map Entry.label) = some ["ok", "any"] := by decide

/-- The calls in other code objects count as passed by their offsets, though these are not of the code of
the frame; since only the outer ones are asked, it does no harm. -/
theorem c82_child_visited_harmless (c : Call) (o p : Nat) (cs : List Variant) (es : List Entry) (b b' : Bool) (vs : List Variant) :
    offerChildren p es (.mk c b o cs :: vs) = offerChildren p es (.mk c b' o cs :: vs) := rfl

end StepInto
