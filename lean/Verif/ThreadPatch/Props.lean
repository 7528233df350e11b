import Verif.ThreadPatch.Model
/-!
C90: replacing the functions that start threads does not change what the program starts.
-/

namespace ThreadPatch

/-! ## Specification -/

/-- Python's objects: `()` is a tuple without elements, a tuple unpacks to its elements and a dict to its entries. -/
structure Env.Ok (e : Env) : Prop where
  unit : e.tuple e.unit = some []
  iter : ∀ o l, e.tuple o = some l → e.iter o = some l
  mapping : ∀ o l, e.dict o = some l → e.mapping o = some l

/-- A module before the debugger touches it: its functions that start threads are among `N`, those for joinable threads
among `J`. -/
structure Untouched (m : Module) (N J : Nat → Prop) : Prop where
  new : ∀ a ∈ [Attr._start_new_thread, .start_new_thread, .start_new], m a = none ∨ ∃ n, N n ∧ m a = some (.realNew n)
  join : ∀ a ∈ [Attr.start_joinable_thread, ._start_joinable_thread], m a = none ∨ ∃ n, J n ∧ m a = some (.realJoin n)
  origNew : m ._original_start_new_thread = none
  origJoin : m ._original_start_joinable_thread = none

/-- The names under which a module offers to start threads. -/
def names : List Attr := [._start_new_thread, .start_new_thread, .start_new, .start_joinable_thread, ._start_joinable_thread]

/-- Libraries put in only functions of their own, among `N` and `J`, under the names that start threads. -/
def Assigns (N J : Mod → Nat → Prop) (ops : List Op) : Prop := ∀ m a f, Op.assign m a f ∈ ops →
  (a ∈ [Attr._start_new_thread, .start_new_thread, .start_new] ∧ ∃ n, N m n ∧ f = .realNew n) ∨
  (a ∈ [Attr.start_joinable_thread, ._start_joinable_thread] ∧ ∃ n, J m n ∧ f = .realJoin n)

/-- No library puts in functions of its own. -/
def NoAssign (ops : List Op) : Prop := ∀ m a f, Op.assign m a f ∉ ops

/-- What the program sees of what a thread does. -/
def seen : List Event → List Event := List.filter fun ev => match ev with | .ran .. => true | _ => false

/-! ## Lemmas -/

theorem put_get (m : Module) (a b : Attr) (f : Option Fn) : m.put a f b = if b = a then f else m b := rfl

/-- The values a module may have, when `N` and `J` are the functions that were in it. -/
structure Inv (m0 m : Module) (N J : Nat → Prop) : Prop where
  new : ∀ a ∈ newAttrs, (m a = none ∧ m0 a = none) ∨ ∃ n, N n ∧ (m a = some (.realNew n) ∨ m a = some (.new (.realNew n)))
  join : ∀ a ∈ joinAttrs, (m a = none ∧ m0 a = none) ∨ ∃ n, J n ∧ (m a = some (.realJoin n) ∨ m a = some (.join (.realJoin n)))
  origNew : (∃ n, N n ∧ m ._original_start_new_thread = some (.realNew n)) ∨
    (m ._original_start_new_thread = none ∧ ∀ a ∈ newAttrs, m a = none ∨ ∃ n, N n ∧ m a = some (.realNew n))
  origJoin : (∃ n, J n ∧ m ._original_start_joinable_thread = some (.realJoin n)) ∨
    (m ._original_start_joinable_thread = none ∧ ∀ a ∈ joinAttrs, m a = none ∨ ∃ n, J n ∧ m a = some (.realJoin n))

theorem inv_start {m : Module} {N J : Nat → Prop} (h : Untouched m N J) : Inv m m N J := by
  refine ⟨?_, ?_, .inr ⟨h.origNew, h.new⟩, .inr ⟨h.origJoin, h.join⟩⟩
  · intro a ha; rcases h.new a ha with h | ⟨n, hn, h⟩
    · exact .inl ⟨h, h⟩
    · exact .inr ⟨n, hn, .inl h⟩
  · intro a ha; rcases h.join a ha with h | ⟨n, hn, h⟩
    · exact .inl ⟨h, h⟩
    · exact .inr ⟨n, hn, .inl h⟩

theorem names_eq : names = newAttrs ++ joinAttrs := rfl

theorem orig_not_names : Attr._original_start_new_thread ∉ names ∧ Attr._original_start_joinable_thread ∉ names := by decide

theorem fold_save (l : List Attr) (hl : ∀ a ∈ l, a ∈ names) (m : Module) :
    (∀ a ∈ names, l.foldl save m a = m a) ∧
    l.foldl save m ._original_start_new_thread =
      (m ._original_start_new_thread).or ((l.filter fun a => a ∉ joinAttrs).findSome? m) ∧
    l.foldl save m ._original_start_joinable_thread =
      (m ._original_start_joinable_thread).or ((l.filter fun a => a ∈ joinAttrs).findSome? m) := by
  induction l generalizing m with
  | nil => simp
  | cons x l ih =>
    obtain ⟨i1, i2, i3⟩ := ih (fun a ha => hl a (by simp [ha])) (save m x)
    have hx := hl x (by simp)
    have hs : ∀ a ∈ names, save m x a = m a := by
      intro a ha
      have h1 : a ≠ ._original_start_joinable_thread := fun h => orig_not_names.2 (h ▸ ha)
      have h2 : a ≠ ._original_start_new_thread := fun h => orig_not_names.1 (h ▸ ha)
      unfold save
      split <;> split <;> simp [put_get, h1, h2]
    have hf : ∀ q : Attr → Bool, (l.filter q).findSome? (save m x) = (l.filter q).findSome? m := by
      intro q
      have hq : ∀ a ∈ l.filter q, a ∈ names := fun a ha => hl a (by simp [(List.mem_filter.1 ha).1])
      generalize l.filter q = k at hq
      induction k with
      | nil => rfl
      | cons y k ih => rw [List.findSome?_cons, List.findSome?_cons, hs y (hq y (by simp)), ih (fun a ha => hq a (by simp [ha]))]
    simp only [List.foldl_cons]
    refine ⟨fun a ha => by rw [i1 a ha, hs a ha], ?_, ?_⟩
    · rw [i2, hf]
      by_cases hj : x ∈ joinAttrs
      · rw [List.filter_cons_of_neg (by simpa using hj)]
        congr 1
        simp only [save, hj, if_true]
        split <;> simp [put_get]
      · rw [List.filter_cons_of_pos (by simpa using hj), List.findSome?_cons]
        simp only [save, hj, if_false]
        cases h : m ._original_start_new_thread with
        | none => simp [put_get]; cases m x <;> simp
        | some f => simp [h]
    · rw [i3, hf]
      by_cases hj : x ∈ joinAttrs
      · rw [List.filter_cons_of_pos (by simpa using hj), List.findSome?_cons]
        simp only [save, hj, if_true]
        cases h : m ._original_start_joinable_thread with
        | none => simp [put_get]; cases m x <;> simp
        | some f => simp [h]
      · rw [List.filter_cons_of_neg (by simpa using hj)]
        congr 1
        simp only [save, hj, if_false]
        split <;> simp [put_get]

theorem fold_replace (o : Module) (l : List Attr) (m : Module) (a : Attr) :
    l.foldl (replace o) m a =
      if a ∈ l then (if a ∈ joinAttrs then (o ._original_start_joinable_thread).map .join else (o ._original_start_new_thread).map .new)
      else m a := by
  induction l generalizing m with
  | nil => simp
  | cons x l ih =>
    rw [List.foldl_cons, ih]
    by_cases hl : a ∈ l
    · simp [hl]
    · simp only [hl, if_false, List.mem_cons, or_false]
      by_cases hx : a = x
      · subst hx
        unfold replace
        split <;> simp [put_get]
      · unfold replace
        split <;> simp [put_get, hx]

/-- What a module has after it was patched. -/
theorem patch_get (m : Module) :
    (∀ a ∈ newAttrs, patchModule m a = if m a = none then none else (patchModule m ._original_start_new_thread).map .new) ∧
    (∀ a ∈ joinAttrs, patchModule m a = if m a = none then none else (patchModule m ._original_start_joinable_thread).map .join) ∧
    patchModule m ._original_start_new_thread = (m ._original_start_new_thread).or (newAttrs.findSome? m) ∧
    patchModule m ._original_start_joinable_thread = (m ._original_start_joinable_thread).or (joinAttrs.findSome? m) := by
  have hl : ∀ a ∈ (newAttrs ++ joinAttrs).filter (fun a => (m a).isSome), a ∈ names := fun a ha => (List.mem_filter.1 ha).1
  obtain ⟨h1, h2, h3⟩ := fold_save _ hl m
  have ho1 : patchModule m ._original_start_new_thread = (m ._original_start_new_thread).or (newAttrs.findSome? m) := by
    unfold patchModule
    rw [fold_replace, if_neg (fun h => orig_not_names.1 (hl _ h)), h2]
    congr 1
    simp only [newAttrs, joinAttrs, List.filter_cons, List.filter_nil, List.cons_append, List.nil_append]
    cases e1 : m ._start_new_thread <;> cases e2 : m .start_new_thread <;> cases e3 : m .start_new <;>
      cases m .start_joinable_thread <;> cases m ._start_joinable_thread <;> simp [e1, e2, e3]
  have ho2 : patchModule m ._original_start_joinable_thread = (m ._original_start_joinable_thread).or (joinAttrs.findSome? m) := by
    unfold patchModule
    rw [fold_replace, if_neg (fun h => orig_not_names.2 (hl _ h)), h3]
    congr 1
    simp only [newAttrs, joinAttrs, List.filter_cons, List.filter_nil, List.cons_append, List.nil_append]
    cases m ._start_new_thread <;> cases m .start_new_thread <;> cases m .start_new <;>
      cases e1 : m .start_joinable_thread <;> cases e2 : m ._start_joinable_thread <;> simp [e1, e2]
  refine ⟨?_, ?_, ho1, ho2⟩
  · intro a ha
    have hj : a ∉ joinAttrs := by revert a; decide
    have hn : a ∈ names := by rw [names_eq]; simp [ha]
    have : patchModule m ._original_start_new_thread = ((newAttrs ++ joinAttrs).filter (fun a => (m a).isSome)).foldl save m ._original_start_new_thread := by
      unfold patchModule
      rw [fold_replace, if_neg (fun h => orig_not_names.1 (hl _ h))]
    rw [this]
    unfold patchModule
    rw [fold_replace, h1 a hn]
    cases hm : m a <;> simp [ha, hj, hm]
  · intro a ha
    have hn : a ∈ names := by rw [names_eq]; simp [ha]
    have : patchModule m ._original_start_joinable_thread = ((newAttrs ++ joinAttrs).filter (fun a => (m a).isSome)).foldl save m ._original_start_joinable_thread := by
      unfold patchModule
      rw [fold_replace, if_neg (fun h => orig_not_names.2 (hl _ h))]
    rw [this]
    unfold patchModule
    rw [fold_replace, h1 a hn]
    cases hm : m a <;> simp [ha, hm]

/-- What a module has after the patching was undone. -/
theorem undo_get (m : Module) :
    (∀ a ∈ newAttrs, undoModule m a = (m ._original_start_new_thread).or (m a)) ∧
    (∀ a ∈ joinAttrs, undoModule m a = (m ._original_start_joinable_thread).or (m a)) ∧
    undoModule m ._original_start_new_thread = m ._original_start_new_thread ∧
    undoModule m ._original_start_joinable_thread = m ._original_start_joinable_thread := by
  have hp : ∀ (k : Module) (a b : Attr) (f : Fn), k.put a (some f) b = if b = a then some f else k b := fun _ _ _ _ => rfl
  unfold undoModule
  simp only [List.foldl_cons, List.foldl_nil, newAttrs, joinAttrs, restore, List.mem_cons, List.not_mem_nil, or_false]
  cases h1 : m ._original_start_new_thread <;> cases h2 : m ._original_start_joinable_thread <;>
    simp [h1, h2, hp] <;> grind

theorem inv_patch {m0 m : Module} {N J : Nat → Prop} (h : Inv m0 m N J) : Inv m0 (patchModule m) N J := by
  obtain ⟨p1, p2, p3, p4⟩ := patch_get m
  have ho1 : (∃ n, N n ∧ patchModule m ._original_start_new_thread = some (.realNew n)) ∨
      (patchModule m ._original_start_new_thread = none ∧ ∀ a ∈ newAttrs, m a = none) := by
    rw [p3]
    rcases h.origNew with ⟨n, hn, ho⟩ | ⟨ho, hn⟩
    · left; rw [ho]; exact ⟨n, hn, rfl⟩
    · rw [ho, Option.none_or]
      cases hf : newAttrs.findSome? m with
      | none => right; exact ⟨rfl, fun a ha => List.findSome?_eq_none_iff.1 hf a ha⟩
      | some f =>
        left
        obtain ⟨a, ha, hm⟩ := List.exists_of_findSome?_eq_some hf
        rcases hn a ha with hx | ⟨n, hn, hx⟩
        · rw [hx] at hm; cases hm
        · rw [hx] at hm; exact ⟨n, hn, hm.symm⟩
  have ho2 : (∃ n, J n ∧ patchModule m ._original_start_joinable_thread = some (.realJoin n)) ∨
      (patchModule m ._original_start_joinable_thread = none ∧ ∀ a ∈ joinAttrs, m a = none) := by
    rw [p4]
    rcases h.origJoin with ⟨n, hn, ho⟩ | ⟨ho, hn⟩
    · left; rw [ho]; exact ⟨n, hn, rfl⟩
    · rw [ho, Option.none_or]
      cases hf : joinAttrs.findSome? m with
      | none => right; exact ⟨rfl, fun a ha => List.findSome?_eq_none_iff.1 hf a ha⟩
      | some f =>
        left
        obtain ⟨a, ha, hm⟩ := List.exists_of_findSome?_eq_some hf
        rcases hn a ha with hx | ⟨n, hn, hx⟩
        · rw [hx] at hm; cases hm
        · rw [hx] at hm; exact ⟨n, hn, hm.symm⟩
  refine ⟨?_, ?_, ?_, ?_⟩
  · intro a ha
    rw [p1 a ha]
    by_cases hm : m a = none
    · rw [if_pos hm]
      rcases h.new a ha with ⟨_, h0⟩ | ⟨n, hn, hx | hx⟩
      · exact .inl ⟨rfl, h0⟩
      · rw [hm] at hx; cases hx
      · rw [hm] at hx; cases hx
    · rw [if_neg hm]
      rcases ho1 with ⟨n, hn, ho⟩ | ⟨_, ho⟩
      · rw [ho]; exact .inr ⟨n, hn, .inr rfl⟩
      · exact absurd (ho a ha) hm
  · intro a ha
    rw [p2 a ha]
    by_cases hm : m a = none
    · rw [if_pos hm]
      rcases h.join a ha with ⟨_, h0⟩ | ⟨n, hn, hx | hx⟩
      · exact .inl ⟨rfl, h0⟩
      · rw [hm] at hx; cases hx
      · rw [hm] at hx; cases hx
    · rw [if_neg hm]
      rcases ho2 with ⟨n, hn, ho⟩ | ⟨_, ho⟩
      · rw [ho]; exact .inr ⟨n, hn, .inr rfl⟩
      · exact absurd (ho a ha) hm
  · rcases ho1 with ho | ⟨ho, hn⟩
    · exact .inl ho
    · refine .inr ⟨ho, fun a ha => ?_⟩
      rw [p1 a ha, if_pos (hn a ha)]; exact .inl rfl
  · rcases ho2 with ho | ⟨ho, hn⟩
    · exact .inl ho
    · refine .inr ⟨ho, fun a ha => ?_⟩
      rw [p2 a ha, if_pos (hn a ha)]; exact .inl rfl

theorem inv_undo {m0 m : Module} {N J : Nat → Prop} (h : Inv m0 m N J) : Inv m0 (undoModule m) N J := by
  obtain ⟨u1, u2, u3, u4⟩ := undo_get m
  refine ⟨?_, ?_, ?_, ?_⟩
  · intro a ha
    rw [u1 a ha]
    rcases h.origNew with ⟨n, hn, ho⟩ | ⟨ho, _⟩
    · rw [ho]; exact .inr ⟨n, hn, .inl rfl⟩
    · rw [ho, Option.none_or]; exact h.new a ha
  · intro a ha
    rw [u2 a ha]
    rcases h.origJoin with ⟨n, hn, ho⟩ | ⟨ho, _⟩
    · rw [ho]; exact .inr ⟨n, hn, .inl rfl⟩
    · rw [ho, Option.none_or]; exact h.join a ha
  · rw [u3]
    rcases h.origNew with ho | ⟨ho, hn⟩
    · exact .inl ho
    · refine .inr ⟨ho, fun a ha => ?_⟩
      rw [u1 a ha, ho, Option.none_or]; exact hn a ha
  · rw [u4]
    rcases h.origJoin with ho | ⟨ho, hn⟩
    · exact .inl ho
    · refine .inr ⟨ho, fun a ha => ?_⟩
      rw [u2 a ha, ho, Option.none_or]; exact hn a ha

theorem inv_assign {m0 m : Module} {N J : Nat → Prop} (h : Inv m0 m N J) (a : Attr) (f : Fn)
    (ha : (a ∈ newAttrs ∧ ∃ n, N n ∧ f = .realNew n) ∨ (a ∈ joinAttrs ∧ ∃ n, J n ∧ f = .realJoin n)) : Inv m0 (m.put a (some f)) N J := by
  have d1 : ∀ x ∈ newAttrs, x ∉ joinAttrs := by decide
  have d2 : ∀ x ∈ newAttrs ++ joinAttrs, x ≠ ._original_start_new_thread ∧ x ≠ ._original_start_joinable_thread := by decide
  have hx : a ∈ newAttrs ++ joinAttrs := by rcases ha with ⟨h, _⟩ | ⟨h, _⟩ <;> simp [h]
  obtain ⟨e1, e2⟩ := d2 a hx
  have q1 : ∀ x ∈ newAttrs, m.put a (some f) x = m x ∨ ∃ n, N n ∧ m.put a (some f) x = some (.realNew n) := by
    intro x hx
    rw [put_get]
    split
    · rename_i he
      rcases ha with ⟨_, n, hn, rfl⟩ | ⟨hj, _⟩
      · exact .inr ⟨n, hn, rfl⟩
      · exact absurd hj (he ▸ d1 x hx)
    · exact .inl rfl
  have q2 : ∀ x ∈ joinAttrs, m.put a (some f) x = m x ∨ ∃ n, J n ∧ m.put a (some f) x = some (.realJoin n) := by
    intro x hx
    rw [put_get]
    split
    · rename_i he
      rcases ha with ⟨hj, _⟩ | ⟨_, n, hn, rfl⟩
      · exact absurd hx (he ▸ d1 a hj)
      · exact .inr ⟨n, hn, rfl⟩
    · exact .inl rfl
  refine ⟨?_, ?_, ?_, ?_⟩
  · intro x hx
    rcases q1 x hx with q | ⟨n, hn, q⟩
    · rw [q]; exact h.new x hx
    · exact .inr ⟨n, hn, .inl q⟩
  · intro x hx
    rcases q2 x hx with q | ⟨n, hn, q⟩
    · rw [q]; exact h.join x hx
    · exact .inr ⟨n, hn, .inl q⟩
  · rw [put_get, if_neg (fun h => e1 h.symm)]
    rcases h.origNew with ho | ⟨ho, hn⟩
    · exact .inl ho
    · refine .inr ⟨ho, fun x hx => ?_⟩
      rcases q1 x hx with q | q
      · rw [q]; exact hn x hx
      · exact .inr q
  · rw [put_get, if_neg (fun h => e2 h.symm)]
    rcases h.origJoin with ho | ⟨ho, hn⟩
    · exact .inl ho
    · refine .inr ⟨ho, fun x hx => ?_⟩
      rcases q2 x hx with q | q
      · rw [q]; exact hn x hx
      · exact .inr q

theorem inv_fold {m0 : Module} {N J : Mod → Nat → Prop} (m : Mod) (ops : List Op) (ho : Assigns N J ops) (s : State)
    (h : Inv m0 (s.module m) (N m) (J m)) : Inv m0 ((runOps s ops).module m) (N m) (J m) := by
  unfold runOps
  induction ops generalizing s with
  | nil => exact h
  | cons op ops ih =>
    refine ih (fun m a f hm => ho m a f (by simp [hm])) (step s op) ?_
    cases op with
    | patch => exact inv_patch h
    | undo => exact inv_undo h
    | enable => exact h
    | disable => exact h
    | assign m' a f =>
      simp only [step]
      split
      · rename_i he
        subst he
        exact inv_assign h a f (ho m a f (by simp))
      · exact h

theorem inv_run {s : State} {N J : Mod → Nat → Prop} (hs : ∀ m, Untouched (s.module m) (N m) (J m)) (ops : List Op)
    (ho : Assigns N J ops) (m : Mod) : Inv (s.module m) ((runOps s ops).module m) (N m) (J m) :=
  inv_fold m ops ho s (inv_start (hs m))

theorem wrapped_new (e : Env) (he : e.Ok) (tr : Bool) (n : Nat) (f : Obj) (pos : List Obj) (kw : List (Str × Obj)) (t0 : Thread)
    (h : realNewCall e n { function := .user f, pos, kw } = some t0) :
    (∃ args kw', t0 = { starter := .realNew n, function := .user f, args, kw := kw' }) ∧
    ∃ a k, call e tr (.new (.realNew n)) { function := .user f, pos, kw } =
      some { starter := .realNew n, function := .startup tr (.user f) a k } ∧
      unpack e.iter a = some t0.args ∧ unpack e.mapping k = some t0.kw := by
  unfold realNewCall at h
  split at h
  · cases h
  · rename_i hc
    simp only [not_or, Classical.not_not, Bool.not_eq_false] at hc
    obtain ⟨rfl, _⟩ := hc
    simp only at h
    split at h
    · rename_i a
      cases ha : e.tuple a with
      | none => simp [ha] at h
      | some args =>
        simp only [ha, Option.map_some, Option.some.injEq] at h
        subst h
        refine ⟨⟨args, [], rfl⟩, .object a, .empty, ?_, he.iter a args ha, rfl⟩
        simp [call, realNewCall, Callable.ok, he.unit]
    · rename_i a k
      cases ha : e.tuple a with
      | none => simp [ha] at h
      | some args =>
        cases hk : e.dict k with
        | none => simp [ha, hk] at h
        | some kw =>
          simp only [ha, hk, Option.map_some, Option.bind_some, Option.some.injEq] at h
          subst h
          refine ⟨⟨args, kw, rfl⟩, .object a, .object k, ?_, he.iter a args ha, he.mapping k kw hk⟩
          simp [call, realNewCall, Callable.ok, he.unit]
    · cases h

theorem wrapped_join (e : Env) (tr : Bool) (n : Nat) (f : Obj) (kw : List (Str × Obj)) (t0 : Thread)
    (h : realJoinCall e n { function := .user f, pos := [], kw } = some t0) :
    (∃ hd d, t0 = { starter := .realJoin n, function := .user f, handle := hd, daemon := d }) ∧
    ∃ a k, call e tr (.join (.realJoin n)) { function := .user f, pos := [], kw } =
      some { starter := .realJoin n, function := .startup tr (.user f) a k, handle := t0.handle, daemon := t0.daemon } ∧
      unpack e.iter a = some t0.args ∧ unpack e.mapping k = some t0.kw := by
  unfold realJoinCall at h
  split at h
  · cases h
  · rename_i hc
    simp only [not_or, Classical.not_not, Bool.not_eq_false] at hc
    obtain ⟨_, hk⟩ := hc
    simp only [Option.some.injEq] at h
    subst h
    refine ⟨⟨_, _, rfl⟩, .given [], .given [], ?_, rfl, rfl⟩
    simp only [hk, call]
    simp [realJoinCall, Callable.ok, dropKw, popKw]

/-- What a thread with a function of the program does when it was started through a wrapper. -/
theorem run_wrapped (e : Env) (w : World) (tr : Bool) (f : Obj) (a : Packed Obj) (k : Packed (Str × Obj)) (args : List Obj) (kw : List (Str × Obj))
    (ha : unpack e.iter a = some args) (hk : unpack e.mapping k = some kw) :
    run e w (.startup tr (.user f) a k) [] [] =
      if tr = true ∧ w.debugger = true ∧ w.own = false then
        ([.created, .traceOn, .ran f args kw, .traceOff, .notAlive], w.does f args kw)
      else ([.ran f args kw], w.does f args kw) := by
  simp only [run, ha, hk]
  cases tr <;> cases w.debugger <;> cases w.own <;> simp

/-- A thread started with the functions of the debugger is the one Python starts, but for what the debugger does around it. -/
def SameThread (e : Env) (traced : Bool) (t t0 : Thread) : Prop :=
  t.starter = t0.starter ∧ t.handle = t0.handle ∧ t.daemon = t0.daemon ∧
  ∀ w : World, (t.run e w).2 = (t0.run e w).2 ∧
    ((t.run e w).1 = (t0.run e w).1 ∨
      (traced = true ∧ w.debugger = true ∧ w.own = false ∧
        (t.run e w).1 = [.created, .traceOn] ++ (t0.run e w).1 ++ [.traceOff, .notAlive]))

theorem same_refl (e : Env) (traced : Bool) (t : Thread) : SameThread e traced t t := ⟨rfl, rfl, rfl, fun _ => ⟨rfl, .inl rfl⟩⟩

/-- Without other functions put in, each name has its function, or the debugger's for it. -/
theorem current {s : State} {n j : Mod → Nat} (hs : ∀ m, Untouched (s.module m) (· = n m) (· = j m)) (ops : List Op) (ho : NoAssign ops)
    (m : Mod) (a : Attr) (ha : a ∈ names) (f0 : Fn) (hf : s.module m a = some f0) :
    (a ∈ newAttrs ∧ f0 = .realNew (n m) ∧ ((runOps s ops).module m a = some f0 ∨ (runOps s ops).module m a = some (.new f0))) ∨
    (a ∈ joinAttrs ∧ f0 = .realJoin (j m) ∧ ((runOps s ops).module m a = some f0 ∨ (runOps s ops).module m a = some (.join f0))) := by
  have hi := inv_run hs ops (fun m a f h => absurd h (ho m a f)) m
  rw [names_eq, List.mem_append] at ha
  rcases ha with ha | ha
  · left
    rcases (hs m).new a ha with h0 | ⟨_, rfl, h0⟩
    · rw [hf] at h0; cases h0
    · rw [hf] at h0
      cases h0
      rcases hi.new a ha with ⟨_, h⟩ | ⟨_, rfl, h⟩
      · rw [hf] at h; cases h
      · exact ⟨ha, rfl, h⟩
  · right
    rcases (hs m).join a ha with h0 | ⟨_, rfl, h0⟩
    · rw [hf] at h0; cases h0
    · rw [hf] at h0
      cases h0
      rcases hi.join a ha with ⟨_, h⟩ | ⟨_, rfl, h⟩
      · rw [hf] at h; cases h
      · exact ⟨ha, rfl, h⟩

/-- **C90.** However often the modules were patched and the patching was undone, and tracing of new threads was turned on and off: a start
of a thread that Python accepts starts it with the same function of Python, once, with the same `handle` and `daemon`; the thread
runs the program's function once, with the same arguments, and ends as it ends. Around it, the debugger is told that the thread is there
and, also when it ends with an exception, that it is gone; or it is not told at all. -/
theorem c90_start (e : Env) (he : e.Ok) (s : State) (n j : Mod → Nat) (hs : ∀ m, Untouched (s.module m) (· = n m) (· = j m))
    (ops : List Op) (ho : NoAssign ops) (m : Mod) (a : Attr) (ha : a ∈ names) (f : Obj) (pos : List Obj) (kw : List (Str × Obj))
    (hpos : a ∈ [Attr.start_joinable_thread, ._start_joinable_thread] → pos = []) (t0 : Thread)
    (ht : start e s m a { function := .user f, pos, kw } = some t0) :
    (∃ args kw', ∀ w, t0.run e w = ([.ran f args kw'], w.does f args kw')) ∧
    ∃ t, start e (runOps s ops) m a { function := .user f, pos, kw } = some t ∧ SameThread e (runOps s ops).traced t t0 := by
  unfold start at ht
  cases hf : s.module m a with
  | none => rw [hf] at ht; cases ht
  | some f0 =>
    rw [hf, Option.bind_some] at ht
    rcases current hs ops ho m a ha f0 hf with ⟨_, rfl, hc⟩ | ⟨hj, rfl, hc⟩
    · simp only [call] at ht
      obtain ⟨⟨args, kw', rfl⟩, b, k, h1, h2, h3⟩ := wrapped_new e he (runOps s ops).traced (n m) f pos kw t0 ht
      refine ⟨⟨args, kw', fun w => rfl⟩, ?_⟩
      rcases hc with hc | hc
      · exact ⟨_, by simp only [start, hc, Option.bind_some, call]; exact ht, same_refl ..⟩
      · have hst : ∀ c, start e (runOps s ops) m a c = call e (runOps s ops).traced (.new (.realNew (n m))) c :=
          fun c => by simp only [start, hc, Option.bind_some]
        refine ⟨_, (hst _).trans h1, rfl, rfl, rfl, fun w => ?_⟩
        simp only [Thread.run, run_wrapped e w _ f b k args kw' h2 h3]
        split
        · rename_i hw
          exact ⟨rfl, .inr ⟨hw.1, hw.2.1, hw.2.2, rfl⟩⟩
        · exact ⟨rfl, .inl rfl⟩
    · have := hpos hj
      subst this
      simp only [call] at ht
      obtain ⟨⟨hd, d, rfl⟩, b, k, h1, h2, h3⟩ := wrapped_join e (runOps s ops).traced (j m) f kw t0 ht
      refine ⟨⟨[], [], fun w => rfl⟩, ?_⟩
      rcases hc with hc | hc
      · exact ⟨_, by simp only [start, hc, Option.bind_some, call]; exact ht, same_refl ..⟩
      · have hst : ∀ c, start e (runOps s ops) m a c = call e (runOps s ops).traced (.join (.realJoin (j m))) c :=
          fun c => by simp only [start, hc, Option.bind_some]
        refine ⟨_, (hst _).trans h1, rfl, rfl, rfl, fun w => ?_⟩
        simp only [Thread.run, run_wrapped e w _ f b k [] [] h2 h3]
        split
        · rename_i hw
          exact ⟨rfl, .inr ⟨hw.1, hw.2.1, hw.2.2, rfl⟩⟩
        · exact ⟨rfl, .inl rfl⟩

theorem run_append (s : State) (a b : List Op) : runOps s (a ++ b) = runOps (runOps s a) b := by simp [runOps]

theorem assigns_of_none {ops : List Op} (ho : NoAssign ops) (N J : Mod → Nat → Prop) : Assigns N J ops := fun m a f h => absurd h (ho m a f)

/-- undoing gives each name its function -/
theorem undo_value {m0 m : Module} {n j : Nat} (hu : Untouched m0 (· = n) (· = j)) (h : Inv m0 m (· = n) (· = j)) (a : Attr) (ha : a ∈ names)
    (f0 : Fn) (hf : m0 a = some f0) : undoModule m a = some f0 := by
  obtain ⟨u1, u2, _, _⟩ := undo_get m
  rw [names_eq, List.mem_append] at ha
  rcases ha with ha | ha
  · rcases hu.new a ha with h0 | ⟨_, rfl, h0⟩
    · rw [hf] at h0; cases h0
    · rw [hf] at h0; cases h0
      rw [u1 a ha]
      rcases h.origNew with ⟨_, rfl, hx⟩ | ⟨hx, hn⟩
      · rw [hx]; rfl
      · rw [hx, Option.none_or]
        rcases hn a ha with hm | ⟨_, rfl, hm⟩
        · rcases h.new a ha with ⟨_, hc⟩ | ⟨_, _, hc | hc⟩
          · rw [hf] at hc; cases hc
          · rw [hm] at hc; cases hc
          · rw [hm] at hc; cases hc
        · exact hm
  · rcases hu.join a ha with h0 | ⟨_, rfl, h0⟩
    · rw [hf] at h0; cases h0
    · rw [hf] at h0; cases h0
      rw [u2 a ha]
      rcases h.origJoin with ⟨_, rfl, hx⟩ | ⟨hx, hn⟩
      · rw [hx]; rfl
      · rw [hx, Option.none_or]
        rcases hn a ha with hm | ⟨_, rfl, hm⟩
        · rcases h.join a ha with ⟨_, hc⟩ | ⟨_, _, hc | hc⟩
          · rw [hf] at hc; cases hc
          · rw [hm] at hc; cases hc
          · rw [hm] at hc; cases hc
        · exact hm

/-- patching gives each name a function of the debugger -/
theorem patch_value {m0 m : Module} {n j : Nat} (h : Inv m0 m (· = n) (· = j)) (a : Attr) (hm : m a ≠ none) :
    (a ∈ newAttrs → patchModule m a = some (.new (.realNew n))) ∧ (a ∈ joinAttrs → patchModule m a = some (.join (.realJoin j))) := by
  obtain ⟨p1, p2, p3, p4⟩ := patch_get m
  constructor
  · intro ha
    rw [p1 a ha, if_neg hm]
    rcases (inv_patch h).origNew with ⟨_, rfl, hx⟩ | ⟨hx, hn⟩
    · rw [hx]; rfl
    · rw [p3] at hx
      cases ho : m ._original_start_new_thread with
      | some f => rw [ho] at hx; cases hx
      | none =>
        rw [ho, Option.none_or] at hx
        exact absurd (List.findSome?_eq_none_iff.1 hx a ha) hm
  · intro ha
    rw [p2 a ha, if_neg hm]
    rcases (inv_patch h).origJoin with ⟨_, rfl, hx⟩ | ⟨hx, hn⟩
    · rw [hx]; rfl
    · rw [p4] at hx
      cases ho : m ._original_start_joinable_thread with
      | some f => rw [ho] at hx; cases hx
      | none =>
        rw [ho, Option.none_or] at hx
        exact absurd (List.findSome?_eq_none_iff.1 hx a ha) hm

/-- **C90.** After the patching was undone, and not applied again, each name has its function again. -/
theorem c90_undone (s : State) (n j : Mod → Nat) (hs : ∀ m, Untouched (s.module m) (· = n m) (· = j m)) (pre post : List Op)
    (ho : NoAssign (pre ++ .undo :: post)) (hp : Op.patch ∉ post) (m : Mod) (a : Attr) (ha : a ∈ names) (f0 : Fn)
    (hf : s.module m a = some f0) : (runOps s (pre ++ .undo :: post)).module m a = some f0 := by
  have h1 : Inv (s.module m) ((runOps s pre).module m) (· = n m) (· = j m) :=
    inv_run hs pre (assigns_of_none (fun m a f h => ho m a f (by simp [h])) (fun m => (· = n m)) (fun m => (· = j m))) m
  rw [show pre ++ Op.undo :: post = (pre ++ [.undo]) ++ post by simp, run_append, run_append]
  have h2 : Inv (s.module m) ((runOps (runOps s pre) [.undo]).module m) (· = n m) (· = j m) := inv_undo h1
  have h3 : (runOps (runOps s pre) [.undo]).module m a = some f0 := undo_value (hs m) h1 a ha f0 hf
  generalize runOps (runOps s pre) [.undo] = s' at h2 h3
  have ho' : NoAssign post := fun m a f h => ho m a f (by simp [h])
  clear ho h1
  induction post generalizing s' with
  | nil => exact h3
  | cons op post ih =>
    have keep : Inv (s.module m) ((step s' op).module m) (· = n m) (· = j m) :=
      inv_fold (N := fun m => (· = n m)) (J := fun m => (· = j m)) m [op]
        (assigns_of_none (fun m a f h => ho' m a f (by simp at h; simp [h])) _ _) s' h2
    refine ih (fun h => hp (by simp [h])) (step s' op) keep ?_ (fun m a f h => ho' m a f (by simp [h]))
    cases op with
    | patch => exact absurd (by simp) hp
    | undo => exact undo_value (hs m) h2 a ha f0 hf
    | enable => exact h3
    | disable => exact h3
    | assign m' a' f' => exact absurd (by simp) (ho' m' a' f')

/-- The function of the debugger for a function of Python. -/
def wrapper : Fn → Fn
  | .realNew n => .new (.realNew n)
  | .realJoin n => .join (.realJoin n)
  | f => f

theorem patched (s : State) (n j : Mod → Nat) (hs : ∀ m, Untouched (s.module m) (· = n m) (· = j m)) (pre post : List Op)
    (ho : NoAssign (pre ++ .patch :: post)) (hp : Op.undo ∉ post) (m : Mod) (a : Attr) (ha : a ∈ names) (f0 : Fn)
    (hf : s.module m a = some f0) : (runOps s (pre ++ .patch :: post)).module m a = some (wrapper f0) := by
  have h1 : Inv (s.module m) ((runOps s pre).module m) (· = n m) (· = j m) :=
    inv_run hs pre (assigns_of_none (fun m a f h => ho m a f (by simp [h])) (fun m => (· = n m)) (fun m => (· = j m))) m
  rw [show pre ++ Op.patch :: post = (pre ++ [.patch]) ++ post by simp, run_append, run_append]
  have pv : ∀ k : Module, Inv (s.module m) k (· = n m) (· = j m) → patchModule k a = some (wrapper f0) := by
    intro k hk
    have ha' := ha
    rw [names_eq, List.mem_append] at ha'
    have hne : k a ≠ none := by
      intro hm
      rcases ha' with ha | ha
      · rcases hk.new a ha with ⟨_, hc⟩ | ⟨_, _, hc | hc⟩
        · rw [hf] at hc; cases hc
        · rw [hm] at hc; cases hc
        · rw [hm] at hc; cases hc
      · rcases hk.join a ha with ⟨_, hc⟩ | ⟨_, _, hc | hc⟩
        · rw [hf] at hc; cases hc
        · rw [hm] at hc; cases hc
        · rw [hm] at hc; cases hc
    obtain ⟨v1, v2⟩ := patch_value hk a hne
    rcases ha' with ha | ha
    · rcases (hs m).new a ha with h0 | ⟨_, rfl, h0⟩
      · rw [hf] at h0; cases h0
      · rw [hf] at h0; cases h0
        exact v1 ha
    · rcases (hs m).join a ha with h0 | ⟨_, rfl, h0⟩
      · rw [hf] at h0; cases h0
      · rw [hf] at h0; cases h0
        exact v2 ha
  have h2 : Inv (s.module m) ((runOps (runOps s pre) [.patch]).module m) (· = n m) (· = j m) := inv_patch h1
  have h3 : (runOps (runOps s pre) [.patch]).module m a = some (wrapper f0) := pv _ h1
  generalize runOps (runOps s pre) [.patch] = s' at h2 h3
  have ho' : NoAssign post := fun m a f h => ho m a f (by simp [h])
  clear ho h1
  induction post generalizing s' with
  | nil => exact h3
  | cons op post ih =>
    have keep : Inv (s.module m) ((step s' op).module m) (· = n m) (· = j m) :=
      inv_fold (N := fun m => (· = n m)) (J := fun m => (· = j m)) m [op]
        (assigns_of_none (fun m a f h => ho' m a f (by simp at h; simp [h])) _ _) s' h2
    refine ih (fun h => hp (by simp [h])) (step s' op) keep ?_ (fun m a f h => ho' m a f (by simp [h]))
    cases op with
    | patch => exact pv _ h2
    | undo => exact absurd (by simp) hp
    | enable => exact h3
    | disable => exact h3
    | assign m' a' f' => exact absurd (by simp) (ho' m' a' f')

/-- **C90.** After the modules were patched, and this was not undone: a thread started while tracing of new threads is on is announced to
the debugger before it runs the program's function and reported gone after it, however that ends. -/
theorem c90_told (e : Env) (he : e.Ok) (s : State) (n j : Mod → Nat) (hs : ∀ m, Untouched (s.module m) (· = n m) (· = j m))
    (pre post : List Op) (ho : NoAssign (pre ++ .patch :: post)) (hp : Op.undo ∉ post) (m : Mod) (a : Attr) (ha : a ∈ names) (f : Obj)
    (pos : List Obj) (kw : List (Str × Obj)) (hpos : a ∈ [Attr.start_joinable_thread, ._start_joinable_thread] → pos = []) (t0 t : Thread)
    (ht : start e s m a { function := .user f, pos, kw } = some t0)
    (ht' : start e (runOps s (pre ++ .patch :: post)) m a { function := .user f, pos, kw } = some t)
    (hon : (runOps s (pre ++ .patch :: post)).traced = true) (w : World) (hw : w.debugger = true) (hown : w.own = false) :
    (t.run e w).1 = [.created, .traceOn] ++ (t0.run e w).1 ++ [.traceOff, .notAlive] := by
  unfold start at ht ht'
  rw [hon] at ht'
  cases hf : s.module m a with
  | none => rw [hf] at ht; cases ht
  | some f0 =>
    rw [hf, Option.bind_some] at ht
    rw [patched s n j hs pre post ho hp m a ha f0 hf, Option.bind_some] at ht'
    have ha' := ha
    rw [names_eq, List.mem_append] at ha'
    rcases ha' with ha | ha
    · rcases (hs m).new a ha with h0 | ⟨_, rfl, h0⟩
      · rw [hf] at h0; cases h0
      · rw [hf] at h0; cases h0
        simp only [call] at ht
        obtain ⟨⟨args, kw', rfl⟩, b, k, h1, h2, h3⟩ := wrapped_new e he true (n m) f pos kw t0 ht
        rw [wrapper, h1] at ht'
        cases ht'
        simp only [Thread.run, run_wrapped e w _ f b k args kw' h2 h3]
        simp [hw, hown, run]
    · rcases (hs m).join a ha with h0 | ⟨_, rfl, h0⟩
      · rw [hf] at h0; cases h0
      · rw [hf] at h0; cases h0
        have := hpos ha
        subst this
        simp only [call] at ht
        obtain ⟨⟨hd, d, rfl⟩, b, k, h1, h2, h3⟩ := wrapped_join e true (j m) f kw t0 ht
        rw [wrapper, h1] at ht'
        cases ht'
        simp only [Thread.run, run_wrapped e w _ f b k [] [] h2 h3]
        simp [hw, hown, run]

/-- what a thread does that is given a function of the program, or a wrapper for one -/
theorem run_few (e : Env) (w : World) (f : Obj) (g : Callable) (args : List Obj) (kw : List (Str × Obj))
    (hg : g = .user f ∨ ∃ tr a k, g = .startup tr (.user f) a k) :
    (seen (run e w g args kw).1).length ≤ 1 ∧ (∀ h args' k, Event.ran h args' k ∈ (run e w g args kw).1 → h = f) ∧
      (run e w g args kw).1.count .created ≤ 1 ∧ (run e w g args kw).1.count .created = (run e w g args kw).1.count .notAlive := by
  rcases hg with rfl | ⟨tr, a, k, rfl⟩
  · simp only [run]
    refine ⟨by simp [seen], ?_, by simp, by simp⟩
    intro h args' k hm
    simp only [List.mem_singleton, Event.ran.injEq] at hm
    exact hm.1
  · simp only [run]
    split
    · simp [seen]
    · split <;> split <;> simp [seen, List.count_cons] <;> intros <;> assumption

/-- **C90, with libraries.** Also when libraries put in functions of their own, at any time: a start of a thread starts one thread, with one of the
functions that were ever in the module, and in it no function but the program's is called, that at most once, and it is announced at
most once and as often as it is reported gone. -/
theorem c90_libraries (e : Env) (s : State) (N J : Mod → Nat → Prop) (hs : ∀ m, Untouched (s.module m) (N m) (J m))
    (ops : List Op) (ho : Assigns N J ops) (m : Mod) (a : Attr) (ha : a ∈ names) (f : Obj) (pos : List Obj) (kw : List (Str × Obj)) (t : Thread)
    (ht : start e (runOps s ops) m a { function := .user f, pos, kw } = some t) :
    ((∃ n, N m n ∧ t.starter = .realNew n) ∨ ∃ n, J m n ∧ t.starter = .realJoin n) ∧
    ∀ w : World, (seen (t.run e w).1).length ≤ 1 ∧ (∀ g args k, Event.ran g args k ∈ (t.run e w).1 → g = f) ∧
      (t.run e w).1.count .created ≤ 1 ∧ (t.run e w).1.count .created = (t.run e w).1.count .notAlive := by
  have hi := inv_run hs ops ho m
  have rn : ∀ n c t, realNewCall e n c = some t → t.starter = .realNew n ∧ t.function = c.function := by
    intro n c t h
    unfold realNewCall at h
    split at h
    · cases h
    · split at h
      · obtain ⟨_, _, rfl⟩ := Option.map_eq_some_iff.1 h; exact ⟨rfl, rfl⟩
      · obtain ⟨_, _, h⟩ := Option.bind_eq_some_iff.1 h
        obtain ⟨_, _, rfl⟩ := Option.map_eq_some_iff.1 h; exact ⟨rfl, rfl⟩
      · cases h
  have rj : ∀ n c t, realJoinCall e n c = some t → t.starter = .realJoin n ∧ t.function = c.function := by
    intro n c t h
    unfold realJoinCall at h
    split at h
    · cases h
    · split at h <;> cases h <;> exact ⟨rfl, rfl⟩
  suffices h : ((∃ n, N m n ∧ t.starter = .realNew n) ∨ ∃ n, J m n ∧ t.starter = .realJoin n) ∧
      (t.function = .user f ∨ ∃ tr a k, t.function = .startup tr (.user f) a k) from
    ⟨h.1, fun w => run_few e w f t.function t.args t.kw h.2⟩
  unfold start at ht
  rw [names_eq, List.mem_append] at ha
  rcases ha with ha | ha
  · rcases hi.new a ha with ⟨h, _⟩ | ⟨n, hn, h | h⟩
    · rw [h] at ht; cases ht
    · rw [h, Option.bind_some, call] at ht
      obtain ⟨h1, h2⟩ := rn _ _ _ ht
      exact ⟨.inl ⟨n, hn, h1⟩, .inl h2⟩
    · rw [h, Option.bind_some] at ht
      simp only [call] at ht
      split at ht
      · obtain ⟨h1, h2⟩ := rn _ _ _ ht; exact ⟨.inl ⟨n, hn, h1⟩, .inr ⟨_, _, _, h2⟩⟩
      · obtain ⟨h1, h2⟩ := rn _ _ _ ht; exact ⟨.inl ⟨n, hn, h1⟩, .inr ⟨_, _, _, h2⟩⟩
      · obtain ⟨h1, h2⟩ := rn _ _ _ ht; exact ⟨.inl ⟨n, hn, h1⟩, .inr ⟨_, _, _, h2⟩⟩
      · cases ht
  · rcases hi.join a ha with ⟨h, _⟩ | ⟨n, hn, h | h⟩
    · rw [h] at ht; cases ht
    · rw [h, Option.bind_some, call] at ht
      obtain ⟨h1, h2⟩ := rj _ _ _ ht
      exact ⟨.inr ⟨n, hn, h1⟩, .inl h2⟩
    · rw [h, Option.bind_some] at ht
      simp only [call] at ht
      obtain ⟨h1, h2⟩ := rj _ _ _ ht
      exact ⟨.inr ⟨n, hn, h1⟩, .inr ⟨_, _, _, h2⟩⟩

/-! ## Cases, and what is not so -/

/-- Object 0 is `None`, 1 `True`, 2 `()`, 3 a tuple with 7 in it, 4 a dict, 5 a list; functions are from 100. -/
def py : Env where
  callable f := 100 ≤ f
  tuple o := if o = 2 then some [] else if o = 3 then some [7] else none
  dict o := if o = 4 then some [(c!"k", 8)] else none
  iter o := if o = 2 then some [] else if o = 3 then some [7] else if o = 5 then some [9] else none
  mapping o := if o = 4 then some [(c!"k", 8)] else none
  none_ := 0
  true_ := 1
  unit := 2

theorem py_ok : py.Ok := by
  refine ⟨rfl, ?_, ?_⟩
  · intro o l h
    simp only [py] at h ⊢
    split at h
    · rename_i h1; rw [if_pos h1]; exact h
    · rename_i h1
      split at h
      · rename_i h2; rw [if_neg h1, if_pos h2]; exact h
      · cases h
  · intro o l h; exact h

/-- `_thread` and `threading` of Python 3.13 -/
def py313 : State where
  module
    | ._thread => fun a => match a with
      | .start_new_thread | .start_new => some (.realNew 0)
      | .start_joinable_thread => some (.realJoin 1)
      | _ => none
    | .threading => fun a => match a with
      | ._start_joinable_thread => some (.realJoin 1)
      | _ => none

theorem py313_untouched : ∀ m, Untouched (py313.module m) (· = 0) (· = 1) := by
  intro m
  cases m <;> exact ⟨by simp [py313], by simp [py313], rfl, rfl⟩

/-- there is a debugger, and functions raise 1 -/
def world : World := ⟨true, false, fun _ _ _ => .raises 1⟩

theorem c90_example :
    ((start py (runOps py313 [.patch, .disable, .undo, .enable, .patch, .patch]) ._thread .start_new
      { function := .user 100, pos := [3, 4] }).map (·.run py world)) =
        some ([.created, .traceOn, .ran 100 [7] [(c!"k", 8)], .traceOff, .notAlive], .raises 1) ∧
    (start py py313 ._thread .start_new { function := .user 100, pos := [3, 4] }).isSome = true ∧
    (runOps py313 [.patch, .undo]).module .threading ._start_joinable_thread = some (.realJoin 1) ∧
    (start py (runOps py313 [.patch]) .threading ._start_joinable_thread
      { function := .user 100, kw := [(c!"handle", 20), (c!"daemon", 21)] }).map (fun t => (t.starter, t.handle, t.daemon)) =
        some (.realJoin 1, some 20, some 21) := by decide +kernel

/-- A handle given by position goes to the program's function instead. -/
theorem c90_position_witness :
    (start py py313 ._thread .start_joinable_thread { function := .user 100, pos := [20] }).map (fun t => (t.handle, (t.run py world).1)) =
      some (some 20, [.ran 100 [] []]) ∧
    (start py (runOps py313 [.patch, .disable]) ._thread .start_joinable_thread { function := .user 100, pos := [20] }).map
      (fun t => (t.handle, (t.run py world).1)) = some (some 0, [.ran 100 [20] []]) := by decide +kernel

/-- Calls that Python refuses are accepted, and fail, or not, in the new thread: something that cannot be called, and arguments
that are not a tuple. -/
theorem c90_errors_witness :
    start py py313 ._thread .start_new_thread { function := .user 100, pos := [5] } = none ∧
    (start py (runOps py313 [.patch]) ._thread .start_new_thread { function := .user 100, pos := [5] }).map (fun t => (t.run py world).1) =
      some [.created, .traceOn, .ran 100 [9] [], .traceOff, .notAlive] ∧
    start py py313 ._thread .start_new_thread { function := .user 100, pos := [0] } = none ∧
    (start py (runOps py313 [.patch]) ._thread .start_new_thread { function := .user 100, pos := [0] }).map (fun t => t.run py world) =
      some ([.created, .traceOn, .traceOff, .notAlive], .typeError) := by decide +kernel

/-- Undoing gives a module names it did not have: `_thread` gets `_start_new_thread` and `_start_joinable_thread`. -/
theorem c90_names_witness :
    py313.module ._thread ._start_new_thread = none ∧
    (runOps py313 [.patch, .undo]).module ._thread ._start_new_thread = some (.realNew 0) ∧
    (runOps py313 [.patch, .undo]).module .threading .start_joinable_thread = some (.realJoin 1) := by decide +kernel

/-- A function a library puts in after the first patching is forgotten at the next one, and undoing takes it away. -/
theorem c90_forgotten_witness :
    (start py (runOps py313 [.patch, .assign ._thread .start_new_thread (.realNew 5)]) ._thread .start_new_thread
      { function := .user 100, pos := [2] }).map (fun t => (t.starter, (t.run py world).1)) = some (.realNew 5, [.ran 100 [] []]) ∧
    (start py (runOps py313 [.patch, .assign ._thread .start_new_thread (.realNew 5), .patch]) ._thread .start_new_thread
      { function := .user 100, pos := [2] }).map (·.starter) = some (.realNew 0) ∧
    (runOps py313 [.patch, .assign ._thread .start_new_thread (.realNew 5), .undo]).module ._thread .start_new_thread = some (.realNew 0) := by
  decide +kernel

end ThreadPatch
