import Verif.Reload.Model
/-!
# C79: what reloading a module does
-/
namespace Reload

/-! ## Specification -/

/-- The parts of an old and a new object which correspond: what both hold, or the attributes both
classes have by the same name. -/
def kids : Obj → Obj → List (Nat × Nat)
  | .method a, .method b => [(a, b)]
  | .classMethod a, .classMethod b => [(a, b)]
  | .staticMethod a, .staticMethod b => [(a, b)]
  | .cls m a, .cls m' b =>
    if m = m' then b.filterMap fun e => if special e.1 then none else (Py.Dict.get a e.1).map fun x => (x, e.2)
    else []
  | _, _ => []

/-- An old and a new object which correspond: bound to the same name of the module, or such parts of
objects which correspond. -/
inductive Pair (h : Nat → Obj) (mod new : Ns) : Nat → Nat → Prop
  | top {n : Name} {o g : Nat} (ho : Py.Dict.get mod n = some o) (hg : Py.Dict.get new n = some g) : Pair h mod new o g
  | kid {o g x y : Nat} (p : Pair h mod new o g) (ne : o ≠ g) (k : (x, y) ∈ kids (h o) (h g)) : Pair h mod new x y

/-- What an object should become: a function gets the new docstring and, if the code fits, the new
code (unless it does the same) and the new defaults; a class gets the names it did not have. -/
def updated : Obj → Obj → Obj
  | .func f, .func g =>
    .func { f with
      doc := g.doc
      code := if f.code.free = g.code.free ∧ f.code.body ≠ g.code.body then g.code else f.code
      defaults := if f.code.free = g.code.free then g.defaults else f.defaults }
  | .cls m a, .cls m' b => if m = m' then .cls m (a ++ newNames a b) else .cls m a
  | x, _ => x

/-- There is something new in it: code which fits and does something else, or a name. -/
def News : Obj → Obj → Prop
  | .func f, .func g => f.code.free = g.code.free ∧ f.code.body ≠ g.code.body
  | .cls m a, .cls m' b => m = m' ∧ newNames a b ≠ []
  | _, _ => False

/-- The nesting of what corresponds is less deep than Python's limit on recursion. -/
def Fits (h : Nat → Obj) : Nat → Nat → Nat → Prop
  | 0, _, _ => False
  | k + 1, o, g => o = g ∨ ∀ p ∈ kids (h o) (h g), Fits h k p.1 p.2

/-- What is asked of a module and of what running its file gave. -/
structure Fine (fuel : Nat) (h : Nat → Obj) (mod new : Ns) : Prop where
  /-- a namespace binds a name once -/
  newOk : Py.Dict.Ok new
  clsOk : ∀ o m a, h o = .cls m a → Py.Dict.Ok a
  /-- an old object corresponds to one new object -/
  one : ∀ o g g', Pair h mod new o g → Pair h mod new o g' → o ≠ g → o ≠ g' → g = g'
  /-- no object is both old and new (an object which is the same before and after is neither) -/
  apart : ∀ o g x, Pair h mod new o g → o ≠ g → Pair h mod new g x → g = x
  deep : ∀ n o g, Py.Dict.get mod n = some o → Py.Dict.get new n = some g → Fits h fuel o g

/-! ## Proof -/

section
variable (h : Nat → Obj) (mod new : Ns)

/-- Objects to be updated, and from what. -/
def T (o g : Nat) : Prop := Pair h mod new o g ∧ o ≠ g

/-- Every object is as it was or as it should become; and what was new was noticed. -/
structure Inv (s : State) : Prop where
  obj : ∀ x, s.heap x = h x ∨ ∃ g, T h mod new x g ∧ s.heap x = updated (h x) (h g)
  told : ∀ x g, T h mod new x g → News (h x) (h g) → s.heap x ≠ h x → s.changed = true
  why : s.changed = true →
    (∃ n g, Py.Dict.get mod n = none ∧ Py.Dict.get new n = some g) ∨ ∃ x g, T h mod new x g ∧ News (h x) (h g)

/-- An object is as it should become, and what is new was noticed. -/
def Done (s : State) (x : Nat) : Prop :=
  ∀ g, T h mod new x g → s.heap x = updated (h x) (h g) ∧ (News (h x) (h g) → s.changed = true)

/-- The pairs met below a pair. -/
inductive Below : Nat → Nat → Nat → Nat → Prop
  | refl (o g) : Below o g o g
  | step {o g a b x y} (ne : o ≠ g) (k : (a, b) ∈ kids (h o) (h g)) (t : Below a b x y) : Below o g x y

/-- What one step, or many, must give: the invariant stays, nothing done is undone. -/
structure Good (s s' : State) : Prop where
  inv : Inv h mod new s'
  keep : ∀ x, Done h mod new s x → Done h mod new s' x
  mod : s'.mod = s.mod

theorem Good.trans {s s' s'' : State} (a : Good h mod new s s') (b : Good h mod new s' s'') : Good h mod new s s'' :=
  ⟨b.inv, fun x d => b.keep x (a.keep x d), b.mod.trans a.mod⟩

end

theorem has_append (a b : Ns) (n : Name) : Py.Dict.has (a ++ b) n = (Py.Dict.has a n || Py.Dict.has b n) := by
  simp [Py.Dict.has]

theorem get_append (a b : Ns) (n : Name) : Py.Dict.get (a ++ b) n = (Py.Dict.get a n).or (Py.Dict.get b n) := by
  induction a with
  | nil => simp [Py.Dict.get_nil]
  | cons e a ih =>
    rw [List.cons_append, Py.Dict.get_cons, Py.Dict.get_cons]
    split
    · rfl
    · exact ih

theorem newNames_done (a b : Ns) : newNames (a ++ newNames a b) b = [] := by
  simp only [newNames, List.filter_eq_nil_iff]
  intro e he
  simp only [has_append, Bool.not_eq_true', Bool.or_eq_false_iff, not_and, Bool.not_eq_false]
  intro h1
  simp only [Py.Dict.has, List.any_eq_true, List.mem_filter]
  exact ⟨e, ⟨he, by simp only [Py.Dict.has] at h1; simp [h1]⟩, by simp⟩

theorem get_newNames (a b : Ns) (n : Name) :
    Py.Dict.get (newNames a b) n = if Py.Dict.has a n then none else Py.Dict.get b n := by
  induction b with
  | nil => simp [newNames, Py.Dict.get_nil]
  | cons e b ih =>
    simp only [newNames, List.filter_cons] at ih ⊢
    by_cases h : Py.Dict.has a e.1
    · simp only [h, Bool.not_true, Bool.false_eq_true, if_false, ih, Py.Dict.get_cons]
      by_cases he : e.1 = n
      · subst he; simp [h]
      · simp [he]
    · simp only [h, Bool.not_false, if_true, Py.Dict.get_cons, ih]
      by_cases he : e.1 = n
      · subst he; simp [h]
      · simp [he]

theorem update_self (k : Nat) (s : State) (x : Nat) : update k s x x = s := by
  cases k <;> simp [update]

theorem updated_idem (x y : Obj) : updated (updated x y) y = updated x y := by
  cases x <;> cases y <;> simp only [updated]
  · rename_i f g
    congr 1
    by_cases h1 : f.code.free = g.code.free <;> by_cases h2 : f.code.body = g.code.body <;> simp [h1, h2]
  · rename_i m a m' b
    by_cases e : m = m'
    · simp [e, newNames_done]
    · simp [e]

section
variable {h : Nat → Obj} {mod new : Ns}

/-- Putting the updated object in its place. -/
theorem good_put {s : State} (fuel : Nat) (fine : Fine fuel h mod new) (inv : Inv h mod new s) {o g : Nat} (t : T h mod new o g)
    {s' : State} (hh : ∀ i, s'.heap i = if i = o then updated (h o) (h g) else s.heap i) (hm : s'.mod = s.mod)
    (hc : s.changed = true → s'.changed = true) (hn : News (h o) (h g) → s'.changed = true)
    (hw : s'.changed = true → s.changed = true ∨ News (h o) (h g)) :
    Good h mod new s s' ∧ Done h mod new s' o := by
  have d : Done h mod new s' o := by
    intro g' t'
    have := fine.one o g g' t.1 t'.1 t.2 t'.2
    subst this
    exact ⟨by rw [hh, if_pos rfl], hn⟩
  refine ⟨⟨⟨?_, ?_, ?_⟩, ?_, hm⟩, d⟩
  · intro x
    by_cases e : x = o
    · subst e; exact .inr ⟨g, t, by rw [hh, if_pos rfl]⟩
    · rw [hh, if_neg e]; exact inv.obj x
  · intro x g' t' nw hne
    by_cases e : x = o
    · subst e; exact (d g' t').2 nw
    · rw [hh, if_neg e] at hne; exact hc (inv.told x g' t' nw hne)
  · intro hc'
    rcases hw hc' with hc' | hc'
    · exact inv.why hc'
    · exact .inr ⟨o, g, t, hc'⟩
  · intro x dx
    by_cases e : x = o
    · subst e; exact d
    · intro g' t'
      rw [hh, if_neg e]
      exact ⟨(dx g' t').1, fun nw => hc ((dx g' t').2 nw)⟩

theorem good_refl {s : State} (inv : Inv h mod new s) : Good h mod new s s := ⟨inv, fun _ d => d, rfl⟩

theorem below_kids_nil {o g x y : Nat} (e : kids (h o) (h g) = []) (b : Below h o g x y) : x = o ∧ y = g := by
  cases b with
  | refl => exact ⟨rfl, rfl⟩
  | step ne k t => rw [e] at k; simp at k

theorem update_good (fuel0 : Nat) (fine : Fine fuel0 h mod new) (fuel : Nat) (s : State) (o g : Nat)
    (inv : Inv h mod new s) (p : Pair h mod new o g) (fit : Fits h fuel o g) :
    Good h mod new s (update fuel s o g) ∧
    ∀ x y, Below h o g x y → x ≠ y → Done h mod new (update fuel s o g) x := by
  induction fuel generalizing s o g with
  | zero => exact absurd fit (by simp [Fits])
  | succ fuel ih =>
    by_cases e : o = g
    · subst e
      rw [update_self]
      refine ⟨good_refl inv, ?_⟩
      intro x y b ne
      cases b with
      | refl => exact absurd rfl ne
      | step ne' => exact absurd rfl ne'
    · have t : T h mod new o g := ⟨p, e⟩
      have hg : s.heap g = h g := by
        rcases inv.obj g with hg | ⟨g', t', _⟩
        · exact hg
        · exact absurd (fine.apart o g g' p e t'.1) t'.2
      have ho : s.heap o = h o ∨ s.heap o = updated (h o) (h g) := by
        rcases inv.obj o with ho | ⟨g', t', ho⟩
        · exact .inl ho
        · rw [fine.one o g g' p t'.1 e t'.2]; exact .inr ho
      have fk : ∀ q ∈ kids (h o) (h g), Fits h fuel q.1 q.2 := by
        rcases fit with fit | fit
        · exact absurd fit e
        · exact fit
      -- objects with nothing to update
      have idle : kids (h o) (h g) = [] → updated (h o) (h g) = h o → ¬ News (h o) (h g) → update (fuel + 1) s o g = s →
          Good h mod new s (update (fuel + 1) s o g) ∧
          ∀ x y, Below h o g x y → x ≠ y → Done h mod new (update (fuel + 1) s o g) x := by
        intro hk hu hn hs
        rw [hs]
        refine ⟨good_refl inv, ?_⟩
        intro x y b _
        obtain ⟨rfl, rfl⟩ := below_kids_nil hk b
        intro g' t'
        have := fine.one x y g' p t'.1 e t'.2
        subst this
        refine ⟨?_, fun hn' => absurd hn' hn⟩
        rcases ho with ho | ho
        · rw [ho, hu]
        · exact ho
      -- objects which hold one other
      have hold : ∀ a b, kids (h o) (h g) = [(a, b)] → updated (h o) (h g) = h o → ¬ News (h o) (h g) →
          update (fuel + 1) s o g = update fuel s a b →
          Good h mod new s (update (fuel + 1) s o g) ∧
          ∀ x y, Below h o g x y → x ≠ y → Done h mod new (update (fuel + 1) s o g) x := by
        intro a b hk hu hn hs
        rw [hs]
        obtain ⟨h1, h2⟩ := ih s a b inv (.kid p e (by simp [hk])) (fk (a, b) (by simp [hk]))
        refine ⟨h1, ?_⟩
        intro x y bl ne
        cases bl with
        | refl =>
          intro g' t'
          have := fine.one o g g' p t'.1 e t'.2
          subst this
          refine ⟨?_, fun hn' => absurd hn' hn⟩
          rw [hu]
          rcases h1.inv.obj o with ho | ⟨g', t'', ho⟩
          · exact ho
          · rw [ho, fine.one o g' g t''.1 p t''.2 e, hu]
        | step ne' k bl =>
          rw [hk] at k; simp at k
          rw [k.1, k.2] at bl
          exact h2 x y bl ne
      have hs : ∀ (X Y : Obj), s.heap o = X → h g = Y → update (fuel + 1) s o g =
          (match X, Y with
          | .func f, .func g => updateFunction s o f g
          | .method a, .method b => update fuel s a b
          | .classMethod a, .classMethod b => update fuel s a b
          | .staticMethod a, .staticMethod b => update fuel s a b
          | .cls m a, .cls m' b =>
            if m = m' then
              b.foldl (fun s e =>
                match Py.Dict.get a e.1 with
                | some x => if special e.1 then s else update fuel s x e.2
                | none => s) (addNames s o m a b)
            else s
          | _, _ => s) := by
        intro X Y hX hY
        rw [update, if_neg e, hg, hX, hY]
        rfl
      cases h1 : h o with
      | func f =>
        cases h2 : h g with
        | func f2 =>
          have ho' : ∃ f', s.heap o = .func f' ∧ (f' = f ∨ .func f' = updated (h o) (h g)) := by
            rcases ho with ho | ho
            · exact ⟨f, by rw [ho, h1], .inl rfl⟩
            · have ho2 := ho
              rw [h1, h2] at ho2; simp only [updated] at ho2
              exact ⟨_, ho2, .inr (by rw [h1, h2]; rfl)⟩
          obtain ⟨f', hf', hf⟩ := ho'
          have hs := hs _ _ hf' h2
          simp only at hs
          rw [hs]
          have cf : f'.code.free = f.code.free := by
            rcases hf with rfl | hf
            · rfl
            · rw [h1, h2] at hf; simp only [updated, Obj.func.injEq] at hf
              rw [hf]
              by_cases c : f.code.free = f2.code.free ∧ f.code.body ≠ f2.code.body
              · rw [if_pos c]; exact c.1.symm
              · rw [if_neg c]
          have val : Obj.func { f' with
              doc := f2.doc
              code := if f'.code.free = f2.code.free ∧ f'.code.body ≠ f2.code.body then f2.code else f'.code
              defaults := if f'.code.free = f2.code.free then f2.defaults else f'.defaults } = updated (h o) (h g) := by
            rcases hf with rfl | hf
            · rw [h1, h2]; rfl
            · have := updated_idem (h o) (h g)
              rw [← hf, h2] at this
              rw [← hf]
              rw [h2] at hf
              simpa only [updated] using this
          have key := good_put (s' := updateFunction s o f' f2) fuel0 fine inv t (by
            intro i
            rw [← val]
            unfold updateFunction codeEq
            by_cases c1 : f'.code.free = f2.code.free <;> by_cases c2 : f'.code.body = f2.code.body <;>
              simp [c1, c2, State.put]) (by
              unfold updateFunction; split
              · rfl
              · split <;> rfl) (by
              intro hc; unfold updateFunction; split
              · exact hc
              · split
                · rfl
                · exact hc) (by
              intro nw
              by_cases c : s.heap o = h o
              · have : f' = f := by rw [hf', h1] at c; simpa using c
                subst this
                rw [h1, h2] at nw
                simp only [News] at nw
                unfold updateFunction codeEq
                simp [nw.1, nw.2]
              · have := inv.told o g t nw c
                unfold updateFunction; split
                · exact this
                · split
                  · rfl
                  · exact this) (by
              unfold updateFunction codeEq
              by_cases c1 : f'.code.free = f2.code.free <;> by_cases c2 : f'.code.body = f2.code.body <;>
                simp [c1, c2, State.put] <;> try exact .inl
              rcases hf with rfl | hf
              · right; rw [h1, h2]; exact ⟨c1, c2⟩
              · rw [h1, h2] at hf
                simp only [updated, Obj.func.injEq] at hf
                rw [hf] at c2
                rw [cf] at c1
                by_cases c3 : f.code.body = f2.code.body <;> simp [c1, c3] at c2)
          refine ⟨key.1, ?_⟩
          intro x y b _
          obtain ⟨rfl, rfl⟩ := below_kids_nil (by rw [h1, h2]; rfl) b
          exact key.2
        | _ =>
          have ho : s.heap o = .func f := by rcases ho with ho | ho <;> rw [ho, h1] <;> rw [h2] <;> rfl
          exact idle (by rw [h1, h2]; rfl) (by rw [h1, h2]; rfl) (by rw [h1, h2]; simp [News]) (by rw [hs _ _ ho h2])
      | method a =>
        cases h2 : h g with
        | method b =>
          have ho : s.heap o = .method a := by rcases ho with ho | ho <;> rw [ho, h1] <;> rw [h2] <;> rfl
          exact hold a b (by rw [h1, h2]; rfl) (by rw [h1, h2]; rfl) (by rw [h1, h2]; simp [News]) (by rw [hs _ _ ho h2])
        | _ =>
          have ho : s.heap o = .method a := by rcases ho with ho | ho <;> rw [ho, h1] <;> rw [h2] <;> rfl
          exact idle (by rw [h1, h2]; rfl) (by rw [h1, h2]; rfl) (by rw [h1, h2]; simp [News]) (by rw [hs _ _ ho h2])
      | classMethod a =>
        cases h2 : h g with
        | classMethod b =>
          have ho : s.heap o = .classMethod a := by rcases ho with ho | ho <;> rw [ho, h1] <;> rw [h2] <;> rfl
          exact hold a b (by rw [h1, h2]; rfl) (by rw [h1, h2]; rfl) (by rw [h1, h2]; simp [News]) (by rw [hs _ _ ho h2])
        | _ =>
          have ho : s.heap o = .classMethod a := by rcases ho with ho | ho <;> rw [ho, h1] <;> rw [h2] <;> rfl
          exact idle (by rw [h1, h2]; rfl) (by rw [h1, h2]; rfl) (by rw [h1, h2]; simp [News]) (by rw [hs _ _ ho h2])
      | staticMethod a =>
        cases h2 : h g with
        | staticMethod b =>
          have ho : s.heap o = .staticMethod a := by rcases ho with ho | ho <;> rw [ho, h1] <;> rw [h2] <;> rfl
          exact hold a b (by rw [h1, h2]; rfl) (by rw [h1, h2]; rfl) (by rw [h1, h2]; simp [News]) (by rw [hs _ _ ho h2])
        | _ =>
          have ho : s.heap o = .staticMethod a := by rcases ho with ho | ho <;> rw [ho, h1] <;> rw [h2] <;> rfl
          exact idle (by rw [h1, h2]; rfl) (by rw [h1, h2]; rfl) (by rw [h1, h2]; simp [News]) (by rw [hs _ _ ho h2])
      | property_ a =>
        have ho : s.heap o = .property_ a := by rcases ho with ho | ho <;> rw [ho, h1] <;> cases h g <;> rfl
        exact idle (by rw [h1]; cases h g <;> rfl) (by rw [h1]; cases h g <;> rfl) (by rw [h1]; cases h g <;> simp [News])
          (by rw [hs _ _ ho rfl])
      | value a =>
        have ho : s.heap o = .value a := by rcases ho with ho | ho <;> rw [ho, h1] <;> cases h g <;> rfl
        exact idle (by rw [h1]; cases h g <;> rfl) (by rw [h1]; cases h g <;> rfl) (by rw [h1]; cases h g <;> simp [News])
          (by rw [hs _ _ ho rfl])
      | cls m a0 =>
        cases h2 : h g with
        | cls m' b =>
          by_cases em : m = m'
          · subst em
            have hu : updated (h o) (h g) = .cls m (a0 ++ newNames a0 b) := by rw [h1, h2]; simp [updated]
            have hkids : kids (h o) (h g) = b.filterMap fun e => if special e.1 then none else (Py.Dict.get a0 e.1).map fun x => (x, e.2) := by
              rw [h1, h2]; simp [kids]
            obtain ⟨a, ha, hcase⟩ : ∃ a, s.heap o = .cls m a ∧ (a = a0 ∨ a = a0 ++ newNames a0 b) := by
              rcases ho with ho | ho
              · exact ⟨a0, by rw [ho, h1], .inl rfl⟩
              · exact ⟨_, by rw [ho, hu], .inr rfl⟩
            have hs := hs _ _ ha h2
            simp only [if_true] at hs
            rw [hs]
            have k1 := good_put (s' := addNames s o m a b) fuel0 fine inv t (by
              intro i
              rw [hu]
              rcases hcase with rfl | rfl
              · simp [addNames, State.put]
              · simp [addNames, State.put, newNames_done]) rfl (by intro hc; simp [addNames, hc]) (by
              intro nw
              by_cases c : s.heap o = h o
              · rw [ha, h1] at c
                simp only [Obj.cls.injEq, true_and] at c
                subst c
                rw [h1, h2] at nw
                simp only [News, true_and] at nw
                simp [addNames, nw]
              · simp [addNames, inv.told o g t nw c]) (by
              intro hc
              simp only [addNames, Bool.or_eq_true] at hc
              rcases hc with hc | hc
              · exact .inl hc
              · rcases hcase with rfl | rfl
                · right; rw [h1, h2]; exact ⟨rfl, by simpa using hc⟩
                · simp [newNames_done] at hc)
            -- the loop over the names
            have loop : ∀ (l : Ns) (s1 : State), (∀ e ∈ l, e ∈ b) → Inv h mod new s1 →
                Good h mod new s1 (l.foldl (fun s e =>
                  match Py.Dict.get a e.1 with
                  | some x => if special e.1 then s else update fuel s x e.2
                  | none => s) s1) ∧
                ∀ e ∈ l, ∀ x, special e.1 = false → Py.Dict.get a0 e.1 = some x → ∀ u v, Below h x e.2 u v → u ≠ v →
                  Done h mod new (l.foldl (fun s e =>
                  match Py.Dict.get a e.1 with
                  | some x => if special e.1 then s else update fuel s x e.2
                  | none => s) s1) u := by
              intro l
              induction l with
              | nil => intro s1 _ inv1; exact ⟨good_refl inv1, by simp⟩
              | cons c l ihl =>
                intro s1 hl inv1
                rw [List.foldl_cons]
                have hc := hl c (by simp)
                by_cases hx : ∃ x, Py.Dict.get a0 c.1 = some x
                · obtain ⟨x, hx⟩ := hx
                  have hga : Py.Dict.get a c.1 = some x := by
                    rcases hcase with rfl | rfl
                    · exact hx
                    · rw [get_append, hx]; rfl
                  rw [hga]
                  by_cases sp : special c.1
                  · simp only [sp, if_true]
                    obtain ⟨i1, i2⟩ := ihl s1 (fun e he => hl e (by simp [he])) inv1
                    refine ⟨i1, ?_⟩
                    intro e he x' hsp
                    rcases List.mem_cons.1 he with rfl | he
                    · rw [sp] at hsp; simp at hsp
                    · exact i2 e he x' hsp
                  · simp only [sp, Bool.false_eq_true, if_false]
                    have mem : (x, c.2) ∈ kids (h o) (h g) := by
                      rw [hkids, List.mem_filterMap]
                      exact ⟨c, hc, by simp [sp, hx]⟩
                    obtain ⟨u1, u2⟩ := ih s1 x c.2 inv1 (.kid p e mem) (fk _ mem)
                    obtain ⟨i1, i2⟩ := ihl (update fuel s1 x c.2) (fun e he => hl e (by simp [he])) u1.inv
                    refine ⟨u1.trans _ _ _ i1, ?_⟩
                    intro e' he x' hsp hx'
                    rcases List.mem_cons.1 he with rfl | he
                    · rw [hx] at hx'; simp at hx'; subst hx'
                      intro u v bl ne
                      exact i1.keep u (u2 u v bl ne)
                    · exact i2 e' he x' hsp hx'
                · have hnone : Py.Dict.get a0 c.1 = none := by
                    cases hq : Py.Dict.get a0 c.1 with
                    | none => rfl
                    | some x => exact absurd ⟨x, hq⟩ hx
                  have same : (match Py.Dict.get a c.1 with
                      | some x => if special c.1 then s1 else update fuel s1 x c.2
                      | none => s1) = s1 := by
                    rcases hcase with rfl | rfl
                    · rw [hnone]
                    · rw [get_append, hnone, Option.none_or, get_newNames, Py.Dict.has_iff_get, hnone]
                      have : Py.Dict.get b c.1 = some c.2 := Py.Dict.get_of_mem (fine.clsOk g m b h2) hc
                      simp only [Option.isSome_none, Bool.false_eq_true, if_false, this, update_self, ite_self]
                  rw [same]
                  obtain ⟨i1, i2⟩ := ihl s1 (fun e he => hl e (by simp [he])) inv1
                  refine ⟨i1, ?_⟩
                  intro e' he x' hsp hx'
                  rcases List.mem_cons.1 he with rfl | he
                  · rw [hnone] at hx'; simp at hx'
                  · exact i2 e' he x' hsp hx'
            obtain ⟨l1, l2⟩ := loop b (addNames s o m a b) (fun _ he => he) k1.1.inv
            refine ⟨k1.1.trans _ _ _ l1, ?_⟩
            intro x y bl ne
            cases bl with
            | refl => exact l1.keep o k1.2
            | step ne' k bl =>
              rw [hkids, List.mem_filterMap] at k
              obtain ⟨c, hc, hk⟩ := k
              by_cases sp : special c.1
              · simp [sp] at hk
              · simp only [sp, Bool.false_eq_true, if_false, Option.map_eq_some_iff, Prod.mk.injEq] at hk
                obtain ⟨x', hx', rfl, rfl⟩ := hk
                exact l2 c hc x' (by simpa using sp) hx' x y bl ne
          · have ho : s.heap o = .cls m a0 := by rcases ho with ho | ho <;> rw [ho, h1] <;> rw [h2] <;> simp [updated, em]
            exact idle (by rw [h1, h2]; simp [kids, em]) (by rw [h1, h2]; simp [updated, em]) (by rw [h1, h2]; simp [News, em])
              (by rw [hs _ _ ho h2]; simp [em])
        | _ =>
          have ho : s.heap o = .cls m a0 := by rcases ho with ho | ho <;> rw [ho, h1] <;> rw [h2] <;> rfl
          exact idle (by rw [h1, h2]; rfl) (by rw [h1, h2]; rfl) (by rw [h1, h2]; simp [News]) (by rw [hs _ _ ho h2])

theorem below_snoc {o g x y u v : Nat} (b : Below h o g x y) (ne : x ≠ y) (k : (u, v) ∈ kids (h x) (h y)) :
    Below h o g u v := by
  induction b with
  | refl => exact .step ne k (.refl _ _)
  | step ne' k' _ ih => exact .step ne' k' (ih ne k)

theorem pair_below {x y : Nat} (p : Pair h mod new x y) :
    ∃ n o g, Py.Dict.get mod n = some o ∧ Py.Dict.get new n = some g ∧ Below h o g x y := by
  induction p with
  | top ho hg => exact ⟨_, _, _, ho, hg, .refl _ _⟩
  | kid p ne k ih =>
    obtain ⟨n, o, g, ho, hg, b⟩ := ih
    exact ⟨n, o, g, ho, hg, below_snoc b ne k⟩

end

/-- Once something was noticed to have changed, that stays. -/
theorem update_changed (fuel : Nat) (s : State) (o g : Nat) (hc : s.changed = true) : (update fuel s o g).changed = true := by
  induction fuel generalizing s o g with
  | zero => exact hc
  | succ fuel ih =>
    rw [update]
    split
    · exact hc
    · split
      · unfold updateFunction; split
        · exact hc
        · split
          · rfl
          · exact hc
      · exact ih _ _ _ hc
      · exact ih _ _ _ hc
      · exact ih _ _ _ hc
      · split
        · refine List.foldlRecOn (motive := fun s : State => s.changed = true) _ _ (by simp [addNames, hc]) ?_
          intro s1 h1 e _
          split
          · split
            · exact h1
            · exact ih _ _ _ h1
          · exact h1
        · exact hc
      · exact hc

/-- All that `apply` gives. -/
theorem apply_good (fuel : Nat) (s : State) (new : Ns) (fine : Fine fuel s.heap s.mod new) (hc : s.changed = false) :
    let s' := apply fuel s (some new)
    Inv s.heap s.mod new s' ∧ (∀ x, Done s.heap s.mod new s' x) ∧ s'.mod = s.mod ++ newNames s.mod new ∧
    (newNames s.mod new ≠ [] → s'.changed = true) := by
  have inv0 : Inv s.heap s.mod new
      { s with mod := s.mod ++ newNames s.mod new, changed := s.changed || !(newNames s.mod new).isEmpty } := by
    refine ⟨fun x => .inl rfl, fun x g t nw ne => absurd rfl ne, ?_⟩
    intro h1
    left
    simp only [hc, Bool.false_or, Bool.not_eq_true', List.isEmpty_eq_false_iff] at h1
    obtain ⟨e, he⟩ := List.exists_mem_of_ne_nil _ h1
    simp only [newNames, List.mem_filter, Bool.not_eq_true'] at he
    refine ⟨e.1, e.2, ?_, Py.Dict.get_of_mem fine.newOk he.1⟩
    rw [Py.Dict.has_iff_get] at he
    simpa using he.2
  have loop : ∀ (l : Ns) (s1 : State), (∀ e ∈ l, e ∈ new) → Inv s.heap s.mod new s1 →
      let s2 := l.foldl (fun s' e => match Py.Dict.get s.mod e.1 with
        | some o => update fuel s' o e.2
        | none => s') s1
      Good s.heap s.mod new s1 s2 ∧
      (s1.changed = true → s2.changed = true) ∧
      ∀ e ∈ l, ∀ o, Py.Dict.get s.mod e.1 = some o → ∀ x y, Below s.heap o e.2 x y → x ≠ y → Done s.heap s.mod new s2 x := by
    intro l
    induction l with
    | nil => intro s1 _ i; exact ⟨good_refl i, fun h => h, by simp⟩
    | cons c l ih =>
      intro s1 hl i
      rw [List.foldl_cons]
      cases hg : Py.Dict.get s.mod c.1 with
      | none =>
        obtain ⟨a, k, b⟩ := ih s1 (fun e he => hl e (by simp [he])) i
        refine ⟨a, k, ?_⟩
        intro e he o ho
        rcases List.mem_cons.1 he with rfl | he
        · rw [hg] at ho; simp at ho
        · exact b e he o ho
      | some o =>
        have hn := Py.Dict.get_of_mem fine.newOk (hl c (by simp))
        obtain ⟨u1, u2⟩ := update_good fuel fine fuel s1 o c.2 i (.top hg hn) (fine.deep _ _ _ hg hn)
        obtain ⟨a, k, b⟩ := ih (update fuel s1 o c.2) (fun e he => hl e (by simp [he])) u1.inv
        refine ⟨u1.trans _ _ _ a, fun h1 => k (update_changed fuel s1 o c.2 h1), ?_⟩
        intro e he o' ho
        rcases List.mem_cons.1 he with rfl | he
        · rw [hg] at ho; simp at ho; subst ho
          intro x y bl ne
          exact a.keep x (u2 x y bl ne)
        · exact b e he o' ho
  obtain ⟨a, k, b⟩ := loop new _ (fun _ h => h) inv0
  refine ⟨a.inv, ?_, a.mod, ?_⟩
  · intro x g t
    obtain ⟨n, o, g', ho, hg, bl⟩ := pair_below t.1
    exact b (n, g') (Py.Dict.mem_of_get hg) o ho x g bl t.2 g t
  · intro ne
    exact k (by simp [ne])

/-! ## The theorems -/

/-- Reloading removes no name of the module and binds none to something else; names it did not have
are bound to what the file gave. -/
theorem c79_names (fuel : Nat) (s : State) (new : Ns) (fine : Fine fuel s.heap s.mod new) (hc : s.changed = false) (n : Name) :
    Py.Dict.get (apply fuel s (some new)).mod n = (Py.Dict.get s.mod n).or (Py.Dict.get new n) := by
  rw [(apply_good fuel s new fine hc).2.2.1, get_append, get_newNames, Py.Dict.has_iff_get]
  cases Py.Dict.get s.mod n <;> simp

/-- Every object of the program which corresponds to a new one becomes what it should; every other one
stays as it was. -/
theorem c79_objects (fuel : Nat) (s : State) (new : Ns) (fine : Fine fuel s.heap s.mod new) (hc : s.changed = false) (x : Nat) :
    (∃ g, Pair s.heap s.mod new x g ∧ x ≠ g ∧ (apply fuel s (some new)).heap x = updated (s.heap x) (s.heap g)) ∨
    ((∀ g, Pair s.heap s.mod new x g → x = g) ∧ (apply fuel s (some new)).heap x = s.heap x) := by
  obtain ⟨inv, dn, -⟩ := apply_good fuel s new fine hc
  by_cases h : ∃ g, T s.heap s.mod new x g
  · obtain ⟨g, t⟩ := h
    exact .inl ⟨g, t.1, t.2, (dn x g t).1⟩
  · refine .inr ⟨fun g p => Decidable.byContradiction fun ne => h ⟨g, p, ne⟩, ?_⟩
    rcases inv.obj x with hx | ⟨g, t, _⟩
    · exact hx
    · exact absurd ⟨g, t⟩ h

/-- A function of the program which corresponds to a new one is still the same object with the same
globals, and when called does what the new one does with its defaults. -/
theorem c79_functions (fuel : Nat) (s : State) (new : Ns) (fine : Fine fuel s.heap s.mod new) (hc : s.changed = false)
    (o g : Nat) (p : Pair s.heap s.mod new o g) (e : o ≠ g) (f f' : Func) (ho : s.heap o = .func f) (hg : s.heap g = .func f')
    (free : f.code.free = f'.code.free) :
    ∃ r : Func, (apply fuel s (some new)).heap o = .func r ∧
      r.code.body = f'.code.body ∧ r.code.free = f'.code.free ∧ r.defaults = f'.defaults ∧ r.doc = f'.doc ∧
      r.globals = f.globals := by
  obtain ⟨_, dn, -⟩ := apply_good fuel s new fine hc
  have := (dn o g ⟨p, e⟩).1
  rw [ho, hg] at this
  simp only [updated] at this
  refine ⟨_, this, ?_, ?_, ?_, rfl, rfl⟩
  · simp only
    by_cases c : f.code.body = f'.code.body <;> simp [free, c]
  · simp only
    by_cases c : f.code.body = f'.code.body <;> simp [free, c]
  · simp [free]

/-- A class keeps every attribute it has, bound to the same object, and gets the new class's others. -/
theorem c79_classes (fuel : Nat) (s : State) (new : Ns) (fine : Fine fuel s.heap s.mod new) (hc : s.changed = false)
    (o g : Nat) (p : Pair s.heap s.mod new o g) (ne : o ≠ g) (m : Nat) (a b : Ns) (ho : s.heap o = .cls m a)
    (hg : s.heap g = .cls m b) :
    ∃ r, (apply fuel s (some new)).heap o = .cls m r ∧ ∀ n, Py.Dict.get r n = (Py.Dict.get a n).or (Py.Dict.get b n) := by
  obtain ⟨_, dn, -⟩ := apply_good fuel s new fine hc
  have := (dn o g ⟨p, ne⟩).1
  rw [ho, hg] at this
  simp only [updated, if_true] at this
  refine ⟨_, this, ?_⟩
  intro n
  rw [get_append, get_newNames, Py.Dict.has_iff_get]
  cases Py.Dict.get a n <;> simp

/-- Something is reported to have changed exactly if a name was added, to the module or to a class, or
a function got code which does something else. -/
theorem c79_reported (fuel : Nat) (s : State) (new : Ns) (fine : Fine fuel s.heap s.mod new) (hc : s.changed = false) :
    (apply fuel s (some new)).changed = true ↔
    (∃ n g, Py.Dict.get s.mod n = none ∧ Py.Dict.get new n = some g) ∨
    ∃ x g, Pair s.heap s.mod new x g ∧ x ≠ g ∧ News (s.heap x) (s.heap g) := by
  obtain ⟨inv, dn, _, hn⟩ := apply_good fuel s new fine hc
  constructor
  · intro h
    rcases inv.why h with h | ⟨x, g, t, nw⟩
    · exact .inl h
    · exact .inr ⟨x, g, t.1, t.2, nw⟩
  · rintro (⟨n, g, h1, h2⟩ | ⟨x, g, p, ne, nw⟩)
    · refine hn ?_
      intro e
      have := get_newNames s.mod new n
      rw [e, Py.Dict.has_iff_get, h1, h2] at this
      simp [Py.Dict.get_nil] at this
    · exact (dn x g ⟨p, ne⟩).2 nw

/-- If running the file raises, nothing is changed. -/
theorem c79_raises (fuel : Nat) (s : State) : apply fuel s none = s := rfl

/-! ## A case, and what reloading does not do -/

/-- A module with a function and a class with a method, and what its changed file gives: the function
with other code, the method with another default, a new method and a new function. -/
def exHeap : Nat → Obj
  | 0 => .func ⟨⟨1, 1, 0⟩, 0, 0, 0⟩
  | 1 => .cls 9 [("m", 2), ("__doc__", 20)]
  | 2 => .func ⟨⟨2, 5, 0⟩, 0, 0, 0⟩
  | 10 => .func ⟨⟨7, 1, 0⟩, 0, 0, 1⟩
  | 11 => .cls 9 [("m", 12), ("n", 14), ("__doc__", 21)]
  | 12 => .func ⟨⟨2, 6, 0⟩, 3, 0, 1⟩
  | 13 => .func ⟨⟨8, 9, 0⟩, 0, 0, 1⟩
  | 14 => .func ⟨⟨3, 7, 0⟩, 0, 0, 1⟩
  | _ => .value 0

def exMod : Ns := [("f", 0), ("C", 1), ("old", 30)]
def exNew : Ns := [("f", 10), ("C", 11), ("k", 13)]

theorem ex_pairs (o g : Nat) (p : Pair exHeap exMod exNew o g) : (o, g) ∈ [(0, 10), (1, 11), (2, 12)] := by
  induction p with
  | top ho hg =>
    have ho := Py.Dict.mem_of_get ho
    have hg := Py.Dict.mem_of_get hg
    simp only [exMod, exNew, List.mem_cons, Prod.mk.injEq, List.not_mem_nil, or_false] at ho hg
    rcases ho with ⟨h1, rfl⟩ | ⟨h1, rfl⟩ | ⟨h1, rfl⟩ <;> subst h1 <;> rcases hg with ⟨h2, rfl⟩ | ⟨h2, rfl⟩ | ⟨h2, rfl⟩ <;>
      first | (simp; done) | (exact absurd h2 (by decide))
  | kid p ne k ih =>
    simp only [List.mem_cons, Prod.mk.injEq, List.not_mem_nil, or_false] at ih
    rcases ih with ⟨rfl, rfl⟩ | ⟨rfl, rfl⟩ | ⟨rfl, rfl⟩
    · exact absurd k (by simp [kids, exHeap])
    · have : kids (exHeap 1) (exHeap 11) = [(2, 12)] := by decide
      rw [this] at k; simp at k; simp [k]
    · exact absurd k (by simp [kids, exHeap])

theorem ex_fine : Fine 5 exHeap exMod exNew := by
  refine ⟨by simp [Py.Dict.Ok, exNew], ?_, ?_, ?_, ?_⟩
  · intro o m a h
    simp only [exHeap] at h
    split at h <;> simp only [Obj.cls.injEq, reduceCtorEq] at h
    · rw [← h.2]; simp [Py.Dict.Ok]
    · rw [← h.2]; simp [Py.Dict.Ok]
  · intro o g g' p p' _ _
    have := ex_pairs _ _ p
    have := ex_pairs _ _ p'
    simp at *
    omega
  · intro o g x p _ p'
    have := ex_pairs _ _ p
    have := ex_pairs _ _ p'
    simp at *
    omega
  · intro n o g ho hg
    have := ex_pairs _ _ (.top ho hg)
    simp only [List.mem_cons, Prod.mk.injEq, List.not_mem_nil, or_false] at this
    rcases this with ⟨rfl, rfl⟩ | ⟨rfl, rfl⟩ | ⟨rfl, rfl⟩
    · simp [Fits, kids, exHeap]
    · have : kids (exHeap 1) (exHeap 11) = [(2, 12)] := by decide
      simp only [Fits, this]
      right
      intro p hp
      simp at hp
      subst hp
      simp [kids, exHeap]
    · simp [Fits, kids, exHeap]

/-- After reloading it: the new code and the new default are in the old functions, with the old
globals; the class has the new method; the module has the new function and still the old name. -/
theorem c79_example :
    let s := apply 5 ⟨exHeap, exMod, false⟩ (some exNew)
    s.mod = [("f", 0), ("C", 1), ("old", 30), ("k", 13)] ∧
    s.heap 0 = .func ⟨⟨7, 1, 0⟩, 0, 0, 0⟩ ∧
    s.heap 1 = .cls 9 [("m", 2), ("__doc__", 20), ("n", 14)] ∧
    s.heap 2 = .func ⟨⟨2, 5, 0⟩, 3, 0, 0⟩ ∧ s.changed = true := by decide

/-- Only a default was changed: the function has it, but nothing is reported to have changed. -/
theorem c79_default_not_reported_witness :
    let h : Nat → Obj := fun
      | 0 => .func ⟨⟨1, 1, 0⟩, 0, 0, 0⟩
      | _ => .func ⟨⟨1, 1, 0⟩, 5, 0, 1⟩
    let s := apply 5 ⟨h, [("f", 0)], false⟩ (some [("f", 1)])
    s.heap 0 = .func ⟨⟨1, 1, 0⟩, 5, 0, 0⟩ ∧ s.changed = false := by decide

/-- A function which only moved keeps its old lines: breakpoints set at its new lines are not hit, and
its frames show other lines than those it is at. -/
theorem c79_lines_witness :
    let h : Nat → Obj := fun
      | 0 => .func ⟨⟨1, 10, 0⟩, 0, 0, 0⟩
      | _ => .func ⟨⟨1, 20, 0⟩, 0, 0, 1⟩
    let s := apply 5 ⟨h, [("f", 0)], false⟩ (some [("f", 1)])
    s.heap 0 = .func ⟨⟨1, 10, 0⟩, 0, 0, 0⟩ := by decide

/-- A function which was added has the namespace the file was run in as its globals, not that of the
module (0): it does not see what the program assigns to the module's variables. -/
theorem c79_globals_witness :
    let s := apply 5 ⟨exHeap, exMod, false⟩ (some exNew)
    Py.Dict.get s.mod "k" = some 13 ∧ s.heap 13 = .func ⟨⟨8, 9, 0⟩, 0, 0, 1⟩ := by decide

/-- A class whose metaclass is defined in the module is not updated: the new class's type is the new
metaclass. -/
theorem c79_metaclass_witness :
    let h : Nat → Obj := fun
      | 0 => .cls 9 []
      | 1 => .cls 0 [("m", 2)]
      | 2 => .func ⟨⟨1, 1, 0⟩, 0, 0, 0⟩
      | 10 => .cls 9 []
      | 11 => .cls 10 [("m", 12)]
      | _ => .func ⟨⟨5, 1, 0⟩, 0, 0, 1⟩
    let s := apply 5 ⟨h, [("M", 0), ("C", 1)], false⟩ (some [("M", 10), ("C", 11)])
    s.heap 2 = .func ⟨⟨1, 1, 0⟩, 0, 0, 0⟩ ∧ s.changed = false := by decide

/-- The getter of a property is not updated. -/
theorem c79_property_witness :
    let h : Nat → Obj := fun
      | 0 => .cls 9 [("p", 1)]
      | 1 => .property_ 2
      | 2 => .func ⟨⟨1, 1, 0⟩, 0, 0, 0⟩
      | 10 => .cls 9 [("p", 11)]
      | 11 => .property_ 12
      | _ => .func ⟨⟨5, 1, 0⟩, 0, 0, 1⟩
    let s := apply 5 ⟨h, [("C", 0)], false⟩ (some [("C", 10)])
    s.heap 2 = .func ⟨⟨1, 1, 0⟩, 0, 0, 0⟩ ∧ s.changed = false := by decide

/-- The module had `from a import f as x` and now has `from b import g as x`: the function of module `a`
(0, with globals 50) gets the code of the one of module `b`, for all who use it. -/
theorem c79_library_witness :
    let h : Nat → Obj := fun
      | 0 => .func ⟨⟨1, 1, 0⟩, 0, 0, 50⟩
      | _ => .func ⟨⟨2, 1, 0⟩, 0, 0, 60⟩
    let s := apply 5 ⟨h, [("x", 0)], false⟩ (some [("x", 1)])
    s.heap 0 = .func ⟨⟨2, 1, 0⟩, 0, 0, 50⟩ := by decide

/-- Code which takes another number of variables from outside is not set, nor are the defaults; the
docstring is the new one's all the same. -/
theorem c79_closure_witness :
    let h : Nat → Obj := fun
      | 0 => .func ⟨⟨1, 1, 1⟩, 0, 0, 0⟩
      | _ => .func ⟨⟨2, 1, 2⟩, 4, 3, 1⟩
    let s := apply 5 ⟨h, [("f", 0)], false⟩ (some [("f", 1)])
    s.heap 0 = .func ⟨⟨1, 1, 1⟩, 0, 3, 0⟩ ∧ s.changed = false := by decide

end Reload
