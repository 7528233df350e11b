import Verif.EvalName.Lemmas
/-!
C99: evaluating the expression given for a variable gives that variable.
-/

namespace EvalName

/-! ### The rows of a value -/

theorem mem_grouped {g : Groups} {v : Val} {l : List Row} {r : Row} (h : r ∈ grouped g v l)
    (hv : ∀ es, v ≠ .group es) : r.via = .nothing ∧ (∃ es, r.val = .group es) ∨ r ∈ l := by
  have : r ∈ groupRows g l ++ inlineRows g l := by
    cases v with
    | group es => exact absurd rfl (hv es)
    | obj n => exact h
    | num n => exact h
    | text => exact h
    | more => exact h
  rcases List.mem_append.mp this with h | h
  · left
    simp only [groupRows, List.mem_filterMap] at h
    obtain ⟨s, -, h⟩ := h
    split at h
    · cases h
    · cases h; exact ⟨rfl, _, rfl⟩
  · exact .inr ((List.mem_filter.mp h).1)

/-- What a row of an object is, and how Python gets at it. -/
theorem row_value {w : World} {lim : Limits} {n : Nat} {r : Row} (hw : w.Ok) (h : r ∈ objRows w lim n) :
    match r.via with
    | .attr a => ((w.obj n).get a).map Res.obj = r.val.shown
    | .dictAttr _ => True
    | .key k => subscript w n k = r.val.shown
    | .index i => subscript w n (.int i) = r.val.shown
    | .len => lenOf w n = r.val.shown
    | .nothing => True := by
  have hattr : r ∈ attrRows (w.obj n) → match r.via with
      | .attr a => ((w.obj n).get a).map Res.obj = r.val.shown
      | .dictAttr _ => True
      | _ => False := by
    intro h
    unfold attrRows at h
    split at h
    · simp only [List.mem_map] at h
      obtain ⟨x, -, rfl⟩ := h
      trivial
    · simp only [List.mem_map] at h
      obtain ⟨a, -, rfl⟩ := h
      show Option.map Res.obj ((w.obj n).get a) = (cell ((w.obj n).get a)).shown
      cases (w.obj n).get a <;> rfl
  have hattr' : r ∈ attrRows (w.obj n) → match r.via with
    | .attr a => ((w.obj n).get a).map Res.obj = r.val.shown
    | .dictAttr _ => True
    | .key k => subscript w n k = r.val.shown
    | .index i => subscript w n (.int i) = r.val.shown
    | .len => lenOf w n = r.val.shown
    | .nothing => True := by
    intro h
    have := hattr h
    revert this
    cases r.via <;> simp
  unfold objRows at h
  split at h
  · cases h
  · exact hattr' h
  · rename_i items hk
    rcases List.mem_append.mp h with h | h
    · rcases List.mem_append.mp h with h | h
      · exact hattr' h
      · rcases List.mem_append.mp h with h | h
        · simp only [List.mem_map] at h
          obtain ⟨x, hx, rfl⟩ := h
          have hx := List.mem_of_mem_take hx
          dsimp only
          by_cases hb : x.1.basic = true
          · simp only [hb, if_true]
            simp only [subscript, hk, lookup_of (hw n items hk) hx]
            rfl
          · simp [hb]
        · split at h
          · cases h
          · rw [List.mem_singleton] at h; subst h; trivial
    · rw [List.mem_singleton] at h
      subst h
      simp only [lenRow, lenOf, hk]
      rfl
  · rename_i items hk
    rcases List.mem_append.mp h with h | h
    · rcases List.mem_append.mp h with h | h
      · exact hattr' h
      · rcases List.mem_append.mp h with h | h
        · simp only [List.mem_map] at h
          obtain ⟨x, hx, rfl⟩ := h
          have h1 := List.mem_zipIdx hx
          have h2 : items[x.2]? = some x.1 := by
            have := List.mem_zipIdx_iff_getElem?.mp hx
            rw [List.getElem?_take] at this
            split at this
            · exact this
            · cases this
          simp only [subscript, hk, Key.norm, index]
          simp [h2, Val.shown]
        · split at h
          · cases h
          · rw [List.mem_singleton] at h; subst h; trivial
    · rw [List.mem_singleton] at h
      subst h
      simp only [lenRow, lenOf, hk]
      rfl
  · rename_i items hk
    rcases List.mem_append.mp h with h | h
    · rcases List.mem_append.mp h with h | h
      · exact hattr' h
      · rcases List.mem_append.mp h with h | h
        · simp only [List.mem_map] at h
          obtain ⟨x, hx, rfl⟩ := h
          trivial
        · split at h
          · cases h
          · rw [List.mem_singleton] at h; subst h; trivial
    · rw [List.mem_singleton] at h
      subst h
      simp only [lenRow, lenOf, hk]
      rfl

/-! ### The expressions -/

/-- What is proved of every variable shown. -/
def Good (w : World) (f : Frame) (v : Var) : Prop :=
  ∀ t, v.eval = some t → (∃ e, Prim t e ∧ value w f e = v.val.shown) ∧ ∀ es, v.val ≠ .group es

theorem child_good {w : World} {g : Groups} {lim : Limits} {f : Frame} {v : Var} {r : Row} (hw : w.Ok)
    (h : Good w f v) (hr : r ∈ grouped g v.val (contents w lim v.val)) (hf : r.via.Fair f) :
    Good w f (childVar w v r) := by
  intro t ht
  unfold childVar at ht ⊢
  split at ht
  · rename_i c cs hv
    obtain ⟨⟨e, he, hval⟩, hng⟩ := h _ hv
    rcases mem_grouped hr hng with ⟨hvia, -⟩ | hmem
    · simp only [hvia, childEval] at ht; cases ht
    · cases hvv : v.val with
      | num n => rw [hvv] at hmem; cases hmem
      | text => rw [hvv] at hmem; cases hmem
      | more => rw [hvv] at hmem; cases hmem
      | group es => exact absurd hvv (hng es)
      | obj n =>
        rw [hvv] at hmem hval
        have hmem : r ∈ objRows w lim n := hmem
        have hval : value w f e = some (.obj n) := hval
        have hrow := row_value hw hmem
        have hng' : ∀ es, r.val ≠ .group es := by
          intro es hes
          unfold objRows at hmem
          have hattr : ¬ r ∈ attrRows (w.obj n) := by
            intro h
            unfold attrRows at h
            split at h
            · simp only [List.mem_map] at h
              obtain ⟨x, -, rfl⟩ := h; cases hes
            · simp only [List.mem_map] at h
              obtain ⟨a, -, rfl⟩ := h
              revert hes
              show cell ((w.obj n).get a) = _ → _
              cases (w.obj n).get a <;> intro h <;> cases h
          split at hmem
          · cases hmem
          · exact hattr hmem
          all_goals
            rcases List.mem_append.mp hmem with h | h
            · rcases List.mem_append.mp h with h | h
              · exact hattr h
              · rcases List.mem_append.mp h with h | h
                · simp only [List.mem_map] at h
                  obtain ⟨x, -, rfl⟩ := h; cases hes
                · split at h
                  · cases h
                  · rw [List.mem_singleton] at h; subst h; cases hes
            · rw [List.mem_singleton] at h; subst h; cases hes
        refine ⟨?_, hng'⟩
        cases hvia : r.via with
        | nothing => simp only [hvia, childEval] at ht; cases ht
        | dictAttr a => rw [hvia] at hf; exact hf.elim
        | attr a =>
          rw [hvia] at hf hrow
          simp only [hvia, childEval, Option.some.injEq] at ht
          subst ht
          refine ⟨.attr e a, .attr he hf, ?_⟩
          simp only [value, hval]
          exact hrow
        | key k =>
          rw [hvia] at hf hrow
          simp only [hvia, childEval, Option.some.injEq] at ht
          subst ht
          refine ⟨.sub e (.lit k), .sub he (.lit (lit_repr _ k hf)), ?_⟩
          simp only [value, hval]
          exact hrow
        | index i =>
          rw [hvia] at hrow
          simp only [hvia, childEval, Option.some.injEq] at ht
          subst ht
          refine ⟨.sub e (.lit (.int i)), .sub he (.lit (lit_natStr i)), ?_⟩
          simp only [value, hval]
          exact hrow
        | len =>
          rw [hvia] at hf hrow
          simp only [hvia, childEval, Option.some.injEq] at ht
          subst ht
          have hlen : Prim c!"len" (.name c!"len") := .name (by decide)
          have := Prim.call hlen (.prim he)
          refine ⟨.call (.name c!"len") e, ?_, ?_⟩
          · simpa using this
          · have hf : nameIn f c!"len" = some .lenFn := hf
            simp only [value, hf, hval]
            exact hrow
  · cases ht

theorem name_in {f : Frame} {s : Scope} {x : Str} {n : Nat} (hf : f.Ok) (hx : (x, n) ∈ f.dict s)
    (hs : s = .globals → Py.Dict.get f.locals x = none) : nameIn f x = some (.obj n) := by
  cases s with
  | locals => simp only [nameIn, Py.Dict.get_of_mem hf.1 hx]
  | globals => simp only [nameIn, hs rfl, Py.Dict.get_of_mem hf.2 hx]

theorem shown_good {w : World} {g : Groups} {lim : Limits} {f : Frame} {v : Var} (hw : w.Ok) (hf : f.Ok)
    (h : Shown w g lim f v) : Good w f v := by
  induction h with
  | @frame s v x n h hx hv hid hs hr =>
    have hname := name_in hf hx hs
    unfold rowVars at hv
    dsimp only at hv
    split at hv
    · rename_i hret
      subst hret
      unfold returnVars at hv
      split at hv
      · rename_i items hk
        simp only [List.mem_map] at hv
        obtain ⟨y, hy, rfl⟩ := hv
        intro t ht
        obtain ⟨z, hz⟩ := hr rfl items hk y hy
        injection ht with ht
        subst ht
        have hread : y.1.Readable := by rw [hz]; trivial
        refine ⟨⟨.sub (.name retDict) (.lit y.1), .sub (.name hid) (.lit (lit_repr _ _ hread)), ?_⟩, ?_⟩
        · simp only [value, hname, subscript, hk, lookup_of (hw n items hk) hy]
          rfl
        · intro es hes; cases hes
      · cases hv
    · rw [List.mem_singleton] at hv
      subst hv
      intro t ht
      injection ht with ht
      subst ht
      exact ⟨⟨.name x, .name hid, hname⟩, by intro es hes; cases hes⟩
  | @result t e n h hv =>
    intro t' ht'
    injection ht' with ht'
    subst ht'
    exact ⟨⟨e, h, hv⟩, by intro es hes; cases hes⟩
  | child h hr hfair ih => exact child_good hw ih hr hfair

/-! ### C99 -/

/-- **C99.** The expression given with a variable can be read in one way only, and evaluating it in the
frame gives the value that is shown (the failure, where what is shown is the traceback of a failed attribute). -/
theorem c99_evaluate_name {w : World} {g : Groups} {lim : Limits} {f : Frame} {v : Var} {t : Str} (hw : w.Ok)
    (hf : f.Ok) (h : Shown w g lim f v) (ht : v.eval = some t) : Gives w f t v.val.shown := by
  obtain ⟨⟨e, he, hv⟩, -⟩ := shown_good hw hf h t ht
  exact ⟨e, .prim he, fun e' h' => means_unique (.prim he) h', hv⟩

/-- **C99**, the grammar: no text is read as two expressions, so "the" value of an expression is
well defined. -/
theorem c99_one_reading {t : Str} {e e' : Expr} (h : Means t e) (h' : Means t e') : e' = e := means_unique h h'

/-- **C99**, the keys: the representation of a key made of integers, strings, `None`, booleans and tuples
is a literal for that key, whatever characters are in its strings. -/
theorem c99_repr_reads_back (p : Char → Bool) (k : Key) (h : k.Readable) :
    Means (reprKey p k) (.lit k) ∧ ∀ e, Means (reprKey p k) e → e = .lit k :=
  ⟨.lit (lit_repr p k h), fun _ h' => means_unique (.lit (lit_repr p k h)) h'⟩

theorem mem_children {w : World} {g : Groups} {lim : Limits} {v : Var} {r : Row} {n : Nat} (hv : v.val = .obj n)
    (hr : r ∈ objRows w lim n) (hin : presOf g r = .inline) : childVar w v r ∈ children w g lim v := by
  unfold children
  apply List.mem_map_of_mem
  rw [hv]
  exact List.mem_append_right _ (List.mem_filter.mpr ⟨hr, by simp [hin]⟩)

theorem attr_mem_objRows {w : World} {lim : Limits} {n : Nat} {r : Row} (hk : (w.obj n).kind ≠ .leaf)
    (h : r ∈ attrRows (w.obj n)) : r ∈ objRows w lim n := by
  unfold objRows
  split
  · rename_i h; exact absurd h hk
  · exact h
  all_goals exact List.mem_append_left _ (List.mem_append_left _ h)

/-- **C99**, what gets an expression: the attributes of a variable that has one, unless they are put in a
group or hidden. -/
theorem c99_given_attribute {w : World} {g : Groups} {lim : Limits} {v : Var} {c : Char} {t : Str} {n : Nat} {a : Str}
    (hv : v.val = .obj n) (he : v.eval = some (c :: t)) (hk : (w.obj n).kind ≠ .leaf) (ha : a ∈ (w.obj n).dir)
    (hin : presOf g ⟨a, cell ((w.obj n).get a), .attr a⟩ = .inline) :
    ∃ x ∈ children w g lim v, x.name = a ∧ x.val = cell ((w.obj n).get a) ∧ x.eval = some (c :: t ++ '.' :: a) := by
  have hm : (⟨a, cell ((w.obj n).get a), .attr a⟩ : Row) ∈ attrRows (w.obj n) := by
    unfold attrRows
    split
    · rename_i h1 h2; rw [h1] at ha; cases ha
    · exact List.mem_map_of_mem (f := fun a => (⟨a, cell ((w.obj n).get a), .attr a⟩ : Row)) ha
  refine ⟨_, mem_children hv (attr_mem_objRows hk hm) hin, ?_⟩
  simp only [childVar, he, childEval]
  exact ⟨trivial, trivial, trivial⟩

/-- **C99**, what gets an expression: the elements of a list or tuple that are shown directly. -/
theorem c99_given_element {w : World} {g : Groups} {lim : Limits} {v : Var} {c : Char} {t : Str} {n : Nat}
    {items : List Nat} {i : Nat} {m : Nat}
    (hv : v.val = .obj n) (he : v.eval = some (c :: t)) (hk : (w.obj n).kind = .seq items) (hi : items[i]? = some m)
    (hlim : i < lim.initial) (hin : presOf g ⟨Py.natStr i, .obj m, .index i⟩ = .inline) :
    ∃ x ∈ children w g lim v, x.val = .obj m ∧ x.eval = some (c :: t ++ '[' :: (Py.natStr i ++ c!"]")) := by
  have hm : (⟨Py.natStr i, .obj m, .index i⟩ : Row) ∈ objRows w lim n := by
    simp only [objRows, hk]
    refine List.mem_append_left _ (List.mem_append_right _ (List.mem_append_left _ ?_))
    refine List.mem_map.mpr ⟨(m, i), ?_, rfl⟩
    rw [List.mem_zipIdx_iff_getElem?, List.getElem?_take]
    simp [hlim, hi]
  refine ⟨_, mem_children hv hm hin, ?_⟩
  simp only [childVar, he, childEval]
  exact ⟨trivial, trivial⟩

mutual
theorem readable_basic : ∀ k : Key, k.Readable → k.basic = true
  | .int _, _ => rfl
  | .str _, _ => rfl
  | .none, _ => rfl
  | .bool _, _ => rfl
  | .tuple l, h => by rw [Key.basic]; exact readableAll_basic l h
  | .other _ _ _, h => h.elim
theorem readableAll_basic : ∀ l : List Key, ReadableAll l → basicAll l = true
  | [], _ => rfl
  | k :: l, h => by rw [basicAll, readable_basic k h.1, readableAll_basic l h.2]; rfl
end

/-- **C99**, what gets an expression: the values of a dictionary under keys made of integers, strings,
`None`, booleans and tuples. -/
theorem c99_given_value {w : World} {g : Groups} {lim : Limits} {v : Var} {c : Char} {t : Str} {n : Nat}
    {items : List (Key × Nat)} {k : Key} {m : Nat}
    (hv : v.val = .obj n) (he : v.eval = some (c :: t)) (hk : (w.obj n).kind = .dict items)
    (hi : (k, m) ∈ items.take lim.random) (hr : k.Readable)
    (hin : presOf g ⟨reprKey w.printable k, .obj m, .key k⟩ = .inline) :
    ∃ x ∈ children w g lim v, x.val = .obj m ∧ x.eval = some (c :: t ++ '[' :: (reprKey w.printable k ++ c!"]")) := by
  have hm : (⟨reprKey w.printable k, .obj m, .key k⟩ : Row) ∈ objRows w lim n := by
    simp only [objRows, hk]
    refine List.mem_append_left _ (List.mem_append_right _ (List.mem_append_left _ ?_))
    refine List.mem_map.mpr ⟨(k, m), hi, ?_⟩
    simp [readable_basic k hr]
  refine ⟨_, mem_children hv hm hin, ?_⟩
  simp only [childVar, he, childEval]
  exact ⟨trivial, trivial⟩

theorem opaque_not_basic {k : Key} (h : Opaque k) : k.basic = false :=
  Opaque.rec (motive_1 := fun k _ => k.basic = false) (motive_2 := fun l _ => basicAll l = false)
    (fun _ _ => rfl)
    (fun _ ih => by rw [Key.basic]; exact ih)
    (fun _ ih => by rw [basicAll, ih]; rfl)
    (fun {k l} _ ih => by rw [basicAll, ih, Bool.and_false])
    h

/-- **C99**, what gets no expression: the values of a dictionary under a key that is, or has in it, an object of no basic type. -/
theorem c99_not_given_value {w : World} {g : Groups} {lim : Limits} {v : Var} {n : Nat}
    {items : List (Key × Nat)} {k : Key} {m : Nat}
    (hv : v.val = .obj n) (hk : (w.obj n).kind = .dict items)
    (hi : (k, m) ∈ items.take lim.random) (hr : Opaque k)
    (hin : presOf g ⟨reprKey w.printable k, .obj m, .nothing⟩ = .inline) :
    ∃ x ∈ children w g lim v, x.name = reprKey w.printable k ∧ x.val = .obj m ∧ x.eval = none := by
  have hm : (⟨reprKey w.printable k, .obj m, .nothing⟩ : Row) ∈ objRows w lim n := by
    simp only [objRows, hk]
    refine List.mem_append_left _ (List.mem_append_right _ (List.mem_append_left _ ?_))
    refine List.mem_map.mpr ⟨(k, m), hi, ?_⟩
    simp [opaque_not_basic hr]
  refine ⟨_, mem_children hv hm hin, ?_⟩
  unfold childVar
  split
  · exact ⟨rfl, rfl, rfl⟩
  · exact ⟨rfl, rfl, rfl⟩

/-- **C99**, what gets no expression: nothing below a variable that has none; no group inside a variable. -/
theorem c99_not_given {w : World} {g : Groups} {lim : Limits} {v x : Var} (hx : x ∈ children w g lim v)
    (h : v.eval = none ∨ ((∃ es, x.val = .group es) ∧ ∀ es, v.val ≠ .group es)) : x.eval = none := by
  unfold children at hx
  rw [List.mem_map] at hx
  obtain ⟨r, hr, rfl⟩ := hx
  rcases h with h | ⟨⟨es, hes⟩, hng⟩
  · simp only [childVar, h]
  · have hes' : r.val = .group es := by
      revert hes
      unfold childVar
      split <;> exact id
    have hvia : r.via = .nothing := by
      rcases mem_grouped hr hng with ⟨h, -⟩ | hmem
      · exact h
      · exfalso
        cases hvv : v.val with
        | num n => rw [hvv] at hmem; cases hmem
        | text => rw [hvv] at hmem; cases hmem
        | more => rw [hvv] at hmem; cases hmem
        | group es => exact absurd hvv (hng es)
        | obj n =>
          rw [hvv] at hmem
          have hmem : r ∈ objRows w lim n := hmem
          have hattr : ¬ r ∈ attrRows (w.obj n) := by
            intro h
            unfold attrRows at h
            split at h
            · simp only [List.mem_map] at h
              obtain ⟨x, -, rfl⟩ := h; cases hes'
            · simp only [List.mem_map] at h
              obtain ⟨a, -, rfl⟩ := h
              revert hes'
              show cell ((w.obj n).get a) = _ → _
              cases (w.obj n).get a <;> intro h <;> cases h
          unfold objRows at hmem
          split at hmem
          · cases hmem
          · exact hattr hmem
          all_goals
            rcases List.mem_append.mp hmem with h | h
            · rcases List.mem_append.mp h with h | h
              · exact hattr h
              · rcases List.mem_append.mp h with h | h
                · simp only [List.mem_map] at h
                  obtain ⟨x, -, rfl⟩ := h; cases hes'
                · split at h
                  · cases h
                  · rw [List.mem_singleton] at h; subst h; cases hes'
            · rw [List.mem_singleton] at h; subst h; cases hes'
    unfold childVar
    split
    · simp only [hvia, childEval]
    · rfl

/-! ### An example and witnesses -/

/-- A program: `0` is a list of `1` and `2`; `1` an object with the attribute `size` (`3`); `4` a dictionary with the
values `5` under `("it's", -1)`, `6` under an enum member and `7` under infinity; `8` an object for which `dir()` gives nothing, with
`foo` in its `__dict__` (`9`); `10` an object with an attribute `a b`. -/
def exObj : Nat → Obj
  | 0 => ⟨.seq [1, 2], [], fun _ => none, none⟩
  | 1 => ⟨.plain, [c!"size"], fun a => if a = c!"size" then some 3 else none, none⟩
  | 4 => ⟨.dict [(.tuple [.str c!"it's", .int (-1)], 5), (.other true c!"<Color.RED: 1>" 0, 6),
      (.other true c!"inf" 1, 7)], [], fun _ => none, none⟩
  | 8 => ⟨.plain, [], fun a => if a = c!"__dict__" then some 9 else none, some [(c!"foo", 11)]⟩
  | 9 => ⟨.dict [(.str c!"foo", 11)], [], fun _ => none, none⟩
  | 10 => ⟨.plain, [c!"a b"], fun a => if a = c!"a b" then some 3 else none, none⟩
  | 12 => ⟨.seq [5, 6], [], fun _ => none, none⟩
  | 13 => ⟨.seq [1, 2, 5, 6], [], fun _ => none, none⟩
  | _ => ⟨.leaf, [], fun _ => none, none⟩

def exWorld : World :=
  ⟨exObj, fun a b => if a = 0 ∧ b = 12 then some 13 else none, fun _ => none, fun c => 32 ≤ c.toNat && c.toNat < 127⟩

def exFrame : Frame := ⟨[(c!"a", 0), (c!"d", 4), (c!"b", 12), (c!"o", 8), (c!"p", 10), (c!".0", 2)],
  [(c!"a", 12), (c!"__name__", 3)]⟩

def exGroups : Groups :=
  ⟨fun n _ => if n.take 2 = c!"__" then some 0 else none, fun _ => .group, fun _ => c!"special variables"⟩

def exLim : Limits := ⟨300, 100⟩

theorem exWorld_ok : exWorld.Ok := by
  intro n items h
  show items.Pairwise fun a b => a.1.norm.same b.1.norm = false
  change (exObj n).kind = .dict items at h
  unfold exObj at h
  split at h <;> first | (cases h; done) | skip
  · injection h with h; subst h
    refine .cons ?_ (.cons ?_ (.cons ?_ .nil)) <;> intro b hb <;>
      simp only [List.mem_cons, List.not_mem_nil, or_false] at hb
    · rcases hb with rfl | rfl <;> rfl
    · subst hb; rfl
  · injection h with h; subst h
    exact .cons (by intro b hb; cases hb) .nil

theorem ex_row {n : Nat} {r : Row} (h : r ∈ objRows exWorld exLim n) (hp : presOf exGroups r = .inline) :
    r ∈ grouped exGroups (.obj n) (contents exWorld exLim (.obj n)) :=
  List.mem_append_right _ (List.mem_filter.mpr ⟨h, by simp [hp]⟩)

theorem exFrame_ok : exFrame.Ok := by
  constructor <;> (unfold Py.Dict.Ok; decide)

def exA : Var := ⟨c!"a", .obj 0, some c!"a"⟩
def exD : Var := ⟨c!"d", .obj 4, some c!"d"⟩

theorem exA_shown : Shown exWorld exGroups exLim exFrame exA := by
  refine .frame (s := .locals) (x := c!"a") (n := 0) ?_ ?_ ?_ (by decide) (by intro h; cases h) (fun h => absurd h (by decide))
  · exact List.mem_append_right _ (List.mem_cons_self ..)
  · exact List.mem_cons_self ..
  · exact List.mem_cons_self ..

theorem exD_shown : Shown exWorld exGroups exLim exFrame exD := by
  refine .frame (s := .locals) (x := c!"d") (n := 4) ?_ ?_ ?_ (by decide) (by intro h; cases h) (fun h => absurd h (by decide))
  · exact List.mem_append_right _ (List.mem_cons_of_mem _ (List.mem_cons_self ..))
  · exact List.mem_cons_of_mem _ (List.mem_cons_self ..)
  · exact List.mem_cons_self ..

/-- `a[0].size` is what the attribute shown two levels below `a` is. -/
theorem c99_example : Gives exWorld exFrame c!"a[0].size" (some (.obj 3)) := by
  have h1 : Shown exWorld exGroups exLim exFrame (childVar exWorld exA ⟨Py.natStr 0, .obj 1, .index 0⟩) :=
    .child exA_shown (ex_row (n := 0) (List.mem_cons_self ..) (by decide +kernel)) trivial
  have h2 := Shown.child (r := ⟨c!"size", .obj 3, .attr c!"size"⟩) h1
    (List.mem_append_right _ (List.mem_cons_self ..)) (show Ident c!"size" by decide)
  exact c99_evaluate_name exWorld_ok exFrame_ok h2 (by decide +kernel)

/-- A key with a quote and a negative number: `d[("it's", -1)]`. -/
theorem c99_example_key : Gives exWorld exFrame c!"d[(\"it's\", -1)]" (some (.obj 5)) := by
  have h1 := Shown.child (r := ⟨reprKey exWorld.printable (.tuple [.str c!"it's", .int (-1)]), .obj 5,
      .key (.tuple [.str c!"it's", .int (-1)])⟩) exD_shown
    (List.mem_append_right _ (List.mem_cons_self ..)) ⟨trivial, trivial, trivial⟩
  exact c99_evaluate_name exWorld_ok exFrame_ok h1 (by decide +kernel)

/-- `len(a[0])` and the like. -/
theorem c99_example_len : Gives exWorld exFrame c!"len(a)" (some (.num 2)) := by
  have h1 := Shown.child (r := lenRow 2) exA_shown
    (ex_row (n := 0) (List.mem_cons_of_mem _ (List.mem_cons_of_mem _ (List.mem_cons_self ..))) rfl) rfl
  exact c99_evaluate_name exWorld_ok exFrame_ok h1 rfl

/-- The result of evaluating `a + b` is expanded with `a + b[0]` and so on, which is `a` and the first of
`b`: the expression is not put in brackets.  It shows `1`, evaluating it raises. -/
theorem c99_sum_witness :
    (∃ e, Means c!"a + b" e ∧ value exWorld exFrame e = some (.obj 13)) ∧
    (childVar exWorld (resultVar c!"a + b" 13) ⟨Py.natStr 0, .obj 1, .index 0⟩ ∈
      children exWorld exGroups exLim (resultVar c!"a + b" 13)) ∧
    (childVar exWorld (resultVar c!"a + b" 13) ⟨Py.natStr 0, .obj 1, .index 0⟩).eval = some c!"a + b[0]" ∧
    Gives exWorld exFrame c!"a + b[0]" none := by
  have ha : Prim c!"a" (.name c!"a") := .name (by decide)
  have hb : Prim c!"b" (.name c!"b") := .name (by decide)
  refine ⟨⟨_, .plus (.prim ha) hb, rfl⟩, ?_, by decide +kernel, ?_⟩
  · exact List.mem_map_of_mem (ex_row (n := 13) (List.mem_cons_self ..) (by decide +kernel))
  · have h0 : Lit c!"0" (.int 0) := Lit.nat (t := c!"0") ⟨by decide, by decide, by decide⟩
    have hm : Means c!"a + b[0]" (.plus (.name c!"a") (.sub (.name c!"b") (.lit (.int 0)))) :=
      .plus (.prim ha) (.sub hb (.lit h0))
    exact ⟨_, hm, fun e' h' => means_unique hm h', rfl⟩

/-- Inside a comprehension or generator the iterator is shown as `.0`, with an expression that is the
number `0.0`. -/
theorem c99_iterator_witness :
    (⟨c!".0", .obj 2, some c!".0"⟩ : Var) ∈ frameVars exWorld exGroups exFrame .locals ∧
    Gives exWorld exFrame c!".0" (some (.point c!"0")) := by
  refine ⟨?_, ?_⟩
  · refine List.mem_append_right _ ?_
    exact List.mem_cons_of_mem _ (List.mem_cons_of_mem _ (List.mem_cons_of_mem _ (List.mem_cons_of_mem _
      (List.mem_cons_of_mem _ (List.mem_cons_self ..)))))
  · have hm : Means c!".0" (.point c!"0") := .point (by decide) (by decide)
    exact ⟨_, hm, fun e' h' => means_unique hm h', rfl⟩

/-- A group of a frame has its title for an expression: `special variables`. -/
theorem c99_group_witness :
    (∃ v ∈ frameVars exWorld exGroups exFrame .globals, v.eval = some c!"special variables") ∧
    NoExpr c!"special variables" := by
  refine ⟨⟨_, List.mem_append_left _ (List.mem_cons_self ..), rfl⟩, noExpr_of ⟨9, fun f e h => ?_⟩⟩
  have : exP (f + 9) c!"special variables" = some (.name c!"special", c!" variables") := rfl
  rw [this] at h
  cases h

/-- A global hidden by a local of the same name is shown with the value of the global and an expression
that gives the local. -/
theorem c99_hidden_witness :
    (⟨c!"a", .obj 12, some c!"a"⟩ : Var) ∈ frameVars exWorld exGroups exFrame .globals ∧
    Gives exWorld exFrame c!"a" (some (.obj 0)) := by
  refine ⟨List.mem_append_right _ (List.mem_cons_self ..), ?_⟩
  have hm : Means c!"a" (.name c!"a") := .prim (.name (by decide))
  exact ⟨_, hm, fun e' h' => means_unique hm h', rfl⟩

/-- Where `dir()` gives nothing, the expression of the attribute `foo` is `o.__dict__[foo]`, without quotes:
it asks for a variable `foo`. -/
theorem c99_dict_attribute_witness :
    (⟨c!"foo", .obj 11, some c!"o.__dict__[foo]"⟩ : Var) ∈ children exWorld exGroups exLim ⟨c!"o", .obj 8, some c!"o"⟩ ∧
    Gives exWorld exFrame c!"o.__dict__[foo]" none := by
  refine ⟨List.mem_cons_self .., ?_⟩
  have hm : Means c!"o.__dict__[foo]" (.sub (.attr (.name c!"o") c!"__dict__") (.name c!"foo")) :=
    .prim (.sub (.attr (a := c!"__dict__") (.name (s := c!"o") (by decide)) (by decide)) (.prim (.name (s := c!"foo") (by decide))))
  exact ⟨_, hm, fun e' h' => means_unique hm h', rfl⟩

/-- Members of an `IntEnum` count as integers: the expression `d[<Color.RED: 1>]` is given, which is none. -/
theorem c99_enum_witness :
    (⟨c!"<Color.RED: 1>", .obj 6, some c!"d[<Color.RED: 1>]"⟩ : Var) ∈ children exWorld exGroups exLim exD ∧
    NoExpr c!"d[<Color.RED: 1>]" := by
  refine ⟨List.mem_cons_of_mem _ (List.mem_cons_self ..), noExpr_of ⟨9, fun f e h => ?_⟩⟩
  have : exP (f + 9) c!"d[<Color.RED: 1>]" = none := rfl
  rw [this] at h
  cases h

/-- So does infinity as a number: `d[inf]` asks for a variable `inf`. -/
theorem c99_infinity_witness :
    (⟨c!"inf", .obj 7, some c!"d[inf]"⟩ : Var) ∈ children exWorld exGroups exLim exD ∧
    Gives exWorld exFrame c!"d[inf]" none := by
  refine ⟨List.mem_cons_of_mem _ (List.mem_cons_of_mem _ (List.mem_cons_self ..)), ?_⟩
  have hm : Means c!"d[inf]" (.sub (.name c!"d") (.name c!"inf")) :=
    .prim (.sub (.name (s := c!"d") (by decide)) (.prim (.name (s := c!"inf") (by decide))))
  exact ⟨_, hm, fun e' h' => means_unique hm h', rfl⟩

/-- An attribute with a name that cannot be written is given with an expression that is none. -/
theorem c99_attribute_witness :
    (⟨c!"a b", .obj 3, some c!"p.a b"⟩ : Var) ∈ children exWorld exGroups exLim ⟨c!"p", .obj 10, some c!"p"⟩ ∧
    NoExpr c!"p.a b" := by
  refine ⟨List.mem_cons_self .., noExpr_of ⟨9, fun f e h => ?_⟩⟩
  have : exP (f + 9) c!"p.a b" = some (.attr (.name c!"p") c!"a", c!" b") := rfl
  rw [this] at h
  cases h

end EvalName
