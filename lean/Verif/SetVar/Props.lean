import Verif.SetVar.Spec
import Verif.EvalName.Props
import Verif.Resolver.ContainerProps
/-!
C113: changing an element of something shown changes that element.
-/

namespace SetVar

open EvalName

theorem childVar_name {w : World} {v : Var} {r : Row} : (childVar w v r).val = r.val := by
  unfold childVar; split <;> rfl

theorem child_of_first {env : Env} {g : Groups} {lim : Limits} {hex : Bool} {w : World} {v : Var} {name : Str} {r : Row}
    (h : FirstRow env g lim hex w v name r) :
    child env g lim hex w v name = some { childVar w v r with name := name } := by
  obtain ⟨a, b, hab, hn, ha⟩ := h
  unfold child named
  rw [hab, List.map_append, List.find?_append, List.find?_eq_none.mpr]
  · simp [hn]
  · intro x hx
    obtain ⟨y, hy, rfl⟩ := List.mem_map.mp hx
    simpa using ha y hy

theorem child_none {env : Env} {g : Groups} {lim : Limits} {hex : Bool} {w : World} {v : Var} {name : Str}
    (h : ∀ r ∈ grouped g v.val (contents w lim v.val), env.label hex r.name r.via ≠ name) :
    child env g lim hex w v name = none := by
  unfold child named
  rw [List.find?_eq_none]
  intro x hx
  obtain ⟨y, hy, rfl⟩ := List.mem_map.mp hx
  simpa using h y hy

/-- The text of a place below a variable is read as that place of the variable's object. -/
theorem place_text {w w1 : World} {f1 : Frame} {v : Var} {r : Row} {n : Nat} {c : Char} {cs : Str}
    (h : Good w1 f1 v) (hv : v.val = .obj n) (he : v.eval = some (c :: cs)) (hp : Place r.via) (hfair : r.via.Fair f1) :
    ∃ t ts e, (childVar w v r).eval = some (t :: ts) ∧ Means (t :: ts) e ∧ isTarget e = true ∧
      ∀ env m, assign env w1 f1 m e = put env w1 n m r.via := by
  obtain ⟨⟨e, hprim, hval⟩, -⟩ := h _ he
  rw [hv] at hval
  have hval : value w1 f1 e = some (.obj n) := hval
  cases hvia : r.via with
  | attr a =>
    rw [hvia] at hfair
    refine ⟨c, cs ++ '.' :: a, .attr e a, ?_, .prim (.attr (a := a) hprim hfair), rfl, ?_⟩
    · simp only [childVar, he, hvia, childEval]; rfl
    · intro env m; simp only [assign, hval, put]
  | key k =>
    rw [hvia] at hfair
    refine ⟨c, cs ++ '[' :: (reprKey w.printable k ++ c!"]"), .sub e (.lit k), ?_, .prim (.sub hprim (.lit (lit_repr _ k hfair))), rfl, ?_⟩
    · simp only [childVar, he, hvia, childEval]; rfl
    · intro env m; simp only [assign, hval, put, value]
  | index i =>
    refine ⟨c, cs ++ '[' :: (Py.natStr i ++ c!"]"), .sub e (.lit (.int i)), ?_, .prim (.sub hprim (.lit (lit_natStr i))), rfl, ?_⟩
    · simp only [childVar, he, hvia, childEval]; rfl
    · intro env m; simp only [assign, hval, put, value]
  | dictAttr a => rw [hvia] at hp; exact hp.elim
  | len => rw [hvia] at hp; exact hp.elim
  | nothing => rw [hvia] at hp; exact hp.elim

/-- **C113.** Changing what is shown for an attribute, an index or a key of an object assigns the value once to that
attribute, index or key of that object, after the value was evaluated, if the expression of the object still leads to it then; and
nothing else is done. The response fails if the assignment raised. -/
theorem c113_place {env : Env} {g : Groups} {lim : Limits} {val : Value} {here : Option Nat} {w w1 : World} {f f1 : Frame}
    {v : Var} {hex : Bool} {name : Str} {r : Row} {n m : Nat} {c : Char} {cs : Str}
    (hreads : Reads env) (hw : w1.Ok) (hf : f1.Ok)
    (hv : v.val = .obj n) (he : v.eval = some (c :: cs)) (hrow : FirstRow env g lim false w v name r)
    (hp : Place r.via) (hfair : r.via.Fair f1) (hname : Py.startsWith name c!"(return) " = false)
    (hval : val w f = (w1, f1, some m)) (hshown : Shown w1 g lim f1 v) :
    setVariable env g lim val here w f (some v) hex name =
      ((put env w1 n m r.via).1, f1,
        .answer (if (put env w1 n m r.via).2 then child env g lim hex (put env w1 n m r.via).1 v name else none)) := by
  obtain ⟨t, ts, e, hev, hm, ht, ha⟩ := place_text (w := w) (shown_good hw hf hshown) hv he hp hfair
  unfold setVariable
  rw [if_neg (by rw [hname]; decide)]
  dsimp only
  unfold change
  rw [child_of_first hrow]
  dsimp only
  rw [hev]
  dsimp only
  unfold exec
  rw [hreads _ _ hm]
  dsimp only
  rw [if_pos ht, hval]
  dsimp only
  rw [ha]
  cases (put env w1 n m r.via).2 <;> rfl

/-- **C113**, a value that raises: nothing is done but what the value did, and the response fails. -/
theorem c113_value_raises {env : Env} {g : Groups} {lim : Limits} {val : Value} {w w1 : World} {f f1 : Frame}
    {v : Var} {hex : Bool} {name : Str} (hval : val w f = (w1, f1, none)) :
    setVariable env g lim val none w f (some v) hex name = (w1, f1, .answer none) ∨
    setVariable env g lim val none w f (some v) hex name = (w, f, .answer none) := by
  unfold setVariable
  split
  · exact .inr rfl
  · dsimp only
    unfold change
    split
    · exact .inr rfl
    · split
      · unfold exec
        rw [hval]
        cases hp : env.parse _ with
        | none => exact .inr rfl
        | some e =>
          dsimp only
          cases isTarget e
          · exact .inr rfl
          · exact .inl rfl
      · split
        · split <;> exact .inr rfl
        · exact .inr rfl

/-- **C113**, what can't be changed: a name that isn't shown, a returned value, a variable no longer known. Nothing is
run and the response fails. -/
theorem c113_refused {env : Env} {g : Groups} {lim : Limits} {val : Value} {here : Option Nat} {w : World} {f : Frame}
    {v : Option Var} {hex : Bool} {name : Str}
    (h : Py.startsWith name c!"(return) " = true ∨ v = none ∨
      ∃ x, v = some x ∧ ∀ r ∈ grouped g x.val (contents w lim x.val), env.label false r.name r.via ≠ name) :
    setVariable env g lim val here w f v hex name = (w, f, .answer none) := by
  unfold setVariable
  split
  · rfl
  · rename_i hn
    rcases h with h | rfl | ⟨x, rfl, hx⟩
    · exact absurd h hn
    · rfl
    · dsimp only
      unfold change
      rw [child_none hx]

/-- **C113**, the number in "len()": nothing is run and the response fails. -/
theorem c113_len {env : Env} {g : Groups} {lim : Limits} {val : Value} {here : Option Nat} {w : World} {f : Frame}
    {v : Var} {hex : Bool} {name : Str} {r : Row} {n : Nat} {c : Char} {cs : Str}
    (hreads : Reads env) (hw : w.Ok) (hf : f.Ok) (hv : v.val = .obj n) (he : v.eval = some (c :: cs))
    (hrow : FirstRow env g lim false w v name r) (hlen : r.via = .len) (hshown : Shown w g lim f v) :
    setVariable env g lim val here w f (some v) hex name = (w, f, .answer none) := by
  obtain ⟨⟨e, hprim, -⟩, -⟩ := shown_good hw hf hshown _ he
  unfold setVariable
  split
  · rfl
  · dsimp only
    unfold change
    rw [child_of_first hrow]
    have hev : (childVar w v r).eval = some ('l' :: (c!"en(" ++ (c :: cs) ++ c!")")) := by
      simp only [childVar, he, hlen, childEval]; rfl
    dsimp only
    rw [hev]
    dsimp only
    have hm : Means ('l' :: (c!"en(" ++ (c :: cs) ++ c!")")) (.call (.name c!"len") e) :=
      .prim (.call (t := c!"len") (.name (by decide)) (.prim hprim))
    unfold exec
    rw [hreads _ _ hm]
    rfl

/-- **C113**, what has no expression and is in no set: nothing is run and the response fails. -/
theorem c113_no_expression {env : Env} {g : Groups} {lim : Limits} {val : Value} {here : Option Nat} {w : World} {f : Frame}
    {v : Var} {hex : Bool} {name : Str} {r : Row} (hrow : FirstRow env g lim false w v name r)
    (hev : (childVar w v r).eval = none) (hset : ∀ n items, v.val = .obj n → (w.obj n).kind ≠ .set items) :
    setVariable env g lim val here w f (some v) hex name = (w, f, .answer none) := by
  unfold setVariable
  split
  · rfl
  · dsimp only
    unfold change
    rw [child_of_first hrow]
    dsimp only
    rw [hev]
    dsimp only
    cases hv : v.val with
    | obj n =>
      dsimp only
      cases hk : (w.obj n).kind with
      | set items => exact absurd hk (hset n items hv)
      | _ => rfl
    | _ => rfl

/-! ### The answer -/

/-- The row is for the same place. -/
def hits : Via → Via → Bool
  | .attr a, .attr b => b = a
  | .index i, .index j => j = i
  | .key k, .key l => l.norm.same k.norm
  | _, _ => false

def upd (via : Via) (m : Nat) (x : Row) : Row := if hits via x.via then { x with val := .obj m } else x

theorem upd_name (via : Via) (m : Nat) (x : Row) : (upd via m x).name = x.name := by unfold upd; split <;> rfl
theorem upd_via (via : Via) (m : Nat) (x : Row) : (upd via m x).via = x.via := by unfold upd; split <;> rfl
theorem upd_miss {via : Via} {m : Nat} {x : Row} (h : hits via x.via = false) : upd via m x = x := by
  unfold upd; rw [h]; rfl

theorem map_miss {via : Via} {m : Nat} {l : List Row} (h : ∀ x ∈ l, hits via x.via = false) : l.map (upd via m) = l := by
  conv => rhs; rw [← List.map_id l]
  exact List.map_congr_left fun x hx => by rw [upd_miss (h x hx)]; rfl

theorem mem_attrRows {o : Obj} {x : Row} (h : x ∈ attrRows o) :
    (∃ a ∈ o.dir, x = ⟨a, cell (o.get a), .attr a⟩) ∨ ∃ a n, x = ⟨a, .obj n, .dictAttr a⟩ := by
  unfold attrRows at h
  split at h
  · obtain ⟨y, -, rfl⟩ := List.mem_map.mp h; exact .inr ⟨_, _, rfl⟩
  · obtain ⟨y, hy, rfl⟩ := List.mem_map.mp h; exact .inl ⟨_, hy, rfl⟩

theorem mem_dictRows {p : Char → Bool} {lim : Limits} {items : List (Key × Nat)} {x : Row} (h : x ∈ dictRows p lim items) :
    (∃ y ∈ items, x = ⟨reprKey p y.1, .obj y.2, if y.1.basic then .key y.1 else .nothing⟩) ∨ x = tooLarge := by
  rcases List.mem_append.mp h with h | h
  · obtain ⟨y, hy, rfl⟩ := List.mem_map.mp h; exact .inl ⟨y, List.mem_of_mem_take hy, rfl⟩
  · split at h
    · cases h
    · exact .inr (List.mem_singleton.mp h)

theorem mem_seqRows {lim : Limits} {items : List Nat} {x : Row} (h : x ∈ seqRows lim items) :
    (∃ i y, items[i]? = some y ∧ x = ⟨Py.natStr i, .obj y, .index i⟩) ∨ x.via = .nothing := by
  rcases List.mem_append.mp h with h | h
  · obtain ⟨⟨y, i⟩, hy, rfl⟩ := List.mem_map.mp h
    have := List.mem_zipIdx_iff_getElem?.mp hy
    refine .inl ⟨i, y, ?_, rfl⟩
    rw [List.getElem?_take] at this
    split at this
    · exact this
    · cases this
  · split at h
    · cases h
    · rw [List.mem_singleton.mp h]; exact .inr rfl

theorem mem_setRows {lim : Limits} {items : List Nat} {x : Row} (h : x ∈ setRows lim items) : x.via = .nothing := by
  rcases List.mem_append.mp h with h | h
  · obtain ⟨y, hy, rfl⟩ := List.mem_map.mp h; rfl
  · split at h
    · cases h
    · rw [List.mem_singleton.mp h]; rfl

/-- The rows before and after the items. -/
def itemRows (w : World) (lim : Limits) (n : Nat) : List Row :=
  match (w.obj n).kind with
  | .dict items => dictRows w.printable lim items
  | .seq items => seqRows lim items
  | .set items => setRows lim items
  | _ => []

theorem mem_objRows {w : World} {lim : Limits} {n : Nat} {x : Row} (h : x ∈ objRows w lim n) :
    x ∈ attrRows (w.obj n) ∨ x ∈ itemRows w lim n ∨ x.via = .len := by
  unfold objRows at h
  unfold itemRows
  split at h <;> rename_i hk <;> rw [hk]
  · cases h
  · exact .inl h
  all_goals
    rcases List.mem_append.mp h with h | h
    · rcases List.mem_append.mp h with h | h
      · exact .inl h
      · exact .inr (.inl h)
    · rw [List.mem_singleton.mp h]; exact .inr (.inr rfl)

mutual
theorem same_basic : ∀ x k : Key, k.Readable → x.norm.same k.norm = true → x.basic = true
  | .int _, _, _, _ => rfl
  | .str _, _, _, _ => rfl
  | .none, _, _, _ => rfl
  | .bool _, _, _, _ => rfl
  | .tuple l, .tuple l', h, hs => by
    rw [Key.basic]
    simp only [Key.norm, Key.same] at hs
    exact sameAll_basic l l' h hs
  | .tuple l, .int _, _, hs => by simp [Key.norm, Key.same] at hs
  | .tuple l, .str _, _, hs => by simp [Key.norm, Key.same] at hs
  | .tuple l, .none, _, hs => by simp [Key.norm, Key.same] at hs
  | .tuple l, .bool _, _, hs => by simp [Key.norm, Key.same] at hs
  | .tuple l, .other _ _ _, h, _ => h.elim
  | .other _ _ _, .tuple l', h, hs => by simp [Key.norm, Key.same] at hs
  | .other _ _ _, .int _, _, hs => by simp [Key.norm, Key.same] at hs
  | .other _ _ _, .str _, _, hs => by simp [Key.norm, Key.same] at hs
  | .other _ _ _, .none, _, hs => by simp [Key.norm, Key.same] at hs
  | .other _ _ _, .bool _, _, hs => by simp [Key.norm, Key.same] at hs
  | .other _ _ _, .other _ _ _, h, _ => h.elim
theorem sameAll_basic : ∀ l l' : List Key, ReadableAll l' → sameAll (normAll l) (normAll l') = true → basicAll l = true
  | [], _, _, _ => rfl
  | k :: l, [], _, hs => by simp [normAll, sameAll] at hs
  | k :: l, k' :: l', h, hs => by
    simp only [normAll, sameAll, Bool.and_eq_true] at hs
    rw [basicAll, same_basic k k' h.1 hs.1, sameAll_basic l l' h.2 hs.2]
    rfl
end

theorem set_zipIdx_rows (items : List Nat) (i m k : Nat) :
    (((items.set i m).take k).zipIdx.map fun x => (⟨Py.natStr x.2, .obj x.1, .index x.2⟩ : Row)) =
      ((items.take k).zipIdx.map fun x => (⟨Py.natStr x.2, .obj x.1, .index x.2⟩ : Row)).map (upd (.index i) m) := by
  apply List.ext_getElem
  · simp
  · intro j h1 h2
    simp only [List.getElem_map, List.getElem_zipIdx, List.getElem_take, List.getElem_set, Nat.zero_add, upd, hits]
    by_cases h : i = j
    · subst h; simp
    · rw [if_neg h]; simp [Ne.symm h]

/-- After the assignment the rows are the same but for the one that is changed. -/
theorem rows_put {env : Env} {w : World} {lim : Limits} {n m : Nat} {r : Row} {f : Frame} (hb : BuiltIn env w n)
    (hr : r ∈ objRows w lim n) (hp : Place r.via) (hfair : r.via.Fair f) :
    (put env w n m r.via).2 = true ∧
      objRows (put env w n m r.via).1 lim n = (objRows w lim n).map (upd r.via m) := by
  rcases mem_objRows hr with h | h | h
  · rcases mem_attrRows h with ⟨a, ha, rfl⟩ | ⟨a, y, rfl⟩
    · simp only [put, hb.attr a m ha]
      refine ⟨trivial, ?_⟩
      have hattr : ∀ k, attrRows ⟨k, (w.obj n).dir, fun b => if b = a then some m else (w.obj n).get b, (w.obj n).vars⟩ =
          (attrRows (w.obj n)).map (upd (.attr a) m) := by
        intro k
        unfold attrRows
        cases hd : (w.obj n).dir with
        | nil => rw [hd] at ha; cases ha
        | cons d ds =>
          dsimp only
          rw [List.map_map]
          apply List.map_congr_left
          intro b _
          simp only [Function.comp, upd, hits]
          by_cases hba : b = a
          · simp [hba, cell]
          · simp [hba]
      unfold objRows
      simp only [replaced, if_true]
      cases hk : (w.obj n).kind with
      | leaf => rfl
      | plain => exact hattr _
      | dict items =>
        simp only [List.map_append]
        rw [hattr, map_miss (l := dictRows _ _ _), map_miss (l := [lenRow _])]
        · intro x hx; rw [List.mem_singleton.mp hx]; rfl
        · intro x hx
          rcases mem_dictRows hx with ⟨y, -, rfl⟩ | rfl
          · dsimp only; split <;> rfl
          · rfl
      | seq items =>
        simp only [List.map_append]
        rw [hattr, map_miss (l := seqRows _ _), map_miss (l := [lenRow _])]
        · intro x hx; rw [List.mem_singleton.mp hx]; rfl
        · intro x hx
          rcases mem_seqRows hx with ⟨i, y, -, rfl⟩ | h
          · rfl
          · rw [h]; rfl
      | set items =>
        simp only [List.map_append]
        rw [hattr, map_miss (l := setRows _ _), map_miss (l := [lenRow _])]
        · intro x hx; rw [List.mem_singleton.mp hx]; rfl
        · intro x hx; rw [mem_setRows hx]; rfl
    · exact hp.elim
  · unfold itemRows at h
    split at h
    · rename_i items hk
      rcases mem_dictRows h with ⟨y, hy, rfl⟩ | rfl
      · dsimp only at hp hfair ⊢
        by_cases hbas : y.1.basic = true
        · rw [if_pos hbas] at hp hfair ⊢
          have hset := hb.dict items y.1 m hk ⟨y, hy, rfl⟩
          simp only [put, hset]
          refine ⟨trivial, ?_⟩
          unfold objRows
          simp only [replaced, if_true, hk, List.map_append]
          rw [map_miss (l := attrRows _), map_miss (l := [lenRow _])]
          · have hlen : (items.map fun x => if x.1.norm.same y.1.norm then (x.1, m) else x).length = items.length := by simp
            rw [hlen]
            have : attrRows { w.obj n with kind := .dict (items.map fun x => if x.1.norm.same y.1.norm then (x.1, m) else x) } =
              attrRows (w.obj n) := rfl
            rw [this]
            congr 1
            congr 1
            unfold dictRows
            rw [hlen, List.map_append]
            refine congr (congrArg _ ?_) (map_miss (l := if items.length < lim.random then [] else [tooLarge]) ?_).symm
            · rw [← List.map_take, List.map_map, List.map_map]
              apply List.map_congr_left
              intro x hx
              simp only [Function.comp]
              by_cases hs : x.1.norm.same y.1.norm = true
              · rw [if_pos hs]
                have := same_basic x.1 y.1 hfair hs
                simp only [this, if_true, upd, hits, hs]
              · rw [if_neg hs]
                refine (upd_miss ?_).symm
                dsimp only
                split
                · simpa [hits] using hs
                · rfl
            · intro x hx
              split at hx
              · cases hx
              · rw [List.mem_singleton.mp hx]; rfl
          · intro x hx; rw [List.mem_singleton.mp hx]; rfl
          · intro x hx
            rcases mem_attrRows hx with ⟨a, -, rfl⟩ | ⟨a, z, rfl⟩ <;> rfl
        · rw [if_neg hbas] at hp; exact hp.elim
      · exact hp.elim
    · rename_i items hk
      rcases mem_seqRows h with ⟨i, y, hi, rfl⟩ | hn
      · have hlt : i < items.length := by
          rcases Nat.lt_or_ge i items.length with h | h
          · exact h
          · rw [List.getElem?_eq_none h] at hi; cases hi
        simp only [put, hb.seq items i m hk hlt]
        refine ⟨trivial, ?_⟩
        unfold objRows
        simp only [replaced, if_true, hk, List.map_append, List.length_set]
        rw [map_miss (l := attrRows _), map_miss (l := [lenRow _])]
        · have : attrRows { w.obj n with kind := .seq (items.set i m) } = attrRows (w.obj n) := rfl
          rw [this]
          congr 1
          congr 1
          unfold seqRows
          rw [List.map_append, set_zipIdx_rows, List.length_set]
          refine congrArg _ (map_miss (l := if items.length < lim.initial then [] else [⟨c!"more", .more, .nothing⟩]) ?_).symm
          intro x hx
          split at hx
          · cases hx
          · rw [List.mem_singleton.mp hx]; rfl
        · intro x hx; rw [List.mem_singleton.mp hx]; rfl
        · intro x hx
          rcases mem_attrRows hx with ⟨a, -, rfl⟩ | ⟨a, z, rfl⟩ <;> rfl
      · rw [hn] at hp; exact hp.elim
    · rw [mem_setRows h] at hp; exact hp.elim
    · cases h
  · rw [h] at hp; exact hp.elim

theorem pairwise_same {l : List (Key × Nat)} (hl : l.Pairwise fun a b => a.1.norm.same b.1.norm = false)
    (hsym : ∀ a b : Key, a.norm.same b.norm = b.norm.same a.norm)
    {x y : Key × Nat} (hx : x ∈ l) (hy : y ∈ l) (h : x.1.norm.same y.1.norm = true) : x = y := by
  induction hl with
  | nil => cases hx
  | @cons a l ha hl ih =>
    rcases List.mem_cons.mp hx with rfl | hx'
    · rcases List.mem_cons.mp hy with rfl | hy'
      · rfl
      · rw [ha y hy'] at h; cases h
    · rcases List.mem_cons.mp hy with rfl | hy'
      · rw [hsym, ha x hx'] at h; cases h
      · exact ih hx' hy'

mutual
theorem same_comm : ∀ a b : Key, a.same b = b.same a
  | .int a, b => by cases b <;> simp [Key.same, eq_comm]
  | .str a, b => by cases b <;> simp [Key.same, eq_comm]
  | .none, b => by cases b <;> simp [Key.same]
  | .bool a, b => by cases b <;> simp [Key.same, eq_comm]
  | .tuple l, .tuple l' => by simp only [Key.same]; exact sameAll_comm l l'
  | .tuple l, .int _ => by simp [Key.same]
  | .tuple l, .str _ => by simp [Key.same]
  | .tuple l, .none => by simp [Key.same]
  | .tuple l, .bool _ => by simp [Key.same]
  | .tuple l, .other _ _ _ => by simp [Key.same]
  | .other _ _ a, b => by cases b <;> simp [Key.same, eq_comm]
theorem sameAll_comm : ∀ l l' : List Key, sameAll l l' = sameAll l' l
  | [], [] => rfl
  | [], _ :: _ => rfl
  | _ :: _, [] => rfl
  | a :: l, b :: l' => by simp only [sameAll]; rw [same_comm a b, sameAll_comm l l']
end

/-- There is one row for a place. -/
theorem hit_eq {w : World} {lim : Limits} {n : Nat} {r x : Row} (hw : w.Ok) (hr : r ∈ objRows w lim n) (hx : x ∈ objRows w lim n)
    (h : hits r.via x.via = true) : x = r := by
  cases hv : r.via with
  | dictAttr a => rw [hv] at h; cases h
  | len => rw [hv] at h; cases h
  | nothing => rw [hv] at h; cases h
  | attr a =>
    have key : ∀ y, y ∈ objRows w lim n → hits (.attr a) y.via = true → y = ⟨a, cell ((w.obj n).get a), .attr a⟩ := by
      intro y hy hh
      rcases mem_objRows hy with h | h | h
      · rcases mem_attrRows h with ⟨b, -, rfl⟩ | ⟨b, z, rfl⟩
        · simp only [hits, decide_eq_true_eq] at hh; subst hh; rfl
        · cases hh
      · unfold itemRows at h
        split at h
        · rcases mem_dictRows h with ⟨z, -, rfl⟩ | rfl
          · dsimp only at hh; split at hh <;> cases hh
          · cases hh
        · rcases mem_seqRows h with ⟨i, z, -, rfl⟩ | h
          · cases hh
          · rw [h] at hh; cases hh
        · rw [mem_setRows h] at hh; cases hh
        · cases h
      · rw [h] at hh; cases hh
    rw [hv] at h
    rw [key x hx h, key r hr (by rw [hv]; simp [hits])]
  | index i =>
    have key : ∀ y, y ∈ objRows w lim n → hits (.index i) y.via = true →
        ∃ items z, (w.obj n).kind = .seq items ∧ items[i]? = some z ∧ y = ⟨Py.natStr i, .obj z, .index i⟩ := by
      intro y hy hh
      rcases mem_objRows hy with h | h | h
      · rcases mem_attrRows h with ⟨b, -, rfl⟩ | ⟨b, z, rfl⟩ <;> cases hh
      · unfold itemRows at h
        split at h
        · rcases mem_dictRows h with ⟨z, -, rfl⟩ | rfl
          · dsimp only at hh; split at hh <;> cases hh
          · cases hh
        · rename_i items hk
          rcases mem_seqRows h with ⟨j, z, hz, rfl⟩ | h
          · simp only [hits, decide_eq_true_eq] at hh; subst hh; exact ⟨items, z, hk, hz, rfl⟩
          · rw [h] at hh; cases hh
        · rw [mem_setRows h] at hh; cases hh
        · cases h
      · rw [h] at hh; cases hh
    rw [hv] at h
    obtain ⟨i1, z1, h1, h2, h3⟩ := key x hx h
    obtain ⟨i2, z2, h4, h5, h6⟩ := key r hr (by rw [hv]; simp [hits])
    rw [h1] at h4; injection h4 with h4; subst h4
    rw [h2] at h5; injection h5 with h5; subst h5
    rw [h3, h6]
  | key k =>
    have key : ∀ y, y ∈ objRows w lim n → ∀ l, y.via = .key l →
        ∃ items z, (w.obj n).kind = .dict items ∧ z ∈ items ∧ z.1 = l ∧ y = ⟨reprKey w.printable z.1, .obj z.2, .key z.1⟩ := by
      intro y hy l hh
      rcases mem_objRows hy with h | h | h
      · rcases mem_attrRows h with ⟨b, -, rfl⟩ | ⟨b, z, rfl⟩ <;> cases hh
      · unfold itemRows at h
        split at h
        · rename_i items hk
          rcases mem_dictRows h with ⟨z, hz, rfl⟩ | rfl
          · dsimp only at hh
            split at hh
            · rename_i hb
              injection hh with hh
              exact ⟨items, z, hk, hz, hh, by rw [if_pos hb]⟩
            · cases hh
          · cases hh
        · rcases mem_seqRows h with ⟨j, z, hz, rfl⟩ | h
          · cases hh
          · rw [h] at hh; cases hh
        · rw [mem_setRows h] at hh; cases hh
        · cases h
      · rw [h] at hh; cases hh
    obtain ⟨i2, z2, h4, h5, h7, h6⟩ := key r hr k hv
    cases hxv : x.via with
    | key l =>
      rw [hv, hxv] at h
      obtain ⟨i1, z1, h1, h2, h8, h3⟩ := key x hx l hxv
      rw [h1] at h4; injection h4 with h4; subst h4
      have : z1 = z2 := pairwise_same (hw n i1 h1) (fun a b => same_comm _ _) h2 h5 (by
        rw [h8, h7]; exact h)
      rw [h3, h6, this]
    | _ => rw [hv, hxv] at h; cases h

theorem grouped_put {g : Groups} {n m : Nat} {l : List Row} {r : Row} (hin : presOf g r = .inline)
    (hin' : presOf g { r with val := .obj m } = .inline) (hone : ∀ x ∈ l, hits r.via x.via = true → x = r) :
    grouped g (.obj n) (l.map (upd r.via m)) = (grouped g (.obj n) l).map (upd r.via m) := by
  unfold grouped
  dsimp only
  rw [List.map_append]
  have hpres : ∀ x ∈ l, presOf g (upd r.via m x) = presOf g x := by
    intro x hx
    unfold upd
    split
    · rename_i hh
      rw [hone x hx hh, hin, hin']
    · rfl
  have hinl : inlineRows g (l.map (upd r.via m)) = (inlineRows g l).map (upd r.via m) := by
    unfold inlineRows
    rw [List.filter_map]
    congr 1
    apply List.filter_congr
    intro x hx
    simp only [Function.comp, hpres x hx]
  have hgrp : groupRows g (l.map (upd r.via m)) = groupRows g l := by
    unfold groupRows
    congr 1
    funext s
    have : (l.map (upd r.via m)).filter (fun r => g.scope r.name r.val = some s && presOf g r = .group) =
        l.filter (fun r => g.scope r.name r.val = some s && presOf g r = .group) := by
      clear hinl
      induction l with
      | nil => rfl
      | cons x l ih =>
        have ih := ih (fun y hy => hone y (List.mem_cons_of_mem _ hy)) (fun y hy => hpres y (List.mem_cons_of_mem _ hy))
        rw [List.map_cons, List.filter_cons, List.filter_cons, ih]
        by_cases hh : hits r.via x.via = true
        · have hxr := hone x (List.mem_cons_self ..) hh
          have h1 : presOf g x = .inline := by rw [hxr]; exact hin
          have h2 := hpres x (List.mem_cons_self ..)
          rw [h1] at h2
          rw [h1, h2]
          simp
        · rw [upd_miss (by simpa using hh)]
    rw [this]
  rw [hinl, hgrp, map_miss (l := groupRows g l)]
  intro x hx
  unfold groupRows at hx
  obtain ⟨s, -, hs⟩ := List.mem_filterMap.mp hx
  split at hs
  · cases hs
  · injection hs with hs
    subst hs
    cases r.via <;> rfl

/-- **C113**, the answer: where elements, values and attributes are set as the built-in types and plain classes do, the response is
successful and shows, under the same name, the value that was set; provided the new value isn't put in a group
where the old one was not. -/
theorem c113_answer {env : Env} {g : Groups} {lim : Limits} {val : Value} {here : Option Nat} {w w1 : World} {f f1 : Frame}
    {v : Var} {hex : Bool} {name : Str} {r : Row} {n m : Nat} {c : Char} {cs : Str}
    (hreads : Reads env) (hw : w1.Ok) (hf : f1.Ok) (hb : BuiltIn env w1 n)
    (hv : v.val = .obj n) (he : v.eval = some (c :: cs)) (hrow : FirstRow env g lim false w v name r)
    (hrow1 : FirstRow env g lim hex w1 v name r)
    (hp : Place r.via) (hfair : r.via.Fair f1) (hname : Py.startsWith name c!"(return) " = false)
    (hval : val w f = (w1, f1, some m)) (hshown : Shown w1 g lim f1 v)
    (hin : presOf g { r with val := .obj m } = .inline) :
    ∃ x, setVariable env g lim val here w f (some v) hex name = ((put env w1 n m r.via).1, f1, .answer (some x)) ∧
      x.name = name ∧ x.val = .obj m := by
  rw [c113_place (hex := hex) (here := here) hreads hw hf hv he hrow hp hfair hname hval hshown]
  obtain ⟨a, b, hab, hn, ha⟩ := hrow1
  have hmem : r ∈ grouped g v.val (contents w1 lim v.val) := by rw [hab]; simp
  rw [hv] at hmem
  have hvia : r.via ≠ .nothing := by intro h; rw [h] at hp; exact hp
  have hobj : r ∈ objRows w1 lim n := by
    rcases mem_grouped hmem (by intro es h; cases h) with ⟨h, -⟩ | h
    · exact absurd h hvia
    · exact h
  have hinl : presOf g r = .inline := by
    rcases List.mem_append.mp (show r ∈ groupRows g _ ++ inlineRows g _ from hmem) with h | h
    · unfold groupRows at h
      obtain ⟨s, -, hs⟩ := List.mem_filterMap.mp h
      split at hs
      · cases hs
      · injection hs with hs; rw [← hs] at hvia; exact absurd rfl hvia
    · simpa using (List.mem_filter.mp h).2
  obtain ⟨hok, hrows⟩ := rows_put (m := m) hb hobj hp hfair
  rw [if_pos hok]
  have hfirst : FirstRow env g lim hex (put env w1 n m r.via).1 v name (upd r.via m r) := by
    refine ⟨a.map (upd r.via m), b.map (upd r.via m), ?_, ?_, ?_⟩
    · rw [hv] at hab ⊢
      show grouped g (.obj n) (objRows _ lim n) = _
      rw [hrows, grouped_put hinl hin (fun x hx h => hit_eq hw hobj hx h), show objRows w1 lim n = contents w1 lim (.obj n) from rfl,
        hab, List.map_append, List.map_cons]
    · rw [upd_name, upd_via]; exact hn
    · intro x hx
      obtain ⟨y, hy, rfl⟩ := List.mem_map.mp hx
      rw [upd_name, upd_via]; exact ha y hy
  rw [child_of_first hfirst]
  refine ⟨_, rfl, rfl, ?_⟩
  show (childVar _ v (upd r.via m r)).val = _
  rw [childVar_name]
  have : hits r.via r.via = true := by
    cases hv : r.via with
    | attr a => simp [hits]
    | index i => simp [hits]
    | key k =>
      simp only [hits]
      exact same_refl _
    | _ => rw [hv] at hp; exact hp.elim
  unfold upd
  rw [if_pos this]

/-! ### Sets -/

theorem find_natStr {items : List Nat} {x : Nat} (h : x ∈ items) : items.find? (fun y => Py.natStr y = Py.natStr x) = some x := by
  induction items with
  | nil => cases h
  | cons y l ih =>
    by_cases hy : y = x
    · subst hy; simp
    · have : Py.natStr y ≠ Py.natStr x := fun hh => hy (Containers.natStr_inj hh)
      rw [List.find?_cons_of_neg (by simpa using this)]
      exact ih (by rcases List.mem_cons.mp h with h | h; exact absurd h.symm hy; exact h)

/-- **C113**, sets: changing an element of a set takes that element (and what is equal to it: nothing else, in a set) out
and puts the new one in, unless an equal one is left; the other elements stay, and nothing else is changed. -/
theorem c113_set {env : Env} {g : Groups} {lim : Limits} {val : Value} {w : World} {f : Frame} {v : Var} {hex : Bool}
    {n x m : Nat} {items : List Nat} (hv : v.val = .obj n) (hk : (w.obj n).kind = .set items) (hx : x ∈ items)
    (hrow : FirstRow env g lim false w v (Py.natStr x) ⟨Py.natStr x, .obj x, .nothing⟩)
    (hname : Py.startsWith (Py.natStr x) c!"(return) " = false)
    (hh : env.hashable m = true) (hfr : env.frozen n = false) :
    ∃ items', setVariable env g lim val (some m) w f (some v) hex (Py.natStr x) =
        (replaced w n { w.obj n with kind := .set items' }, f, .answer (some ⟨Py.natStr m, .obj m, none⟩)) ∧
      (∀ y, y ≠ m → (y ∈ items' ↔ y ∈ items ∧ env.eqv x y = false)) ∧
      (m ∈ items' ∨ ∃ y ∈ items', env.eqv m y = true) := by
  refine ⟨swap env items x m, ?_, ?_, ?_⟩
  · unfold setVariable
    rw [if_neg (by rw [hname]; decide)]
    dsimp only
    unfold change
    rw [child_of_first hrow]
    have hev : (childVar w v ⟨Py.natStr x, .obj x, .nothing⟩).eval = none := by
      unfold childVar; split <;> rfl
    dsimp only
    rw [hev]
    dsimp only
    rw [hv]
    dsimp only
    rw [hk]
    dsimp only
    unfold changeSet
    rw [if_pos hh, find_natStr hx]
    dsimp only
    rw [if_neg (by rw [hfr]; decide)]
    rfl
  · intro y hy
    unfold swap
    dsimp only
    split
    · simp
    · simp [hy]
  · unfold swap
    dsimp only
    split
    · rename_i h
      exact .inr (List.any_eq_true.mp h)
    · exact .inl (by simp)

/-- A set that can't be changed: an exception goes out of the request, which is never answered. -/
theorem c113_frozenset_witness {env : Env} {g : Groups} {lim : Limits} {val : Value} {w : World} {f : Frame} {v : Var} {hex : Bool}
    {n x m : Nat} {items : List Nat} (hv : v.val = .obj n) (hk : (w.obj n).kind = .set items) (hx : x ∈ items)
    (hrow : FirstRow env g lim false w v (Py.natStr x) ⟨Py.natStr x, .obj x, .nothing⟩)
    (hname : Py.startsWith (Py.natStr x) c!"(return) " = false)
    (hh : env.hashable m = true) (hfr : env.frozen n = true) :
    setVariable env g lim val (some m) w f (some v) hex (Py.natStr x) = (w, f, .raises) := by
  unfold setVariable
  rw [if_neg (by rw [hname]; decide)]
  dsimp only
  unfold change
  rw [child_of_first hrow]
  have hev : (childVar w v ⟨Py.natStr x, .obj x, .nothing⟩).eval = none := by
    unfold childVar; split <;> rfl
  dsimp only
  rw [hev]
  dsimp only
  rw [hv]
  dsimp only
  rw [hk]
  dsimp only
  unfold changeSet
  rw [if_pos hh, find_natStr hx]
  dsimp only
  rw [if_pos hfr]

/-! ### An example and witnesses -/

open Classical in
/-- A parser that reads exactly the grammar, and built-in assignments. -/
noncomputable def exEnv : Env where
  parse t := if h : ∃ e, Means t e then some h.choose else none
  setattr w n a m := (replaced w n { w.obj n with get := fun b => if b = a then some m else (w.obj n).get b }, true)
  setitem w n k m :=
    match (w.obj n).kind, k with
    | .seq items, .int i =>
      if 0 ≤ i ∧ i.toNat < items.length then (replaced w n { w.obj n with kind := .seq (items.set i.toNat m) }, true) else (w, false)
    | .dict items, k =>
      if items.any fun x => x.1.norm.same k.norm then
        (replaced w n { w.obj n with kind := .dict (items.map fun x => if x.1.norm.same k.norm then (x.1, m) else x) }, true)
      else (replaced w n { w.obj n with kind := .dict (items ++ [(k, m)]) }, true)
    | _, _ => (w, false)
  eqv a b := a = b
  hashable _ := true
  frozen n := n = 31
  label hex s via := match via with
    | .index _ => if hex then c!"0x" ++ s else s
    | _ => s

open Classical in
theorem exEnv_reads : Reads exEnv := by
  intro t e h
  have hex : ∃ e, Means t e := ⟨e, h⟩
  show (if h : ∃ e, Means t e then some h.choose else none) = some e
  rw [dif_pos hex, means_unique h hex.choose_spec]

theorem exEnv_builtIn (w : World) (n : Nat) : BuiltIn exEnv w n := by
  constructor
  · intro items i m hk hi
    simp only [exEnv, hk]
    rw [if_pos ⟨by omega, by simpa using hi⟩]
    simp
  · intro items k m hk hx
    obtain ⟨x, hx, rfl⟩ := hx
    simp only [exEnv, hk]
    rw [if_pos (List.any_eq_true.mpr ⟨x, hx, same_refl _⟩)]
  · intro a m _; rfl

/-- Evaluating a text that gives an object and does nothing. -/
def gives (m : Nat) : Value := fun w f => (w, f, some m)

/-- Nothing is put in groups. -/
def noGroups : Groups := ⟨fun _ _ => none, fun _ => .inline, fun _ => []⟩

theorem a_shown : Shown exWorld noGroups exLim exFrame exA := by
  refine .frame (s := .locals) (x := c!"a") (n := 0) ?_ ?_ ?_ (by decide) (by intro h; cases h) (fun h => absurd h (by decide))
  · exact List.mem_append_right _ (List.mem_cons_self ..)
  · exact List.mem_cons_self ..
  · exact List.mem_cons_self ..

def exRow : Row := ⟨Py.natStr 0, .obj 1, .index 0⟩

theorem exRow_first (hex : Bool) : FirstRow exEnv noGroups exLim hex exWorld exA (if hex then c!"0x0" else c!"0") exRow :=
  ⟨[], [⟨Py.natStr 1, .obj 2, .index 1⟩, lenRow 2], by cases hex <;> rfl, by cases hex <;> (show _ = _; decide +kernel), by intro x hx; cases hx⟩

/-- `a[0] = 3` for a list `a`: the hypotheses of `c113_answer` hold, and only the first element is another. -/
theorem c113_example : ∃ x w, setVariable exEnv noGroups exLim (gives 3) none exWorld exFrame (some exA) false c!"0" =
      (w, exFrame, .answer (some x)) ∧ x.name = c!"0" ∧ x.val = .obj 3 ∧
    (w.obj 0).kind = .seq [3, 2] ∧ ∀ i, i ≠ 0 → w.obj i = exWorld.obj i := by
  obtain ⟨x, h, hn, hv⟩ := c113_answer (here := none) exEnv_reads exWorld_ok exFrame_ok (exEnv_builtIn _ _) (v := exA) rfl rfl (exRow_first false) (exRow_first false)
    trivial trivial (by decide) (rfl : gives 3 exWorld exFrame = _) a_shown (by decide +kernel)
  refine ⟨x, _, h, hn, hv, rfl, ?_⟩
  intro i hi
  show (if i = 0 then _ else _) = _
  rw [if_neg hi]

/-- The client shows numbers in base 16 and sets the first element under the name it has otherwise: it is set, and the response says
that it could not be. -/
theorem c113_hex_witness : ∃ w, setVariable exEnv noGroups exLim (gives 3) none exWorld exFrame (some exA) true c!"0" =
      (w, exFrame, .answer none) ∧ (w.obj 0).kind = .seq [3, 2] := by
  have h := c113_place (here := none) (hex := true) exEnv_reads exWorld_ok exFrame_ok (v := exA) rfl rfl (exRow_first false) trivial trivial
    (by decide) (rfl : gives 3 exWorld exFrame = _) a_shown
  refine ⟨(put exEnv exWorld 0 3 (.index 0)).1, h.trans ?_, rfl⟩
  rfl

/-- Under the name it is shown with, it can't be set at all. -/
theorem c113_hex_name_witness : setVariable exEnv noGroups exLim (gives 3) none exWorld exFrame (some exA) true c!"0x0" =
      (exWorld, exFrame, .answer none) := by
  apply c113_refused
  refine .inr (.inr ⟨exA, rfl, ?_⟩)
  intro r hr
  have hr : r ∈ [exRow, ⟨Py.natStr 1, .obj 2, .index 1⟩, lenRow 2] := hr
  simp only [List.mem_cons, List.not_mem_nil, or_false] at hr
  rcases hr with rfl | rfl | rfl <;> (show _ ≠ _; decide +kernel)

/-- The object `20` is a function: such values are shown in a group. -/
def fnGroups : Groups :=
  ⟨fun _ v => match v with | .obj 20 => some 2 | _ => none, fun _ => .group, fun _ => c!"function variables"⟩

theorem fn_shown : Shown exWorld fnGroups exLim exFrame exA := by
  refine .frame (s := .locals) (x := c!"a") (n := 0) ?_ ?_ ?_ (by decide) (by intro h; cases h) (fun h => absurd h (by decide))
  · exact List.mem_append_right _ (List.mem_cons_self ..)
  · exact List.mem_cons_self ..
  · exact List.mem_cons_self ..

/-- An element is set to a function: it is set, and the response says that it could not be, as it is in a group then. -/
theorem c113_function_witness : ∃ w, setVariable exEnv fnGroups exLim (gives 20) none exWorld exFrame (some exA) false c!"0" =
      (w, exFrame, .answer none) ∧ (w.obj 0).kind = .seq [20, 2] := by
  have hrow : FirstRow exEnv fnGroups exLim false exWorld exA c!"0" exRow :=
    ⟨[], [⟨Py.natStr 1, .obj 2, .index 1⟩, lenRow 2], rfl, by (show _ = _; decide +kernel), by intro x hx; cases hx⟩
  have h := c113_place (here := none) (hex := false) exEnv_reads exWorld_ok exFrame_ok (v := exA) rfl rfl hrow trivial trivial
    (by decide) (rfl : gives 20 exWorld exFrame = _) fn_shown
  refine ⟨(put exEnv exWorld 0 20 (.index 0)).1, h.trans ?_, rfl⟩
  have hn : child exEnv fnGroups exLim false (put exEnv exWorld 0 20 (.index 0)).1 exA c!"0" = none := by
    apply child_none
    intro r hr
    have hr : r ∈ [⟨c!"function variables", .group [(Py.natStr 0, some 20, .index 0)], .nothing⟩,
      ⟨Py.natStr 1, .obj 2, .index 1⟩, lenRow 2] := hr
    simp only [List.mem_cons, List.not_mem_nil, or_false] at hr
    rcases hr with rfl | rfl | rfl <;> (show _ ≠ _; decide +kernel)
  exact congrArg (fun o => ((put exEnv exWorld 0 20 (.index 0)).1, exFrame, Outcome.answer o)) hn

/-- The same frame after `a = b`. -/
def movedFrame : Frame := ⟨[(c!"a", 12), (c!"d", 4), (c!"b", 12)], []⟩

/-- After `a` was made to be another list, setting the first element of the list that is still shown sets the first element of the other list,
and the response is successful with the old value. -/
theorem c113_moved_witness : ∃ w x, setVariable exEnv noGroups exLim (gives 3) none exWorld movedFrame (some exA) false c!"0" =
      (w, movedFrame, .answer (some x)) ∧ x.val = .obj 1 ∧ (w.obj 0).kind = .seq [1, 2] ∧ (w.obj 12).kind = .seq [3, 6] := by
  have hm : Means c!"a[0]" (.sub (.name c!"a") (.lit (.int 0))) :=
    .prim (.sub (t := c!"a") (.name (by decide)) (.lit (Lit.nat (t := c!"0") ⟨by decide, by decide, by decide⟩)))
  unfold setVariable
  rw [if_neg (by decide)]
  dsimp only
  unfold change
  rw [child_of_first (name := c!"0") (exRow_first false)]
  have hev : (childVar exWorld exA exRow).eval = some ('a' :: c!"[0]") := by decide +kernel
  dsimp only
  rw [hev]
  dsimp only
  unfold exec
  rw [exEnv_reads _ _ hm]
  have hrow : FirstRow exEnv noGroups exLim false (put exEnv exWorld 12 3 (.index 0)).1 exA c!"0" exRow :=
    ⟨[], [⟨Py.natStr 1, .obj 2, .index 1⟩, lenRow 2], rfl, by (show _ = _; decide +kernel), by intro x hx; cases hx⟩
  refine ⟨(put exEnv exWorld 12 3 (.index 0)).1, { childVar (put exEnv exWorld 12 3 (.index 0)).1 exA exRow with name := c!"0" }, ?_, rfl, rfl, rfl⟩
  exact congrArg (fun o => ((put exEnv exWorld 12 3 (.index 0)).1, movedFrame, Outcome.answer o)) (child_of_first hrow)

/-- A set `30` of `1` and `2`. -/
def setWorld : World :=
  { exWorld with obj := fun i => if i = 30 ∨ i = 31 then ⟨.set [1, 2], [], fun _ => none, none⟩ else exObj i }

def exSet : Var := ⟨c!"s", .obj 30, some c!"s"⟩

theorem exSet_first : FirstRow exEnv noGroups exLim false setWorld exSet (Py.natStr 1) ⟨Py.natStr 1, .obj 1, .nothing⟩ :=
  ⟨[], [⟨Py.natStr 2, .obj 2, .nothing⟩, lenRow 2], rfl, rfl, by intro x hx; cases hx⟩

/-- The hypotheses of `c113_set` hold. The value that is put in is what the text is in the module of the debugger (`7`), not what
it is in the frame (`3`). -/
theorem c113_set_names_witness : ∃ w x, setVariable exEnv noGroups exLim (gives 3) (some 7) setWorld exFrame (some exSet) false (Py.natStr 1) =
      (w, exFrame, .answer (some x)) ∧ x.val = .obj 7 ∧ (w.obj 30).kind = .set [2, 7] := by
  obtain ⟨items, h, -⟩ := c113_set (g := noGroups) (lim := exLim) (val := gives 3) (hex := false) (m := 7) (f := exFrame) (n := 30) rfl rfl (List.mem_cons_self ..) exSet_first
    (by decide +kernel) rfl rfl
  refine ⟨_, _, h, rfl, ?_⟩
  have h2 : ((setVariable exEnv noGroups exLim (gives 3) (some 7) setWorld exFrame (some exSet) false (Py.natStr 1)).1.obj 30).kind = .set [2, 7] := by
    unfold setVariable
    rw [if_neg (by decide +kernel)]
    dsimp only
    unfold change
    rw [child_of_first exSet_first]
    show ((changeSet exEnv setWorld 30 [1, 2] (Py.natStr 1) 7).1.obj 30).kind = _
    unfold changeSet
    rw [if_pos (show exEnv.hashable 7 = true from rfl), find_natStr (List.mem_cons_self ..)]
    rfl
  rw [h] at h2
  exact h2

/-- The hypotheses of `c113_frozenset_witness` hold for the set `31`. -/
example : setVariable exEnv noGroups exLim (gives 3) (some 7) setWorld exFrame (some ⟨c!"z", .obj 31, some c!"z"⟩) false (Py.natStr 1) =
    (setWorld, exFrame, .raises) :=
  c113_frozenset_witness (n := 31) rfl rfl (List.mem_cons_self ..)
    ⟨[], [⟨Py.natStr 2, .obj 2, .nothing⟩, lenRow 2], rfl, rfl, by intro x hx; cases hx⟩ (by decide +kernel) rfl rfl

end SetVar
