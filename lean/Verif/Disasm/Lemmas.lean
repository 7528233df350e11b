import Verif.Disasm.Spec

/-! # Lemmas on the made-up source -/

namespace Disasm
open Spec

/-! ### Lines -/

theorem fillLines_get (is : List Instr) : ∀ (d : List (Nat × Nat)) (cur o : Nat), o ∉ is.map Instr.offset →
    Py.Dict.get (fillLines d cur is) o = Py.Dict.get d o := by
  induction is with
  | nil => intro d cur o _; rfl
  | cons i is ih =>
    intro d cur o ho
    simp only [List.map_cons, List.mem_cons, not_or] at ho
    unfold fillLines
    split
    · rw [ih _ _ _ ho.2, Py.Dict.get_set]; simp [ho.1]
    · rw [ih _ _ _ ho.2, Py.Dict.get_set]; simp [ho.1]

/-- The line of instruction `k` of a list, given the line before the list. -/
def lineFrom (starts : List (Nat × Nat)) (cur : Nat) (is : List Instr) : Nat → Nat
  | 0 => (Py.Dict.get starts (is[0]?.getD default).offset).getD cur
  | k + 1 => (Py.Dict.get starts (is[k + 1]?.getD default).offset).getD (lineFrom starts cur is k)

theorem lineFrom_cons (starts : List (Nat × Nat)) (cur : Nat) (i : Instr) (is : List Instr) (k : Nat) :
    lineFrom starts cur (i :: is) (k + 1)
      = lineFrom starts ((Py.Dict.get starts i.offset).getD cur) is k := by
  induction k with
  | zero => simp [lineFrom]
  | succ k ih => rw [lineFrom, ih]; simp [lineFrom]

theorem lineFrom_congr (s s' : List (Nat × Nat)) (is : List Instr)
    (h : ∀ i ∈ is, Py.Dict.get s i.offset = Py.Dict.get s' i.offset) :
    ∀ (k cur : Nat), k < is.length → lineFrom s cur is k = lineFrom s' cur is k := by
  intro k
  induction k with
  | zero =>
    intro cur hk
    simp only [lineFrom, List.getElem?_eq_getElem hk, Option.getD_some]
    rw [h _ (List.getElem_mem _)]
  | succ k ih =>
    intro cur hk
    simp only [lineFrom, List.getElem?_eq_getElem hk, Option.getD_some]
    rw [h _ (List.getElem_mem _), ih cur (by omega)]

theorem fillLines_line (is : List Instr) : ∀ (d : List (Nat × Nat)) (cur : Nat), (is.map Instr.offset).Nodup →
    ∀ (k : Nat) (i : Instr), is[k]? = some i →
    Py.Dict.get (fillLines d cur is) i.offset = some (lineFrom d cur is k) := by
  induction is with
  | nil => intro d cur _ k i h; simp at h
  | cons j is ih =>
    intro d cur nd k i h
    rw [List.map_cons, List.nodup_cons] at nd
    have key : ∀ l, (Py.Dict.get d j.offset).getD cur = l →
        Py.Dict.get (fillLines (Py.Dict.set d j.offset l) l is) i.offset = some (lineFrom d cur (j :: is) k) := by
      intro l hl
      cases k with
      | zero =>
        simp only [List.getElem?_cons_zero, Option.some.injEq] at h
        subst h
        rw [fillLines_get _ _ _ _ nd.1, Py.Dict.get_set]
        simp [lineFrom, hl]
      | succ k =>
        simp only [List.getElem?_cons_succ] at h
        rw [ih _ _ nd.2 k i h, lineFrom_cons, hl]
        congr 1
        apply lineFrom_congr
        · intro x hx
          rw [Py.Dict.get_set]
          have : x.offset ≠ j.offset := by
            intro e
            exact nd.1 (by rw [← e]; exact List.mem_map_of_mem hx)
          simp [this]
        · exact (List.getElem?_eq_some_iff.1 h).1
    unfold fillLines
    split
    · rename_i l hl
      exact key l (by rw [hl]; rfl)
    · rename_i hl
      exact key cur (by rw [hl]; rfl)

theorem lineAt_eq (c : Code) (k : Nat) : lineAt c k = lineFrom c.starts c.first c.instrs k := by
  induction k with
  | zero => rfl
  | succ k ih => rw [lineAt, lineFrom, ih]

theorem lineOf_eq {c : Code} (f : Formed c) {k : Nat} {i : Instr} (h : c.instrs[k]? = some i) :
    lineOf c.lines i = lineAt c k := by
  cases f with
  | mk offsets =>
    unfold lineOf Code.lines
    rw [fillLines_line _ _ _ offsets k i h, lineAt_eq]; rfl

theorem lineOf_offset (lines : List (Nat × Nat)) {i j : Instr} (h : i.offset = j.offset) : lineOf lines i = lineOf lines j := by
  unfold lineOf; rw [h]

/-! ### Parts -/

mutual
/-- The texts of a part with the lines they go to. -/
def Part.leaves (l : Nat) : Part → List (Nat × Text)
  | .text s => [(l, s)]
  | .many ps => leavesOf l ps
  | .msg l' tok => tok.leaves l'
def leavesOf (l : Nat) : List Part → List (Nat × Text)
  | [] => []
  | p :: ps => p.leaves l ++ leavesOf l ps
end

theorem leavesOf_append (l : Nat) (a b : List Part) : leavesOf l (a ++ b) = leavesOf l a ++ leavesOf l b := by
  induction a with
  | nil => simp [leavesOf]
  | cons p ps ih => simp [leavesOf, ih]

/-- A text that may be on a line. -/
def Piece (c : Code) (l : Nat) (t : Text) : Prop := t ∈ fixed ∨ Shows c l t

mutual
/-- Every text of a part may be where it goes, every line of a part has an instruction. -/
def Part.Ok (c : Code) (l : Nat) : Part → Prop
  | .text s => HasLine c l ∧ Piece c l s
  | .many ps => OkAll c l ps
  | .msg l' tok => HasLine c l' ∧ tok.Ok c l'
def OkAll (c : Code) (l : Nat) : List Part → Prop
  | [] => True
  | p :: ps => p.Ok c l ∧ OkAll c l ps
end

theorem okAll_append (c : Code) (l : Nat) (a b : List Part) : OkAll c l (a ++ b) ↔ OkAll c l a ∧ OkAll c l b := by
  induction a with
  | nil => simp [OkAll]
  | cons p ps ih => simp [OkAll, ih, and_assoc]

/-- The lines of contents have instructions and only such texts as may be there. -/
def DOk (c : Code) (d : Contents) : Prop :=
  ∀ e ∈ d, HasLine c e.1 ∧ ∀ t, some t ∈ e.2 → Piece c e.1 t

/-- The text is among the contents of the line. -/
def CHas (d : Contents) (l : Nat) (t : Text) : Prop := ∃ cs, Py.Dict.get d l = some cs ∧ some t ∈ cs

theorem mem_set_of {d : Contents} {k : Nat} {v : List (Option Text)} {e : Nat × List (Option Text)}
    (h : e ∈ Py.Dict.set d k v) : e ∈ d ∨ e = (k, v) := by
  induction d with
  | nil => simp [Py.Dict.set] at h; exact .inr h
  | cons x xs ih =>
    unfold Py.Dict.set at h
    split at h
    · rcases List.mem_cons.1 h with h | h
      · grind
      · exact .inl (List.mem_cons_of_mem _ h)
    · rcases List.mem_cons.1 h with h | h
      · exact .inl (by rw [h]; exact List.mem_cons_self)
      · rcases ih h with h | h
        · exact .inl (List.mem_cons_of_mem _ h)
        · exact .inr h

theorem addTo_ok {c : Code} {d : Contents} {l : Nat} {more : List (Option Text)} (h : DOk c d) (hl : HasLine c l)
    (hm : ∀ t, some t ∈ more → Piece c l t) : DOk c (addTo d l more) := by
  intro e he
  rcases mem_set_of he with he | he
  · exact h e he
  · subst he
    refine ⟨hl, ?_⟩
    intro t ht
    rcases List.mem_append.1 ht with ht | ht
    · cases hg : Py.Dict.get d l with
      | none => rw [hg] at ht; simp at ht
      | some cs =>
        rw [hg] at ht
        exact (h _ (Py.Dict.mem_of_get hg)).2 t ht
    · exact hm t ht

theorem addTo_has {d : Contents} {l : Nat} {more : List (Option Text)} {l' : Nat} {t : Text} :
    CHas (addTo d l more) l' t ↔ CHas d l' t ∨ (l' = l ∧ some t ∈ more) := by
  unfold CHas addTo
  rw [Py.Dict.get_set]
  by_cases h : l' = l
  · subst h
    cases hg : Py.Dict.get d l' with
    | none => simp
    | some cs => simp [or_comm]
  · simp [h]

theorem addTo_keys {d : Contents} (h : Py.Dict.Ok d) (l : Nat) (more : List (Option Text)) : Py.Dict.Ok (addTo d l more) :=
  Py.Dict.ok_set h _ _

mutual
theorem Part.addTo_ok {c : Code} {d : Contents} (h : DOk c d) (l : Nat) :
    ∀ p : Part, p.Ok c l → DOk c (p.addTo d l)
  | .text s, hp => by
    simp only [Part.Ok] at hp
    simp only [Part.addTo]
    exact Disasm.addTo_ok h hp.1 (by simp; exact hp.2)
  | .many ps, hp => by
    simp only [Part.Ok] at hp
    simp only [Part.addTo]
    exact addParts_ok h l ps hp
  | .msg l' tok, hp => by
    simp only [Part.Ok] at hp
    simp only [Part.addTo]
    exact Part.addTo_ok h l' tok hp.2
theorem addParts_ok {c : Code} {d : Contents} (h : DOk c d) (l : Nat) :
    ∀ ps : List Part, OkAll c l ps → DOk c (addParts d l ps)
  | [], _ => by simpa [addParts] using h
  | p :: ps, hp => by
    simp only [OkAll] at hp
    simp only [addParts]
    exact addParts_ok (Part.addTo_ok h l p hp.1) l ps hp.2
end

mutual
theorem Part.addTo_has {d : Contents} (l l' : Nat) (t : Text) :
    ∀ p : Part, CHas (p.addTo d l) l' t ↔ CHas d l' t ∨ (l', t) ∈ p.leaves l
  | .text s => by
    simp only [Part.addTo, Part.leaves, Disasm.addTo_has]; simp
  | .many ps => by
    simp only [Part.addTo, Part.leaves]
    exact addParts_has l l' t ps
  | .msg l'' tok => by
    simp only [Part.addTo, Part.leaves]
    exact Part.addTo_has l'' l' t tok
theorem addParts_has {d : Contents} (l l' : Nat) (t : Text) :
    ∀ ps : List Part, CHas (addParts d l ps) l' t ↔ CHas d l' t ∨ (l', t) ∈ leavesOf l ps
  | [] => by simp [addParts, leavesOf]
  | p :: ps => by
    simp only [addParts, leavesOf, addParts_has l l' t ps, Part.addTo_has l l' t p, List.mem_append, or_assoc]
end

mutual
theorem Part.addTo_keys {d : Contents} (h : Py.Dict.Ok d) (l : Nat) : ∀ p : Part, Py.Dict.Ok (p.addTo d l)
  | .text s => by simp only [Part.addTo]; exact Disasm.addTo_keys h _ _
  | .many ps => by simp only [Part.addTo]; exact addParts_keys h l ps
  | .msg l' tok => by simp only [Part.addTo]; exact Part.addTo_keys h l' tok
theorem addParts_keys {d : Contents} (h : Py.Dict.Ok d) (l : Nat) : ∀ ps : List Part, Py.Dict.Ok (addParts d l ps)
  | [] => by simpa [addParts] using h
  | p :: ps => by simp only [addParts]; exact addParts_keys (Part.addTo_keys h l p) l ps
end

mutual
theorem Part.maxLine_ok {c : Code} (l : Nat) {m : Nat} : ∀ p : Part, p.Ok c l → p.maxLine = some m → HasLine c m
  | .text s, _, hm => by simp [Part.maxLine] at hm
  | .many ps, hp, hm => by
    simp only [Part.Ok] at hp; simp only [Part.maxLine] at hm
    exact maxLines_ok l ps hp hm
  | .msg l' tok, hp, hm => by
    simp only [Part.Ok] at hp; simp only [Part.maxLine, Option.some.injEq] at hm
    subst hm; exact hp.1
theorem maxLines_ok {c : Code} (l : Nat) {m : Nat} : ∀ ps : List Part, OkAll c l ps → maxLines ps = some m → HasLine c m
  | [], _, hm => by simp [maxLines] at hm
  | p :: ps, hp, hm => by
    simp only [OkAll] at hp
    simp only [maxLines] at hm
    split at hm
    · rename_i a b ha hb
      simp only [Option.some.injEq] at hm
      rcases Nat.le_total a b with h | h
      · rw [Nat.max_eq_right h] at hm; subst hm; exact maxLines_ok l ps hp.2 hb
      · rw [Nat.max_eq_left h] at hm; subst hm; exact Part.maxLine_ok l p hp.1 ha
    · rename_i a ha hb
      simp only [Option.some.injEq] at hm
      subst hm; exact Part.maxLine_ok l p hp.1 ha
    · exact maxLines_ok l ps hp.2 hm
end

mutual
theorem Part.minLine_ok {c : Code} (l : Nat) : ∀ p : Part, p.Ok c l → p.minLine = bigLine ∨ HasLine c p.minLine
  | .text s, _ => by simp [Part.minLine]
  | .many ps, hp => by
    simp only [Part.Ok] at hp; simp only [Part.minLine]
    exact minLines_ok l ps hp
  | .msg l' tok, hp => by
    simp only [Part.Ok] at hp; simp only [Part.minLine]
    rcases Nat.le_total bigLine l' with h | h
    · exact .inl (Nat.min_eq_left h)
    · right; rw [Nat.min_eq_right h]; exact hp.1
theorem minLines_ok {c : Code} (l : Nat) : ∀ ps : List Part, OkAll c l ps → minLines ps = bigLine ∨ HasLine c (minLines ps)
  | [], _ => by simp [minLines]
  | p :: ps, hp => by
    simp only [OkAll] at hp
    simp only [minLines]
    rcases Nat.le_total p.minLine (minLines ps) with h | h
    · rw [Nat.min_eq_left h]; exact Part.minLine_ok l p hp.1
    · rw [Nat.min_eq_right h]; exact minLines_ok l ps hp.2
end

theorem add_ok {c : Code} {d : Contents} (h : DOk c d) {s : Part} (hp : s.Ok c 0) : DOk c (add d s) := by
  unfold add
  have h1 := Part.addTo_ok h 0 s hp
  dsimp only
  split
  · rename_i m hm
    exact addTo_ok h1 (Part.maxLine_ok 0 s hp hm) (by simp)
  · exact h1

theorem add_has {d : Contents} {s : Part} {l : Nat} {t : Text} :
    CHas (add d s) l t ↔ CHas d l t ∨ (l, t) ∈ s.leaves 0 := by
  unfold add
  dsimp only
  split
  · rw [addTo_has, Part.addTo_has]; simp
  · rw [Part.addTo_has]

theorem add_keys {d : Contents} (h : Py.Dict.Ok d) (s : Part) : Py.Dict.Ok (add d s) := by
  unfold add
  dsimp only
  split
  · exact addTo_keys (Part.addTo_keys h 0 s) _ _
  · exact Part.addTo_keys h 0 s

theorem mergeIn_ok {c : Code} (inner : Contents) (hi : DOk c inner) : ∀ {d : Contents}, DOk c d → DOk c (mergeIn d inner) := by
  induction inner with
  | nil => intro d h; exact h
  | cons e rest ih =>
    intro d h
    obtain ⟨l, cs⟩ := e
    have he := hi (l, cs) List.mem_cons_self
    refine ih (fun e he => hi e (List.mem_cons_of_mem _ he)) (addTo_ok h he.1 ?_)
    intro t ht
    rcases List.mem_cons.1 ht with ht | ht
    · left
      obtain rfl := Option.some.inj ht
      simp [fixed]
    · exact he.2 t ht

theorem mergeIn_keeps (inner : Contents) : ∀ {d : Contents} {l : Nat} {t : Text}, CHas d l t → CHas (mergeIn d inner) l t := by
  induction inner with
  | nil => intro d l t h; exact h
  | cons e rest ih =>
    intro d l t h
    exact ih (addTo_has.2 (.inl h))

theorem mergeIn_has (inner : Contents) {l : Nat} {cs : List (Option Text)} {t : Text} (h : (l, cs) ∈ inner) (ht : some t ∈ cs) :
    ∀ {d : Contents}, CHas (mergeIn d inner) l t := by
  induction inner with
  | nil => simp at h
  | cons e rest ih =>
    intro d
    rcases List.mem_cons.1 h with h | h
    · subst h
      exact mergeIn_keeps rest (addTo_has.2 (.inr ⟨rfl, List.mem_cons_of_mem _ ht⟩))
    · exact ih h

theorem mergeIn_keys (inner : Contents) : ∀ {d : Contents}, Py.Dict.Ok d → Py.Dict.Ok (mergeIn d inner) := by
  induction inner with
  | nil => intro d h; exact h
  | cons e rest ih => intro d h; exact ih (addTo_keys h _ _)

/-! ### Weights -/

mutual
def Arg.weight : Arg → Nat
  | .num _ => 0
  | .code c => c.weight
  | .other _ _ => 0
def Instr.weight : Instr → Nat
  | .mk _ a _ _ _ => 1 + a.weight
def Code.weight : Code → Nat
  | .mk _ _ is => 1 + weights is
def weights : List Instr → Nat
  | [] => 0
  | i :: is => i.weight + weights is
end

theorem weights_append (a b : List Instr) : weights (a ++ b) = weights a + weights b := by
  induction a with
  | nil => simp [weights]
  | cons i is ih => simp only [List.cons_append, weights, ih]; omega

theorem Instr.weight_eq (i : Instr) : i.weight = 1 + i.arg.weight := by
  cases i; simp [Instr.weight, Instr.arg]

theorem Code.weight_eq (c : Code) : c.weight = 1 + weights c.instrs := by
  cases c; simp [Code.weight, Code.instrs]

theorem merged_weight (i : Instr) (r : List Part) : (merged i r).weight = i.weight := by
  cases i; simp [merged, Instr.weight, Instr.arg]

theorem weights_drop (is : List Instr) (n : Nat) : weights (is.drop n) ≤ weights is := by
  have h : weights is = weights (is.take n) + weights (is.drop n) := by rw [← weights_append, List.take_append_drop]
  omega

/-! ### What is left to show -/

/-- An instruction of the list comes from the code: it is one of its instructions, or stands for
several that have been put together, the first of which was a load. -/
def Item (c : Code) (j : Instr) : Prop :=
  ∃ k i, c.instrs[k]? = some i ∧ j.op = i.op ∧ j.arg = i.arg ∧ j.offset = i.offset ∧
    ((j.repr = i.repr ∧ j.target = i.target) ∨
     (j.target = false ∧ isLoad j = true ∧ (∀ d, ¬ LoadsCode j d) ∧ ∃ ps, j.repr = .many ps ∧ OkAll c (lineAt c k) ps))

/-- What must follow an instruction. -/
def Follows (i : Instr) (is : List Instr) : Prop :=
  (i.op = c!"PRECALL" → ∃ j, is[0]? = some j ∧ j.op = c!"CALL") ∧
  (∀ d, LoadsCode i d → (∃ j, is[0]? = some j ∧ j.op = c!"MAKE_FUNCTION") ∨
      (∃ j m, is[0]? = some j ∧ j.op = c!"LOAD_CONST" ∧ (∀ e, j.arg ≠ .code e) ∧
        is[1]? = some m ∧ m.op = c!"MAKE_FUNCTION"))

/-- `Follows` all along. -/
def Chain : List Instr → Prop
  | [] => True
  | i :: is => Follows i is ∧ Chain is

/-- The opnames with which code does not end. -/
def notLast : List Text :=
  [c!"LOAD_GLOBAL", c!"LOAD_FAST", c!"LOAD_CONST", c!"LOAD_NAME",
      c!"LOAD_ATTR", c!"CALL_FUNCTION", c!"PRECALL", c!"CALL", c!"BUILD_TUPLE", c!"POP_TOP"]

/-- What is true of the instructions left. -/
structure Inv (c : Code) (is : List Instr) : Prop where
  items : ∀ j ∈ is, Item c j
  chain : Chain is
  last : ∀ i, is.getLast? = some i → i.op ∉ notLast

/-- The argument `r`, for line `l`, is to be shown by the instruction. -/
def Owes (lines : List (Nat × Nat)) (j : Instr) (l : Nat) (r : Text) : Prop :=
  (j.repr = .text r ∧ l = lineOf lines j) ∨
  (∃ ps t, j.repr = .many ps ∧ Names r t ∧ (l, t) ∈ leavesOf (lineOf lines j) ps)

/-- Something must be seen of the instruction. -/
def Visible (j : Instr) : Prop := j.op ∉ implicit ∧ ∀ d, ¬ LoadsCode j d

/-- Nothing gets lost in a round: what is owed is shown or still owed. -/
def Keeps (lines : List (Nat × Nat)) (olds : List Instr) (s : List (Nat × Text)) (left : List Instr) : Prop :=
  ∀ j ∈ olds, (Visible j → ∀ l r, Owes lines j l r → r ≠ [] →
      (∃ t, Names r t ∧ (l, t) ∈ s) ∨ ∃ j' ∈ left, Visible j' ∧ Owes lines j' l r) ∧
    (∀ d, LoadsCode j d → j ∈ left)

theorem names_refl (r : Text) : Names r r := .inl rfl

theorem names_trim {r : Text} (hr : ∀ s, r = s ++ c!"+ NULL" → ∃ t, s = t ++ c!" " ∧ t ≠ c!"NULL +") : Names r (trim r) := by
  unfold trim
  dsimp only
  have h1 : ∀ x, r = x ∨ r = c!"NULL + " ++ x → (∀ s, x = s ++ c!"+ NULL" → ∃ t, s = t ++ c!" ") →
      Names r (if Py.endsWith x c!"+ NULL" = true then x.take (x.length - 7) else x) := by
    intro x hx hs
    split
    · rename_i he
      obtain ⟨s, hs'⟩ := (Py.endsWith_iff _ _).1 he
      obtain ⟨t, rfl⟩ := hs s hs'.symm
      have ht : x = t ++ c!" + NULL" := by rw [← hs']; simp
      have : x.take (x.length - 7) = t := by
        rw [ht]; simp
      rw [this]
      rcases hx with hx | hx
      · right; right; left; rw [hx, ht]
      · right; right; right; rw [hx, ht]
    · rcases hx with hx | hx
      · exact .inl hx
      · exact .inr (.inl hx)
  split
  · rename_i hp
    obtain ⟨x, hx⟩ := (Py.startsWith_iff _ _).1 hp
    have hd : r.drop 7 = x := by rw [← hx]; simp
    rw [hd]
    refine h1 x (.inr hx.symm) ?_
    intro s hs
    obtain ⟨t, ht⟩ := hr (c!"NULL + " ++ s) (by rw [← hx, hs]; simp)
    rcases List.eq_nil_or_concat s with rfl | ⟨s', a, rfl⟩
    · exfalso
      apply ht.2
      have : c!"NULL +" ++ c!" " = t ++ c!" " := by rw [← ht.1]; rfl
      exact (List.append_cancel_right this).symm
    · have h2 : (c!"NULL + " ++ s') ++ [a] = t ++ c!" " := by rw [← ht.1]; simp
      obtain ⟨_, h3⟩ := List.append_inj' h2 rfl
      exact ⟨s', by rw [List.concat_eq_append, h3]⟩
  · exact h1 r (.inl rfl) (fun s hs => (hr s hs).imp fun _ h => h.1)

end Disasm
