import Verif.Grouping.Spec
/-! Property C16: grouping loses and duplicates nothing. -/

namespace Grouping
open Spec

theorem groupLoop_eq (pres : Scope → Presentation) (hrv : Bool) (lst newLst : List Entry)
    (gs : Scope → Option (List Entry)) :
    groupLoop pres hrv lst newLst gs =
      (newLst ++ lst.filter (fun e => wanted pres (getVarScope e hrv) = .inline),
       fun s => if pres s = .group ∧ (∃ e ∈ lst, getVarScope e hrv = some s)
                then some ((gs s).getD [] ++ lst.filter (fun e => getVarScope e hrv = some s)) else gs s) := by
  induction lst generalizing newLst gs with
  | nil => simp [groupLoop]
  | cons e rest ih =>
    simp only [groupLoop]
    cases hs : getVarScope e hrv with
    | none =>
      simp only
      rw [ih]
      simp [hs, wanted]
    | some sc =>
      simp only
      cases hp : pres sc with
      | hide =>
        simp only
        rw [ih]
        refine Prod.ext (by simp [hs, wanted, hp]) ?_
        funext s
        by_cases h : s = sc
        · subst h; simp [hp]
        · simp [hs, Ne.symm h]
      | inline =>
        simp only
        rw [ih]
        refine Prod.ext (by simp [hs, wanted, hp]) ?_
        funext s
        by_cases h : s = sc
        · subst h; simp [hp]
        · simp [hs, Ne.symm h]
      | group =>
        simp only
        rw [ih]
        refine Prod.ext (by simp [hs, wanted, hp]) ?_
        funext s
        by_cases h : s = sc
        · subst h
          simp only [hp, true_and, if_true, List.mem_cons, exists_eq_or_imp, hs, true_or, Option.getD_some]
          by_cases hr : ∃ x ∈ rest, getVarScope x hrv = some s
          · simp [hr, hs]
          · have : rest.filter (fun e => getVarScope e hrv = some s) = [] := by
              rw [List.filter_eq_nil_iff]
              intro x hx hc
              exact hr ⟨x, hx, by simpa using hc⟩
            simp [hr, hs, this]
        · simp [hs, Ne.symm h, h]

/-- The exact contents: for every configuration and list, first the groups in the fixed order, each with
the entries of its category in their original order, and no group that is empty or not configured as a
group; then the inline entries in their original order. -/
theorem c16_children (pres : Scope → Presentation) (lst : List Entry) :
    objectChildren false pres lst =
      ((([Scope.special, .prot, .function, .cls].filter
          (fun s => pres s = .group ∧ ∃ e ∈ lst, getVarScope e false = some s)).map
          (fun s => Child.group s (lst.filter (fun e => getVarScope e false = some s)))) ++
       (lst.filter (fun e => wanted pres (getVarScope e false) = .inline)).map .item) := by
  simp only [objectChildren, groupEntries, Bool.false_eq_true, if_false, groupLoop_eq, List.nil_append,
    Option.getD_none, scopesSorted]
  congr 1
  generalize [Scope.special, .prot, .function, .cls] = l
  induction l with
  | nil => rfl
  | cons s l ih =>
    by_cases h : pres s = .group ∧ ∃ e ∈ lst, getVarScope e false = some s
    · rw [List.filterMap_cons, List.filter_cons]
      simp only [h, and_self, if_true, Option.map_some, decide_true, List.map_cons]
      rw [← ih]
    · rw [List.filterMap_cons, List.filter_cons]
      simp only [h, if_false, Option.map_none, decide_false, Bool.false_eq_true]
      rw [← ih]

/-- Splitting a list by category into the categories of a duplicate-free list loses nothing. -/
theorem perm_split (f : Entry → Option Scope) (ss : List Scope) (hn : ss.Nodup) (lst : List Entry) :
    (ss.flatMap (fun s => lst.filter (fun e => f e = some s))).Perm
      (lst.filter (fun e => ∃ s ∈ ss, f e = some s)) := by
  induction ss with
  | nil => simp
  | cons s ss ih =>
    simp only [List.nodup_cons] at hn
    rw [List.flatMap_cons]
    refine (List.Perm.append_left _ (ih hn.2)).trans ?_
    have h1 := (List.filter_append_perm (fun e => f e = some s) (lst.filter (fun e => ∃ x ∈ s :: ss, f e = some x)))
    refine List.Perm.trans ?_ h1
    rw [List.filter_filter, List.filter_filter]
    refine List.Perm.of_eq ?_
    congr 1
    · apply List.filter_congr
      intro e _
      simp only [List.mem_cons, exists_eq_or_imp, Bool.decide_or]
      grind
    · apply List.filter_congr
      intro e _
      have : ∀ x ∈ ss, x ≠ s := by rintro x hx rfl; exact hn.1 hx
      by_cases h : f e = some s
      · simp only [h, decide_true, Bool.not_true, Bool.false_and]
        simp only [decide_eq_false_iff_not]
        rintro ⟨x, hx, hxe⟩
        exact this x hx (Option.some.inj hxe).symm
      · simp [h]

/-- The groups and inline entries, for either setting of `handle_return_values`, partition the entries that
are not hidden. -/
theorem groupEntries_perm (pres : Scope → Presentation) (hrv : Bool) (lst : List Entry) :
    ((groupEntries false pres hrv lst).2.flatMap (·.2) ++ (groupEntries false pres hrv lst).1).Perm
      (lst.filter (fun e => wanted pres (getVarScope e hrv) ≠ .hide)) := by
  simp only [groupEntries, Bool.false_eq_true, if_false, groupLoop_eq, List.nil_append, Option.getD_none]
  have hfm : (scopesSorted.filterMap (fun s => Option.map (fun es => (s, es))
      (if pres s = .group ∧ ∃ e ∈ lst, getVarScope e hrv = some s then
        some (lst.filter (fun e => getVarScope e hrv = some s)) else none))).flatMap (·.2)
      = (scopesSorted.filter (fun s => pres s = .group)).flatMap (fun s => lst.filter (fun e => getVarScope e hrv = some s)) := by
    generalize scopesSorted = l
    induction l with
    | nil => rfl
    | cons s l ih =>
      rw [List.filterMap_cons, List.filter_cons]
      by_cases hp : pres s = .group
      · by_cases hm : ∃ e ∈ lst, getVarScope e hrv = some s
        · simp only [hp, hm, and_self, if_true, Option.map_some, List.flatMap_cons, decide_true]
          rw [ih]
        · have : lst.filter (fun e => getVarScope e hrv = some s) = [] := by
            rw [List.filter_eq_nil_iff]
            intro x hx hc
            exact hm ⟨x, hx, by simpa using hc⟩
          simp only [hp, hm, and_false, if_false, Option.map_none, decide_true, if_true, List.flatMap_cons, this]
          rw [ih]; simp
      · simp only [hp, false_and, if_false, Option.map_none, decide_false, Bool.false_eq_true]
        rw [ih]
  rw [hfm]
  refine (List.Perm.append_right _ (perm_split (fun e => getVarScope e hrv) _ ?_ lst)).trans ?_
  · exact List.Nodup.sublist List.filter_sublist (by decide)
  · have h1 := List.filter_append_perm (fun e => wanted pres (getVarScope e hrv) = .group)
      (lst.filter (fun e => wanted pres (getVarScope e hrv) ≠ .hide))
    refine List.Perm.trans (List.Perm.of_eq ?_) h1
    rw [List.filter_filter, List.filter_filter]
    congr 1
    · apply List.filter_congr
      intro e he
      cases hs : getVarScope e hrv with
      | none => simp [wanted]
      | some s =>
        have hall : s ∈ scopesSorted := by cases s <;> simp [scopesSorted]
        simp only [wanted, List.mem_filter, decide_eq_true_eq]
        by_cases hp : pres s = .group
        · simp [hp, hall]
        · simp [hp]
    · apply List.filter_congr
      intro e he
      cases hw : wanted pres (getVarScope e hrv) <;> simp

/-- Every child that is not of a hidden category is shown exactly once, and nothing else is. -/
theorem c16_no_loss (pres : Scope → Presentation) (lst : List Entry) :
    (shown (objectChildren false pres lst)).Perm
      (lst.filter (fun e => wanted pres (getVarScope e false) ≠ .hide)) := by
  refine List.Perm.trans (List.Perm.of_eq ?_) (groupEntries_perm pres false lst)
  simp only [objectChildren, shown, List.flatMap_append, List.flatMap_map, shownIn]
  simp

/-- The children of a group are the entries of the group, unchanged. -/
theorem c16_group_contents (pres : Scope → Presentation) (lst : List Entry) :
    objectChildren true pres lst = lst.map .item := by
  simp [objectChildren, groupEntries]

/-- How a plain attribute name (one that does not start with a quote) is classified. -/
theorem c16_category (e : Entry) (hq : ¬ c!"'" <+: e.name) (hl : e.name ≠ c!"len()") :
    (getVarScope e false = some .special ↔ c!"__" <+: e.name ∧ c!"__" <:+ e.name) ∧
    (getVarScope e false = some .prot ↔
      (c!"_" <+: e.name ∨ c!"__" <:+ e.name) ∧ ¬ (c!"__" <+: e.name ∧ c!"__" <:+ e.name)) ∧
    (getVarScope e false = some .function ↔
      e.kind = .routine ∧ ¬ c!"_" <+: e.name ∧ ¬ c!"__" <:+ e.name) ∧
    (getVarScope e false = some .cls ↔
      e.kind = .cls ∧ ¬ c!"_" <+: e.name ∧ ¬ c!"__" <:+ e.name) := by
  have hpre : c!"__" <+: e.name → c!"_" <+: e.name := by
    intro h
    exact List.IsPrefix.trans ⟨c!"_", rfl⟩ h
  have hqf : Py.startsWith e.name c!"'" = false := by
    rw [← Bool.not_eq_true, Py.startsWith_iff]; exact hq
  simp only [getVarScope, effectiveName, hqf, Bool.false_eq_true, if_false, Bool.false_and, generatedLen, hl,
    ← Py.startsWith_iff, ← Py.endsWith_iff] at *
  cases h1 : Py.startsWith e.name c!"__" <;> cases h2 : Py.endsWith e.name c!"__" <;>
    cases h3 : Py.startsWith e.name c!"_" <;> cases h4 : e.kind <;> simp_all

/-- An entry of a dict whose shown key is quoted (`'key'`) is in no category. -/
theorem c16_category_key (e : Entry) (hrv : Bool) (h1 : c!"'" <+: e.name) (h2 : c!"'" <:+ e.name) : getVarScope e hrv = none := by
  simp [getVarScope, effectiveName, (Py.startsWith_iff _ _).2 h1, (Py.endsWith_iff _ _).2 h2]

/-- An entry `'name__' (id)` of a dict is classified as the attribute `name__` would be. -/
theorem c16_category_key_id (e e' : Entry) (hrv : Bool) (n r : List Char) (h : e.name = c!"'" ++ (n ++ (c!"__' (" ++ r)))
    (hn : Py.find c!"__' (" (c!"'" ++ (n ++ (c!"__' (" ++ r))) = some (1 + n.length)) (hr : ¬ c!"'" <:+ e.name)
    (hk : e'.kind = e.kind) (h' : e'.name = n ++ c!"__") (hq : ¬ c!"'" <+: e'.name) : getVarScope e hrv = getVarScope e' hrv := by
  have hs : Py.startsWith e.name c!"'" = true   := (Py.startsWith_iff _ _).2 (by rw [h]; exact ⟨_, rfl⟩)
  have he : Py.endsWith e.name c!"'" = false := by rw [← Bool.not_eq_true, Py.endsWith_iff]; exact hr
  have hq' : Py.startsWith e'.name c!"'" = false := by rw [← Bool.not_eq_true, Py.startsWith_iff]; exact hq
  have key : effectiveName e.name = some (n ++ c!"__") := by
    simp only [effectiveName, hs, he, if_true, Bool.false_eq_true, if_false]
    rw [h, hn]
    simp only [Option.some.injEq]
    have : (c!"'" ++ (n ++ (c!"__' (" ++ r))).drop 1 = (n ++ c!"__") ++ (c!"' (" ++ r) := by simp
    rw [this, List.take_append_of_le_length (by simp; omega), List.take_of_length_le (by simp; omega)]
  have key' : effectiveName e'.name = some (n ++ c!"__") := by
    rw [← h']
    simp only [effectiveName, hq', Bool.false_eq_true, if_false]
  unfold getVarScope
  rw [key, key', hk]

/-- Concrete: the entry for a key that compares equal to `'__init__'`. -/
theorem c16_category_key_example :
    Py.find c!"__' (" c!"'__init__' (123)" = some 7 ∧ getVarScope { name := c!"'__init__' (123)", value := 0, kind := .plain } false = some .special ∧
    getVarScope { name := c!"'__init__'", value := 0, kind := .plain } false = none := by
  decide

/-! ### Frames -/

theorem keyLe_total (a b : Nat × List Char) : keyLe a b = true ∨ keyLe b a = true := by
  simp only [keyLe]
  have := Py.strLe_total a.2 b.2
  grind

theorem keyLe_trans (a b c : Nat × List Char) (h1 : keyLe a b = true) (h2 : keyLe b c = true) : keyLe a c = true := by
  simp only [keyLe] at *
  have := Py.strLe_trans a.2 b.2 c.2
  grind

theorem returned_append (a b : List Child) : returned (a ++ b) = returned a ++ returned b := by
  induction a with
  | nil => rfl
  | cons c cs ih => cases c <;> simp [returned, ih]

theorem returned_eq_flatMap (a : List Child) :
    returned a = a.flatMap (fun c => match c with | .ret n v => [(n, v)] | _ => []) := by
  induction a with
  | nil => rfl
  | cons c cs ih => cases c <;> simp [returned, ih]

theorem shown_groups (pres : Scope → Presentation) (srt : Entry → Entry → Bool) (gs : List (Scope × List Entry)) :
    (shown (gs.map (fun g => Child.group g.1 (g.2.mergeSort srt)))).Perm (gs.flatMap (·.2)) := by
  induction gs with
  | nil => simp [shown]
  | cons g gs ih =>
    simp only [shown, List.map_cons, List.flatMap_cons, shownIn] at *
    exact List.Perm.append (List.mergeSort_perm _ _) ih

/-- The variables of a frame: every local that is neither hidden nor one of the debugger's own two names is
shown exactly once; the entries of the return-values dict are shown instead of it. -/
theorem c16_frame_no_loss (pres : Scope → Presentation) (dct : List Entry) :
    (shown (frameChildren pres dct)).Perm
      (dct.filter (fun e => e.name ≠ stopAtBreak ∧ e.name ≠ returnValuesDict ∧
        wanted pres (getVarScope e true) ≠ .hide)) := by
  simp only [frameChildren]
  have hg := groupEntries_perm pres true (dct.filter (fun e => e.name != stopAtBreak))
  have hg1 : ∀ e ∈ (groupEntries false pres true (dct.filter (fun e => e.name != stopAtBreak))).2.flatMap (·.2),
      e.name ≠ returnValuesDict := by
    intro e he hn
    simp only [groupEntries, Bool.false_eq_true, if_false, groupLoop_eq, List.nil_append, Option.getD_none,
      List.mem_flatMap, List.mem_filterMap, Option.map_eq_some_iff] at he
    obtain ⟨g, ⟨s, _, es, hes, rfl⟩, he⟩ := he
    split at hes
    · cases hes
      simp only [List.mem_filter, decide_eq_true_eq] at he
      have h0 : getVarScope e true = none := by
        simp only [getVarScope, effectiveName, hn]
        rw [show Py.startsWith returnValuesDict c!"'" = false from rfl]
        simp
      rw [h0] at he
      exact absurd he.2 (by simp)
    · cases hes
  revert hg hg1
  generalize groupEntries false pres true (dct.filter (fun e => e.name != stopAtBreak)) = ge
  intro hg hg1
  obtain ⟨newLst, groups⟩ := ge
  simp only at hg hg1 ⊢
  rw [shown, List.flatMap_append]
  have hsort : ((newLst.flatMap expand).mergeSort
      (fun a b => keyLe (sortKey (childName a)) (sortKey (childName b)))).flatMap shownIn |>.Perm
      (newLst.filter (fun e => e.name ≠ returnValuesDict)) := by
    refine ((List.mergeSort_perm _ _).flatMap_right _).trans (List.Perm.of_eq ?_)
    rw [List.flatMap_assoc]
    clear hg
    induction newLst with
    | nil => rfl
    | cons e es ih =>
      rw [List.flatMap_cons, ih, List.filter_cons]
      by_cases hn : e.name = returnValuesDict
      · simp only [expand, hn, if_true, ne_eq, not_true_eq_false, decide_false, Bool.false_eq_true, if_false]
        simp [List.flatMap_map, shownIn]
      · simp [expand, hn, shownIn]
  refine (List.Perm.append (shown_groups pres _ groups) hsort).trans ?_
  have h2 : (groups.flatMap (·.2)) = (groups.flatMap (·.2)).filter (fun e => e.name ≠ returnValuesDict) := by
    symm
    rw [List.filter_eq_self]
    intro e he
    simpa using hg1 e he
  rw [h2, ← List.filter_append]
  refine (hg.filter _).trans (List.Perm.of_eq ?_)
  rw [List.filter_filter, List.filter_filter]
  apply List.filter_congr
  intro e _
  by_cases h1 : e.name = stopAtBreak <;> by_cases h2 : e.name = returnValuesDict <;> simp [h1, h2]

/-- The return values shown are exactly the entries of the return-values dict. -/
theorem c16_frame_returned (pres : Scope → Presentation) (dct : List Entry) :
    (returned (frameChildren pres dct)).Perm
      ((dct.filter (fun e => e.name = returnValuesDict)).flatMap (·.items)) := by
  simp only [frameChildren, groupEntries, Bool.false_eq_true, if_false, groupLoop_eq, List.nil_append]
  rw [returned_append]
  have h0 : ∀ gs : List (Scope × List Entry), ∀ srt, returned (gs.map (fun g => Child.group g.1 (g.2.mergeSort srt))) = [] := by
    intro gs srt
    induction gs with
    | nil => rfl
    | cons g gs ih => simpa [returned] using ih
  rw [h0, List.nil_append, returned_eq_flatMap]
  refine ((List.mergeSort_perm _ _).flatMap_right _).trans (List.Perm.of_eq ?_)
  rw [List.flatMap_assoc]
  have hr : ∀ e : Entry, e.name = returnValuesDict → getVarScope e true = none := by
    intro e hn
    simp only [getVarScope, effectiveName, hn]
    rw [show Py.startsWith returnValuesDict c!"'" = false from rfl]
    simp
  induction dct with
  | nil => rfl
  | cons e es ih =>
    rw [List.filter_cons, List.filter_cons]
    by_cases hn : e.name = returnValuesDict
    · have h1 : (e.name != stopAtBreak) = true := by rw [hn]; decide
      rw [if_pos h1, if_pos (by simpa using hn), List.filter_cons, if_pos (by simp [hr e hn, wanted])]
      rw [List.flatMap_cons, List.flatMap_cons, ih]
      congr 1
      simp [expand, hn, List.flatMap_map]
    · simp only [hn, decide_false, Bool.false_eq_true, if_false]
      rw [← ih]
      split
      · rw [List.filter_cons]
        split
        · rw [List.flatMap_cons]; simp [expand, hn]
        · rfl
      · rfl

/-- The sort key used for names gives the documented order. -/
theorem c16_sort_key (a b : List Char) : keyLe (sortKey a) (sortKey b) = true ↔ NamesLe a b := by
  have h2 : ∀ x, (sortKey x).2 = x := by intro x; unfold sortKey; split <;> (try split) <;> rfl
  have h1 : ∀ x, (sortKey x).1 = nameClass x := by
    intro x
    unfold sortKey nameClass
    simp only [Py.startsWith_iff, Py.endsWith_iff]
    by_cases p2 : c!"__" <+: x
    · by_cases s2 : c!"__" <:+ x <;> simp [p2, s2]
    · by_cases p1 : c!"_" <+: x <;> simp [p2, p1]
  simp [keyLe, h1, h2, NamesLe]

/-- The variables of a frame are shown groups first, and both the variables and the contents of each group
are sorted: plain names, then `_x`, then `__x`, then `__x__`, alphabetically inside each. -/
theorem c16_frame_sorted (pres : Scope → Presentation) (dct : List Entry) :
    ∃ gs cs, frameChildren pres dct = gs ++ cs ∧
      (∀ g ∈ gs, ∃ s es, g = .group s es ∧ es.Pairwise (fun a b => NamesLe a.name b.name)) ∧
      (∀ c ∈ cs, ∀ s es, c ≠ .group s es) ∧
      cs.Pairwise (fun a b => NamesLe (childName a) (childName b)) := by
  refine ⟨_, _, rfl, ?_, ?_, ?_⟩
  · intro g hg
    simp only [List.mem_map] at hg
    obtain ⟨x, _, rfl⟩ := hg
    exact ⟨_, _, rfl, (List.pairwise_mergeSort
      (le := fun a b : Entry => keyLe (sortKey a.name) (sortKey b.name)) (fun a b c => keyLe_trans _ _ _)
      (fun a b => by rw [Bool.or_eq_true]; exact keyLe_total _ _) _).imp (fun h => (c16_sort_key _ _).1 h)⟩
  · intro c hc s es
    rw [List.mem_mergeSort, List.mem_flatMap] at hc
    obtain ⟨e, _, he⟩ := hc
    unfold expand at he
    split at he
    · simp only [List.mem_map] at he
      obtain ⟨i, _, rfl⟩ := he
      simp
    · simp only [List.mem_singleton] at he
      subst he; simp
  · exact (List.pairwise_mergeSort
      (le := fun a b : Child => keyLe (sortKey (childName a)) (sortKey (childName b))) (fun a b c => keyLe_trans _ _ _)
      (fun a b => by rw [Bool.or_eq_true]; exact keyLe_total _ _) _).imp (fun h => (c16_sort_key _ _).1 h)

def samplePres : Scope → Presentation
  | .special => .group
  | .prot => .hide
  | .function => .group
  | .cls => .inline

def sampleList : List Entry :=
  [⟨c!"f", 1, .routine, []⟩, ⟨c!"x", 2, .plain, []⟩, ⟨c!"__doc__", 3, .plain, []⟩, ⟨c!"_p", 4, .plain, []⟩,
   ⟨c!"C", 5, .cls, []⟩, ⟨c!"g", 6, .routine, []⟩]

example : objectChildren false samplePres sampleList =
    [.group .special [⟨c!"__doc__", 3, .plain, []⟩],
     .group .function [⟨c!"f", 1, .routine, []⟩, ⟨c!"g", 6, .routine, []⟩],
     .item ⟨c!"x", 2, .plain, []⟩, .item ⟨c!"C", 5, .cls, []⟩] := by decide
example : getVarScope ⟨c!"'__name__' (173)", 0, .plain, []⟩ false = some .special := by decide
example : getVarScope ⟨c!"'abc'", 0, .routine, []⟩ false = none := by decide
example : ¬ c!"'" <+: c!"_p" ∧ c!"_p" ≠ c!"len()" := by decide
example : ∃ e ∈ sampleList, wanted samplePres (getVarScope e false) = .hide := ⟨⟨c!"_p", 4, .plain, []⟩, by decide, by decide⟩

end Grouping
