import Verif.Resolver.Containers
/-!
C53: dictionaries and sets are shown completely, and the names of their items resolve.
-/

namespace Containers

/-! Names -/

theorem natStr_inj {a b : Nat} (h : Py.natStr a = Py.natStr b) : a = b := by
  have h1 := Py.parseInt_intStr (Int.ofNat a)
  have h2 := Py.parseInt_intStr (Int.ofNat b)
  simp only [Py.intStr] at h1 h2
  rw [h] at h1
  rw [h1] at h2
  cases h2
  rfl

theorem natStr_no_paren (n : Nat) (c : Char) (hc : c ∈ Py.natStr n) : c ≠ '(' := by
  intro h
  subst h
  exact absurd (Py.natStr_digits n _ hc) (by decide)

theorem last_split (a w : Str) (h : '(' ∉ w) : (Py.split1 '(' (a ++ '(' :: w)).getLastD [] = w := by
  rw [Py.split1_append_sep, Py.split1_of_not_mem _ w h]
  simp

theorem idLabel_last (k : Obj) : (Py.split1 '(' (idLabel k)).getLastD [] = c!"id: " ++ (Py.natStr k.id ++ [')']) := by
  have := last_split (k.text ++ [' ']) (c!"id: " ++ (Py.natStr k.id ++ [')'])) (by
    simp only [List.mem_append, not_or]
    exact ⟨by decide, fun h => natStr_no_paren _ _ h rfl, by decide⟩)
  rw [← this]
  simp [idLabel]

theorem idLabel_inj {a b : Obj} (h : idLabel a = idLabel b) : a.id = b.id := by
  have := idLabel_last a
  rw [h, idLabel_last b] at this
  have := List.append_cancel_left this
  exact (natStr_inj (List.append_cancel_right this)).symm

/-! Dictionaries, as the client sees them -/

/-- no key is represented as a text that ends with the id of another key whose text is the rest -/
def Plain {V : Type} (d : List (Obj × V)) : Prop := ∀ a ∈ d, ∀ b ∈ d, a.1.text ≠ idLabel b.1

/-- different keys are different objects -/
def Objects {V : Type} (d : List (Obj × V)) : Prop := (d.map (fun e => e.1.id)).Nodup

/-- the row of an item -/
def itemRow {V : Type} (n : Str) (e : Obj × V) : Row V :=
  ⟨n, .value e.2, if e.1.literal then some ('[' :: (e.1.plain ++ [']'])) else none⟩

/-- names for the items: each is the key's text, or that with the key's id -/
inductive Names {V : Type} : List (Obj × V) → List Str → Prop
  | nil : Names [] []
  | cons (e : Obj × V) (d : List (Obj × V)) (n : Str) (ns : List Str) : (n = e.1.text ∨ n = idLabel e.1) → Names d ns → Names (e :: d) (n :: ns)

/-- the items that are shown: all, or the first ones -/
def shown {V : Type} (max : Int) (d : List V) : List V := if (d.length : Int) < max then d else d.take max.toNat

/-- the mark that there may be more -/
def mark {V : Type} (max : Int) (n : Nat) : List (Row V) := if (n : Int) < max then [] else [⟨tooLargeName, .tooLarge, none⟩]

theorem dictLoop_eq {V : Type} (max : Int) (d : List (Obj × V)) (i : Nat) (hi : (i : Int) < max) (found : List Str)
    (before : List (Obj × V)) (hf : ∀ x ∈ found, ∃ b ∈ before, x = b.1.text ∨ x = idLabel b.1)
    (hp : Plain (before ++ d)) (ho : Objects (before ++ d)) :
    ∃ ns, Names (shown (max - i) d) ns ∧ ns.Nodup ∧ (∀ n ∈ ns, n ∉ found) ∧
      dictLoop max i found d = (ns.zip (shown (max - i) d)).map (fun e => itemRow e.1 e.2) ++ (if d = [] then [] else mark (max - i) d.length) := by
  induction d generalizing i found before with
  | nil => exact ⟨[], by simp [shown, Names.nil], by simp, by simp, by simp [dictLoop, shown]⟩
  | cons e d ih =>
    obtain ⟨k, v⟩ := e
    have hkb : ∀ b ∈ before, b.1.id ≠ k.id := by
      intro b hb h
      simp only [Objects, List.map_append, List.map_cons, List.nodup_append] at ho
      exact ho.2.2 b.1.id (List.mem_map.2 ⟨b, hb, rfl⟩) k.id (by simp) h
    have hnf : dictName found k ∉ found := by
      unfold dictName
      split
      · assumption
      · intro h
        obtain ⟨b, hb, h | h⟩ := hf _ h
        · exact hp b (by simp [hb]) (k, v) (by simp) h.symm
        · exact hkb b hb (idLabel_inj h).symm
    have hform : dictName found k = k.text ∨ dictName found k = idLabel k := by
      unfold dictName; split <;> simp
    unfold dictLoop
    by_cases hlast : (i : Int) + 1 ≥ max
    · have h1 : max - i = 1 := by omega
      have hs : shown (max - (i : Int)) ((k, v) :: d) = [(k, v)] := by
        simp only [shown, h1, List.length_cons]
        split
        · rename_i h
          have : d = [] := List.eq_nil_of_length_eq_zero (by omega)
          subst this; rfl
        · rfl
      have hm : mark (V := V) (max - i) ((k, v) :: d).length = [⟨tooLargeName, .tooLarge, none⟩] := by
        simp only [mark, h1, List.length_cons]
        rw [if_neg (by omega)]
      refine ⟨[dictName found k], by rw [hs]; exact .cons _ _ _ _ hform .nil, by simp, by simpa using hnf, ?_⟩
      rw [hs, hm]
      simp only [hlast, if_true]
      simp [itemRow]
    · obtain ⟨ns, n1, n2, n3, n4⟩ := ih (i + 1) (by omega) (dictName found k :: found) (before ++ [(k, v)])
        (by
          intro x hx
          rcases List.mem_cons.1 hx with rfl | hx
          · exact ⟨(k, v), by simp, hform⟩
          · obtain ⟨b, hb, h⟩ := hf x hx
            exact ⟨b, by simp [hb], h⟩)
        (by simpa using hp) (by simpa using ho)
      have hs : shown (max - (i : Int)) ((k, v) :: d) = (k, v) :: shown (max - ((i + 1 : Nat) : Int)) d := by
        simp only [shown, List.length_cons]
        by_cases h : ((d.length : Nat) : Int) < max - ((i + 1 : Nat) : Int)
        · rw [if_pos h, if_pos (by omega)]
        · rw [if_neg h, if_neg (by omega), show (max - (i : Int)).toNat = (max - ((i + 1 : Nat) : Int)).toNat + 1 by omega]
          rfl
      refine ⟨dictName found k :: ns, by rw [hs]; exact .cons _ _ _ _ hform n1, ?_, ?_, ?_⟩
      · simp only [List.nodup_cons]
        exact ⟨fun h => n3 _ h (by simp), n2⟩
      · intro n hn
        rcases List.mem_cons.1 hn with rfl | hn
        · exact hnf
        · exact fun h => n3 n hn (by simp [h])
      · rw [hs]
        simp only [hlast, if_false]
        have hmk : (if d = [] then [] else mark (V := V) (max - ((i + 1 : Nat) : Int)) d.length) =
            mark (max - i) ((k, v) :: d).length := by
          simp only [mark, List.length_cons]
          by_cases hd : d = []
          · subst hd; simp; omega
          · rw [if_neg hd]
            by_cases h : ((d.length : Nat) : Int) < max - ((i + 1 : Nat) : Int)
            · rw [if_pos h, if_pos (by omega)]
            · rw [if_neg h, if_neg (by omega)]
        have n4' := n4
        rw [hmk] at n4'
        simp only [reduceCtorEq, if_false]
        rw [n4']
        simp [itemRow]

/-- A dictionary is expanded: every item (or, if there are as many as the limit, each of the first ones up to the limit, followed by a
mark) has a row, in order, with its value and a name of its own, which is the text of the key, or that text with the key's id. -/
theorem c53_dict {V : Type} (max : Int) (hmax : 1 ≤ max) (d : List (Obj × V)) (hp : Plain d) (ho : Objects d) :
    ∃ ns, Names (shown max d) ns ∧ ns.Nodup ∧ dictContents max d = (ns.zip (shown max d)).map (fun e => itemRow e.1 e.2) ++ mark max d.length ++
      [⟨lenName, .count d.length, none⟩] := by
  obtain ⟨ns, n1, n2, -, n4⟩ := dictLoop_eq max d 0 (by simp; omega) [] [] (by simp) (by simpa using hp) (by simpa using ho)
  have h0 : max - ((0 : Nat) : Int) = max := by omega
  rw [h0] at n1 n4
  refine ⟨ns, n1, n2, ?_⟩
  unfold dictContents
  rw [n4]
  congr 2
  split
  · rename_i h; subst h; simp only [mark, List.length_nil]; rw [if_pos (by simp; omega)]
  · rfl

theorem names_length {V : Type} {d : List (Obj × V)} {ns : List Str} (h : Names d ns) : ns.length = d.length := by
  induction h with
  | nil => rfl
  | cons _ _ _ _ _ _ ih => simp [ih]

theorem child_zip {V : Type} (ns : List Str) (d : List (Obj × V)) (rest : List (Row V)) (hn : ns.Nodup) (i : Nat) (h1 : i < ns.length) (h2 : i < d.length) :
    child ((ns.zip d).map (fun e => itemRow e.1 e.2) ++ rest) ns[i] = some (itemRow ns[i] d[i]) := by
  induction ns generalizing d i with
  | nil => simp at h1
  | cons n ns ih =>
    cases d with
    | nil => simp at h2
    | cons e d =>
      cases i with
      | zero => simp [child, itemRow]
      | succ i =>
        have hne : (n == ns[i]'(by simpa using h1)) = false := by
          simp only [List.nodup_cons] at hn
          simp only [beq_eq_false_iff_ne]
          exact fun h => hn.1 (h ▸ List.getElem_mem _)
        simp only [List.nodup_cons] at hn
        have := ih d hn.2 i (by simpa using h1) (by simpa using h2)
        simp only [child] at this ⊢
        simp [itemRow, hne] at this ⊢
        exact this

/-- Looking up the name of a shown item finds that item. -/
theorem c53_dict_child {V : Type} (max : Int) (hmax : 1 ≤ max) (d : List (Obj × V)) (hp : Plain d) (ho : Objects d) (i : Nat) (hi : i < (shown max d).length) :
    ∃ n, ((dictContents max d)[i]?).map (·.name) = some n ∧ child (dictContents max d) n = some (itemRow n (shown max d)[i]) := by
  obtain ⟨ns, n1, n2, n3⟩ := c53_dict max hmax d hp ho
  have hl := names_length n1
  refine ⟨ns[i]'(by omega), ?_, ?_⟩
  · rw [n3, List.append_assoc, List.getElem?_append_left (by simp; omega)]
    simp [itemRow, hi, hl]
  · rw [n3, List.append_assoc]
    exact child_zip ns _ _ n2 i (by omega) hi

/-- With fewer items than the limit, all are shown. -/
theorem c53_dict_all {V : Type} (max : Int) (d : List (Obj × V)) (h : (d.length : Int) < max) (hp : Plain d) (ho : Objects d) :
    ∃ ns, Names d ns ∧ ns.Nodup ∧ dictContents max d = (ns.zip d).map (fun e => itemRow e.1 e.2) ++ [⟨lenName, .count d.length, none⟩] := by
  have := c53_dict max (by omega) d hp ho
  simpa [shown, mark, h] using this

/-! `resolve` -/

theorem keyLabel_last (k : Obj) : lastPart (keyLabel k) = Py.natStr k.id := by
  have := last_split (k.plain ++ [' ']) (Py.natStr k.id ++ [')']) (by
    simp only [List.mem_append, not_or]
    exact ⟨fun h => natStr_no_paren _ _ h rfl, by decide⟩)
  have h2 : keyLabel k = k.plain ++ [' '] ++ '(' :: (Py.natStr k.id ++ [')']) := by simp [keyLabel]
  rw [lastPart, h2, this]
  simp

theorem keyLabel_inj {a b : Obj} (h : keyLabel a = keyLabel b) : a.id = b.id := by
  have h1 := keyLabel_last a
  rw [h, keyLabel_last b] at h1
  exact (natStr_inj h1).symm

theorem parse_natStr (n : Nat) : Py.parseInt (Py.natStr n) = some (n : Int) := Py.parseInt_intStr (Int.ofNat n)

theorem keyLabel_ne (k : Obj) : keyLabel k ≠ lenName ∧ keyLabel k ≠ tooLargeName := by
  constructor
  · intro h
    have h1 := keyLabel_last k
    rw [h] at h1
    exact Py.natStr_ne_nil k.id (h1.symm.trans (by decide))
  · intro h
    have : ')' ∈ keyLabel k := by simp [keyLabel]
    rw [h] at this
    exact absurd this (by decide)

theorem find_unique {A : Type} (l : List A) (f : A → Nat) (hn : (l.map f).Nodup) (e : A) (he : e ∈ l) :
    l.find? (fun x => (f x : Int) == (f e : Int)) = some e := by
  induction l with
  | nil => cases he
  | cons x l ih =>
    simp only [List.map_cons, List.nodup_cons] at hn
    rcases List.mem_cons.1 he with rfl | he
    · simp
    · have : f x ≠ f e := fun h => hn.1 (h ▸ List.mem_map.2 ⟨e, he, rfl⟩)
      have hb : ((f x : Int) == (f e : Int)) = false := by
        simp only [beq_eq_false_iff_ne]; omega
      simp only [List.find?_cons, hb]
      exact ih hn.2 he

/-- The name that the older protocol gives an item of a dictionary resolves to the value of that item. -/
theorem c53_dict_resolves {V : Type} (d : List (Obj × V)) (ho : Objects d) (e : Obj × V) (he : e ∈ d) : dictResolve d (keyLabel e.1) = .value e.2 := by
  unfold dictResolve
  rw [if_neg (by simp [keyLabel_ne]), keyLabel_last, parse_natStr]
  have := find_unique d (fun e => e.1.id) ho e he
  simp [this]

/-- These names are different, so that the dictionary that is sent has all the items. -/
theorem c53_dict_assigns {V : Type} (max : Int) (d : List (Obj × V)) (h : (d.length : Int) < max) (ho : Objects d) :
    dictAssigns max 0 d = d.map (fun e => (keyLabel e.1, .value e.2)) ∧ (d.map (fun e => keyLabel e.1)).Nodup := by
  constructor
  · have : ∀ (d : List (Obj × V)) (i : Nat), (d.length : Int) + i < max → dictAssigns max i d = d.map (fun e => (keyLabel e.1, .value e.2)) := by
      intro d
      induction d with
      | nil => intro i _; rfl
      | cons e d ih =>
        intro i hi
        simp only [List.length_cons] at hi
        obtain ⟨k, v⟩ := e
        unfold dictAssigns
        rw [if_neg (by omega), ih (i + 1) (by omega)]
        rfl
    exact this d 0 (by simpa using h)
  · have := ho
    unfold Objects at this
    rw [List.nodup_iff_pairwise_ne, List.pairwise_map] at this ⊢
    exact this.imp (fun hne he => hne (keyLabel_inj he))

/-- A dictionary with at least as many items as the limit is cut at the limit, and marked. -/
theorem c53_dict_assigns_large {V : Type} (max : Int) (hm : 1 ≤ max) (d : List (Obj × V)) (h : max ≤ (d.length : Int)) :
    dictAssigns max 0 d = (d.take max.toNat).map (fun e => (keyLabel e.1, .value e.2)) ++ [(tooLargeName, .tooLarge)] := by
  have : ∀ (d : List (Obj × V)) (i : Nat), (i : Int) < max → max ≤ (d.length : Int) + i →
      dictAssigns max i d = (d.take (max.toNat - i)).map (fun e => (keyLabel e.1, .value e.2)) ++ [(tooLargeName, .tooLarge)] := by
    intro d
    induction d with
    | nil => intro i hi h; simp only [List.length_nil] at h; omega
    | cons e d ih =>
      intro i hi h
      simp only [List.length_cons] at h
      obtain ⟨k, v⟩ := e
      unfold dictAssigns
      split
      · rw [show max.toNat - i = 1 by omega]; rfl
      · rw [ih (i + 1) (by omega) (by omega), show max.toNat - i = (max.toNat - (i + 1)) + 1 by omega]
        rfl
  simpa using this d 0 (by omega) (by omega)

/-! Sets -/

def setRow (o : Obj) : Row Obj := ⟨Py.natStr o.id, .value o, none⟩

theorem setLoop_eq (max : Int) (s : List Obj) (i : Nat) (hi : (i : Int) ≤ max) :
    setLoop max i s = (s.take (max - i + 1).toNat).map setRow ++ (if (s.length : Int) ≤ max - i then [] else [⟨tooLargeName, .tooLarge, none⟩]) := by
  induction s generalizing i with
  | nil => simp [setLoop]; omega
  | cons o s ih =>
    unfold setLoop
    by_cases h : (i : Int) ≥ max
    · rw [if_pos h, show (max - (i : Int) + 1).toNat = 1 by omega]
      simp only [List.length_cons]
      rw [if_neg (by omega)]
      rfl
    · rw [if_neg h, ih (i + 1) (by omega), show (max - (i : Int) + 1).toNat = (max - ((i + 1 : Nat) : Int) + 1).toNat + 1 by omega]
      simp only [List.take_succ_cons, List.map_cons, List.cons_append, List.length_cons]
      congr 2
      by_cases h2 : (s.length : Int) ≤ max - ((i + 1 : Nat) : Int)
      · rw [if_pos h2, if_pos (by omega)]
      · rw [if_neg h2, if_neg (by omega)]

/-- A set with at most as many items as the limit is shown completely, each item under its id; a larger one is cut, and marked. -/
theorem c53_set (max : Int) (hmax : 0 ≤ max) (s : List Obj) :
    ((s.length : Int) ≤ max → setContents max s = s.map setRow ++ [⟨lenName, .count s.length, none⟩]) ∧
    (max < (s.length : Int) → setContents max s = (s.take (max + 1).toNat).map setRow ++ [⟨tooLargeName, .tooLarge, none⟩, ⟨lenName, .count s.length, none⟩]) := by
  have := setLoop_eq max s 0 (by simpa using hmax)
  have h0 : max - ((0 : Nat) : Int) = max := by omega
  rw [h0] at this
  unfold setContents
  constructor
  · intro h
    rw [this, if_pos h, List.take_of_length_le (by omega)]
    simp
  · intro h
    rw [this, if_neg (by omega)]
    simp

/-- The names of the items of a set are different, and each resolves to its item. -/
theorem c53_set_resolves (s : List Obj) (ho : (s.map (·.id)).Nodup) :
    (s.map (fun o => (setRow o).name)).Nodup ∧ ∀ o ∈ s, setResolve s (setRow o).name = .value o := by
  constructor
  · have := ho
    rw [List.nodup_iff_pairwise_ne, List.pairwise_map] at this ⊢
    exact this.imp (fun hne he => hne (natStr_inj he))
  · intro o hs
    have hne : ¬(Py.natStr o.id = lenName ∨ Py.natStr o.id = tooLargeName) := by
      have hd := Py.natStr_digits o.id
      rintro (h | h)
      · exact absurd (hd 'l' (by rw [h]; decide)) (by decide)
      · exact absurd (hd 'U' (by rw [h]; decide)) (by decide)
    unfold setResolve setRow
    rw [if_neg hne, parse_natStr]
    have := find_unique s (·.id) ho o hs
    simp [this]

/-- Changing an item of a set to a value that is not in the set puts the new value in its place: the set then has exactly the other
items and the new one, and the name that is returned is that of the new one. -/
theorem c53_set_change (s : List Obj) (ho : (s.map (·.id)).Nodup) (hv : (s.map (·.val)).Nodup) (o new : Obj) (h : o ∈ s)
    (hnew : ∀ x ∈ s, x.val = new.val → x = o) (hid : ∀ x ∈ s, x.id = new.id → x = o) :
    ∃ s', changeName s (setRow o).name new = some (s', (setRow new).name) ∧ s' = s.filter (fun x => x ≠ o) ++ [new] ∧
      setResolve s' (setRow new).name = .value new := by
  have hfind : s.find? (fun x => Py.natStr x.id == Py.natStr o.id) = some o := by
    have := find_unique s (·.id) ho o h
    rw [← this]
    congr 1
    funext x
    by_cases hx : x.id = o.id
    · simp [hx]
    · have h1 : Py.natStr x.id ≠ Py.natStr o.id := fun hh => hx (natStr_inj hh)
      have h2 : (x.id : Int) ≠ (o.id : Int) := by omega
      exact (beq_eq_false_iff_ne.2 h1).trans (beq_eq_false_iff_ne.2 h2).symm
  have hval : ∀ x ∈ s, x.val = o.val → x = o := by
    intro x hx hxo
    have := find_unique s (·.val) hv o h
    have h2 := find_unique s (·.val) hv x hx
    rw [hxo, this] at h2
    exact (Option.some.inj h2).symm
  have hfil : s.filter (fun x => x.val != o.val) = s.filter (fun x => x ≠ o) := by
    apply List.filter_congr
    intro x hx
    by_cases hxo : x = o
    · simp [hxo]
    · have : x.val ≠ o.val := fun hh => hxo (hval x hx hh)
      simp [hxo, this]
  have hadd : setAdd (s.filter (fun x => x ≠ o)) new = s.filter (fun x => x ≠ o) ++ [new] := by
    unfold setAdd
    rw [if_neg]
    simp only [List.any_eq_true, not_exists, not_and, List.mem_filter]
    intro x hx hxn
    have := hnew x hx.1 (by simpa using hxn)
    simp [this] at hx
  refine ⟨_, ?_, rfl, ?_⟩
  · unfold changeName setRow
    simp only
    rw [hfind]
    simp only
    rw [hfil, hadd]
  · apply (c53_set_resolves _ ?_).2
    · simp
    · rw [List.map_append, List.nodup_append]
      refine ⟨(List.Sublist.map _ (List.filter_sublist)).nodup ho, by simp, ?_⟩
      intro a ha b hb hab
      obtain ⟨x, hx, rfl⟩ := List.mem_map.1 ha
      simp only [List.map_cons, List.map_nil, List.mem_singleton] at hb
      subst hb
      rw [List.mem_filter] at hx
      have := hid x hx.1 hab
      simp [this] at hx

/-! Examples -/

def obj (id : Nat) (text : Str) (val : Nat) : Obj := ⟨id, text, text, false, val⟩

/-- two keys with one representation, and a third: the hypotheses hold, and the names are as they should be -/
theorem c53_example :
    let d : List (Obj × Nat) := [(obj 17 c!"<K>" 0, 5), (obj 42 c!"<K>" 1, 6), (obj 8 c!"'a'" 2, 7)]
    Plain d ∧ Objects d ∧
    (dictContents 300 d).map (fun r => (r.name, r.val)) =
      [(c!"<K>", .value 5), (c!"<K> (id: 42)", .value 6), (c!"'a'", .value 7), (lenName, .count 3)] ∧
    (dictContents 2 d).map (fun r => (r.name, r.val)) =
      [(c!"<K>", .value 5), (c!"<K> (id: 42)", .value 6), (tooLargeName, .tooLarge), (lenName, .count 3)] ∧
    dictResolve d c!"<K> (42)" = .value 6 := by
  refine ⟨?_, ?_, ?_, ?_, ?_⟩
  · unfold Plain; decide +kernel
  · unfold Objects; decide +kernel
  all_goals decide +kernel

/-- A key whose representation looks like the name of another key: two rows have one name, and the second cannot be reached. -/
theorem c53_same_name :
    let d : List (Obj × Nat) := [(obj 17 c!"<K> (id: 42)" 0, 5), (obj 8 c!"<K>" 1, 6), (obj 42 c!"<K>" 2, 7)]
    Objects d ∧ (dictContents 300 d).map (·.name) = [c!"<K> (id: 42)", c!"<K>", c!"<K> (id: 42)", lenName] ∧
    (child (dictContents 300 d) c!"<K> (id: 42)").map (·.val) = some (.value 5) := by
  refine ⟨?_, ?_, ?_⟩
  · unfold Objects; decide +kernel
  all_goals decide +kernel

/-- A dictionary with exactly as many items as the limit is shown completely, and marked as if it were not. -/
theorem c53_exact :
    let d : List (Obj × Nat) := [(obj 17 c!"1" 0, 5), (obj 8 c!"2" 1, 6)]
    (dictContents 2 d).map (fun r => (r.name, r.val)) = [(c!"1", .value 5), (c!"2", .value 6), (tooLargeName, .tooLarge), (lenName, .count 2)] := by
  decide +kernel

/-- A set with three items and the limit 2: all three are shown, with the mark. -/
theorem c53_set_exact :
    (setContents 2 [obj 1 c!"a" 1, obj 2 c!"b" 2, obj 3 c!"c" 3]).map (·.name) = [c!"1", c!"2", c!"3", tooLargeName, lenName] := by
  decide +kernel

/-- Changing an item to a value equal to another item: the set has one item less, and the name that is returned is not of an item. -/
theorem c53_set_change_equal :
    let s := [obj 1 c!"a" 1, obj 2 c!"b" 2]
    ∃ s', changeName s c!"1" (obj 9 c!"b" 2) = some (s', c!"9") ∧ s' = [obj 2 c!"b" 2] ∧ setResolve s' c!"9" = .error := by
  refine ⟨[obj 2 c!"b" 2], ?_, rfl, ?_⟩ <;> decide +kernel

/-- and a change to a new value -/
theorem c53_set_change_example :
    let s := [obj 1 c!"a" 1, obj 2 c!"b" 2]
    changeName s c!"1" (obj 9 c!"z" 7) = some ([obj 2 c!"b" 2, obj 9 c!"z" 7], c!"9") ∧
    setResolve [obj 2 c!"b" 2, obj 9 c!"z" 7] c!"9" = .value (obj 9 c!"z" 7) := by
  refine ⟨?_, ?_⟩ <;> decide +kernel

end Containers
