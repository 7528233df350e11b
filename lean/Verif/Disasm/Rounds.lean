import Verif.Disasm.Lemmas

/-! # One round of the disassembler -/

namespace Disasm
open Spec

theorem item_line {c : Code} (f : Formed c) {j : Instr} {k : Nat} {i : Instr} (h : c.instrs[k]? = some i)
    (ho : j.offset = i.offset) : lineOf c.lines j = lineAt c k := by
  rw [lineOf_offset _ ho, lineOf_eq f h]

theorem item_has {c : Code} (f : Formed c) {j : Instr} (h : Item c j) (hb : j.op ∉ idle) :
    HasLine c (lineOf c.lines j) := by
  obtain ⟨k, i, hk, hop, -, ho, -⟩ := h
  rw [item_line f hk ho]
  exact .here hk (by rw [← hop]; exact hb)

theorem tok_ok {c : Code} (f : Formed c) {j : Instr} (h : Item c j) (hb : j.op ∉ idle) {t : Text} (ht : t ∈ fixed) (l : Nat) :
    (msgTok c.lines j (.text t)).Ok c l := by
  simp only [msgTok, Part.Ok]
  exact ⟨item_has f h hb, item_has f h hb, .inl ht⟩

/-- The parts of the `argrepr` of an instruction may be shown. -/
theorem repr_ok {c : Code} (f : Formed c) {j : Instr} (h : Item c j) (hb : j.op ∉ idle) :
    j.repr.Ok c (lineOf c.lines j) ∧ (trimPart j.repr).Ok c (lineOf c.lines j) := by
  have hl := item_has f h hb
  obtain ⟨k, i, hk, hop, -, ho, hr | ⟨-, -, -, ps, hps, hok⟩⟩ := h
  · have hi : i ∈ c.instrs := List.mem_of_getElem? hk
    rw [item_line f hk ho] at hl ⊢
    cases f with
    | mk _ texts =>
      obtain ⟨r, hr', -, hm⟩ := texts i hi
      rw [hr.1, hr']
      simp only [trimPart, Part.Ok]
      exact ⟨⟨hl, .inr (.name hk hr' (names_refl r))⟩, ⟨hl, .inr (.name hk hr' (names_trim hm))⟩⟩
  · rw [item_line f hk ho, hps]
    simp only [trimPart, Part.Ok]
    exact ⟨hok, hok⟩

theorem msg_ok {c : Code} (f : Formed c) {j : Instr} (h : Item c j) (hb : j.op ∉ idle) (l : Nat) :
    (msg c.lines j).Ok c l := by
  have hl := item_has f h hb
  have hr := (repr_ok f h hb).2
  simp only [msg, Part.Ok]
  refine ⟨hl, ?_⟩
  unfold decorate
  split
  · rename_i ht
    simp only [Part.Ok, OkAll]
    refine ⟨⟨hl, .inl (by simp [fixed])⟩, ⟨hl, .inr ?_⟩, ⟨hl, .inl (by simp [fixed])⟩, hr, trivial⟩
    obtain ⟨k, i, hk, hop, -, ho, hr' | hr'⟩ := h
    · rw [item_line f hk ho, ho]
      exact .offset hk (by rw [← hr'.2]; exact ht)
    · rw [hr'.1] at ht; simp at ht
  · exact hr

theorem decorate_leaves {i : Instr} {p : Part} {l : Nat} {e : Nat × Text} (h : e ∈ p.leaves l) : e ∈ (decorate i p).leaves l := by
  unfold decorate
  split
  · simp [Part.leaves, leavesOf, h]
  · exact h

theorem msg_owes {c : Code} (f : Formed c) {j : Instr} (h : Item c j) {l : Nat} {r : Text} (ho : Owes c.lines j l r) (l0 : Nat) :
    ∃ t, Names r t ∧ (l, t) ∈ (msg c.lines j).leaves l0 := by
  simp only [msg, Part.leaves]
  rcases ho with ⟨hr, rfl⟩ | ⟨ps, t, hr, hn, ht⟩
  · refine ⟨trim r, ?_, ?_⟩
    · obtain ⟨k, i, hk, -, -, -, h1 | ⟨-, -, -, ps, hps, -⟩⟩ := h
      · cases f with
        | mk _ texts =>
          obtain ⟨r', hr', -, hm⟩ := texts i (List.mem_of_getElem? hk)
          rw [h1.1, hr'] at hr
          obtain rfl := Part.text.inj hr
          exact names_trim hm
      · rw [hps] at hr; simp at hr
    · apply decorate_leaves
      rw [hr]
      simp [trimPart, Part.leaves]
  · refine ⟨t, hn, ?_⟩
    apply decorate_leaves
    rw [hr]
    simpa [trimPart, Part.leaves] using ht

theorem repr_owes {lines : List (Nat × Nat)} {j : Instr} {l : Nat} {r : Text} (ho : Owes lines j l r) :
    ∃ t, Names r t ∧ (l, t) ∈ j.repr.leaves (lineOf lines j) := by
  rcases ho with ⟨hr, rfl⟩ | ⟨ps, t, hr, hn, ht⟩
  · exact ⟨r, names_refl r, by rw [hr]; simp [Part.leaves]⟩
  · exact ⟨t, hn, by rw [hr]; simpa [Part.leaves] using ht⟩

theorem load_busy {j : Instr} (h : isLoad j = true) : j.op ∉ idle := by
  simp only [isLoad, decide_eq_true_eq] at h
  simp only [idle]
  intro h'
  simp only [List.mem_cons, List.not_mem_nil, or_false] at h h'
  rcases h with h | h | h | h <;> rcases h' with h' | h' <;> rw [h] at h' <;> exact absurd h' (by decide)

theorem many_ok {c : Code} {l : Nat} {ps : List Part} : (Part.many ps).Ok c l ↔ OkAll c l ps := by simp only [Part.Ok]

/-! ### An instruction on its own -/

theorem plain_ok {c : Code} (f : Formed c) {j : Instr} (h : Item c j) (hb : j.op ∉ idle) (l : Nat) :
    (plain c.lines j).Ok c l := by
  have hl := item_has f h hb
  have hr := (repr_ok f h hb).1
  have hop : Piece c (lineOf c.lines j) j.op := by
    obtain ⟨k, i, hk, hop, -, ho, -⟩ := h
    rw [item_line f hk ho, hop]
    exact .inr (.op hk)
  unfold plain
  split
  · exact tok_ok f h hb (by simp [fixed]) l
  · split
    · simp only [msgTok, Part.Ok, OkAll]
      exact ⟨hl, ⟨hl, .inl (by simp [fixed])⟩, hr, ⟨hl, .inl (by simp [fixed])⟩, trivial⟩
    · split
      · simp only [msgTok, Part.Ok, OkAll]
        exact ⟨hl, ⟨hl, hop⟩, ⟨hl, .inl (by simp [fixed])⟩, hr, ⟨hl, .inl (by simp [fixed])⟩, trivial⟩
      · split
        · rename_i t ht
          simp only [msgTok, Part.Ok]
          refine ⟨hl, hl, .inr ?_⟩
          obtain ⟨k, i, hk, hop, ha, ho, -⟩ := h
          rw [item_line f hk ho, hop]
          exact .value hk (by rw [← ha]; exact ht)
        · simp only [msgTok, Part.Ok]
          exact ⟨hl, hl, hop⟩

theorem plain_owes {lines : List (Nat × Nat)} {j : Instr} (hv : Visible j) {l : Nat} {r : Text} (ho : Owes lines j l r) (l0 : Nat) :
    r = [] ∨ ∃ t, Names r t ∧ (l, t) ∈ (plain lines j).leaves l0 := by
  obtain ⟨t, hn, ht⟩ := repr_owes ho
  unfold plain
  split
  · rename_i h
    exfalso
    apply hv.1
    rw [h.1]; decide
  · split
    · right
      refine ⟨t, hn, ?_⟩
      simp [msgTok, Part.leaves, leavesOf, ht]
    · split
      · right
        refine ⟨t, hn, ?_⟩
        simp [msgTok, Part.leaves, leavesOf, ht]
      · rename_i hne
        left
        rcases ho with ⟨hr, -⟩ | ⟨ps, t, hr, -, ht⟩
        · rw [hr] at hne; simpa [Part.truth] using hne
        · rw [hr] at hne
          simp only [Part.truth, Bool.not_eq_true, Bool.not_eq_false', List.isEmpty_iff] at hne
          subst hne; simp [leavesOf] at ht

/-! ### Calls and tuples -/

theorem commas_last (lines : List (Nat × Nat)) (args : List Instr) : ∀ (prev : Instr) (b : Bool),
    (commas lines prev b args).2 ∈ prev :: args := by
  induction args with
  | nil => intro prev b; simp [commas]
  | cons a as ih =>
    intro prev b
    have := ih a true
    simp only [commas]
    exact List.mem_cons_of_mem _ this

theorem commas_ok {c : Code} (f : Formed c) (args : List Instr) : ∀ (prev : Instr) (b : Bool),
    (∀ j ∈ prev :: args, Item c j ∧ j.op ∉ idle) → ∀ l, OkAll c l (commas c.lines prev b args).1 := by
  induction args with
  | nil => intro prev b _ l; simp [commas, OkAll]
  | cons a as ih =>
    intro prev b h l
    have hp := h prev (by simp)
    have ha := h a (by simp)
    simp only [commas, okAll_append, OkAll]
    refine ⟨?_, msg_ok f ha.1 ha.2 l, ih a true (fun j hj => h j (List.mem_cons_of_mem _ hj)) l⟩
    split
    · simp only [OkAll, and_true]
      exact tok_ok f hp.1 hp.2 (by simp [fixed]) l
    · simp [OkAll]

theorem commas_msg (lines : List (Nat × Nat)) (args : List Instr) : ∀ (prev : Instr) (b : Bool),
    ∀ a ∈ args, msg lines a ∈ (commas lines prev b args).1 := by
  induction args with
  | nil => intro prev b a h; simp at h
  | cons x xs ih =>
    intro prev b a h
    simp only [commas, List.mem_append, List.mem_cons]
    rcases List.mem_cons.1 h with h | h
    · subst h; right; left; rfl
    · right; right; exact ih x true a h

theorem leavesOf_mem {ps : List Part} {p : Part} (h : p ∈ ps) {l : Nat} {e : Nat × Text} (he : e ∈ p.leaves l) : e ∈ leavesOf l ps := by
  induction ps with
  | nil => simp at h
  | cons q qs ih =>
    simp only [leavesOf, List.mem_append]
    rcases List.mem_cons.1 h with h | h
    · subst h; exact .inl he
    · exact .inr (ih h)

theorem callRepr_ok {c : Code} (f : Formed c) {g : Instr} {args : List Instr}
    (h : ∀ j ∈ g :: args, Item c j ∧ j.op ∉ idle) (l : Nat) : OkAll c l (callRepr c.lines g args) := by
  have hg := h g (by simp)
  have hl := h _ (commas_last c.lines args g false)
  simp only [callRepr, okAll_append, OkAll, and_true]
  exact ⟨⟨⟨msg_ok f hg.1 hg.2 l, tok_ok f hg.1 hg.2 (by simp [fixed]) l⟩, commas_ok f args g false h l⟩,
    tok_ok f hl.1 hl.2 (by simp [fixed]) l⟩

theorem callRepr_msg (lines : List (Nat × Nat)) (g : Instr) (args : List Instr) :
    ∀ a ∈ g :: args, msg lines a ∈ callRepr lines g args := by
  intro a h
  simp only [callRepr, List.mem_append, List.mem_cons]
  rcases List.mem_cons.1 h with h | h
  · subst h; exact .inl (.inl (.inl rfl))
  · exact .inl (.inr (commas_msg lines args g false a h))

theorem tupleRepr_ok {c : Code} (f : Formed c) {g : Instr} {args : List Instr}
    (h : ∀ j ∈ g :: args, Item c j ∧ j.op ∉ idle) (l : Nat) : OkAll c l (tupleRepr c.lines g args) := by
  have hg := h g (by simp)
  have hl := h _ (commas_last c.lines args g false)
  simp only [tupleRepr, okAll_append, OkAll, and_true, List.cons_append]
  exact ⟨tok_ok f hg.1 hg.2 (by simp [fixed]) l, commas_ok f args g false h l,
    tok_ok f hl.1 hl.2 (by simp [fixed]) l⟩

theorem tupleRepr_msg (lines : List (Nat × Nat)) (g : Instr) (args : List Instr) :
    ∀ a ∈ args, msg lines a ∈ tupleRepr lines g args := by
  intro a h
  simp only [tupleRepr, List.mem_append, List.mem_cons]
  exact .inl (.inr (commas_msg lines args g false a h))

/-! ### Chains -/

theorem chain_append {a b : List Instr} (h : Chain (a ++ b)) : Chain b := by
  induction a with
  | nil => exact h
  | cons i is ih => exact ih h.2

theorem chain_drop {a : List Instr} (n : Nat) (h : Chain a) : Chain (a.drop n) :=
  chain_append (a := a.take n) (by rwa [List.take_append_drop])

/-- Loads that are no code objects may be put before a chain. -/
theorem chain_loads {a b : List Instr} (ha : ∀ j ∈ a, isLoad j = true ∧ ∀ d, ¬ LoadsCode j d) (hb : Chain b) : Chain (a ++ b) := by
  induction a with
  | nil => exact hb
  | cons i is ih =>
    have hi := ha i (by simp)
    refine ⟨⟨?_, fun d hd => absurd hd (hi.2 d)⟩, ih (fun j hj => ha j (List.mem_cons_of_mem _ hj))⟩
    intro ho
    have := hi.1
    simp only [isLoad, ho] at this
    exact absurd this (by decide)

/-- Among loads followed by something that makes no function there is no code object. -/
theorem chain_no_code {a : List Instr} {x : Instr} {rest : List Instr} (h : Chain (a ++ x :: rest))
    (ha : ∀ j ∈ a, isLoad j = true) (hx : x.op ≠ c!"MAKE_FUNCTION") (hx' : isLoad x = false) :
    ∀ j ∈ a, ∀ d, ¬ LoadsCode j d := by
  have hmk : ∀ j : Instr, j.op = c!"MAKE_FUNCTION" → isLoad j = false := by
    intro j hj; simp only [isLoad, hj]; decide
  have hlc : ∀ j : Instr, j.op = c!"LOAD_CONST" → isLoad j = true := by
    intro j hj; simp only [isLoad, hj]; decide
  induction a with
  | nil => simp
  | cons i is ih =>
    intro j hj
    rcases List.mem_cons.1 hj with hj | hj
    · subst hj
      intro d hd
      rcases h.1.2 d hd with ⟨m, hm, hop⟩ | ⟨q, m, hq, hqo, -, hm, hop⟩
      · cases is with
        | nil => simp at hm; subst hm; exact hx hop
        | cons y ys =>
          simp at hm; subst hm
          have := ha y (by simp)
          rw [hmk y hop] at this; simp at this
      · cases is with
        | nil =>
          simp at hq; subst hq
          rw [hlc x hqo] at hx'; simp at hx'
        | cons y ys =>
          cases ys with
          | nil => simp at hm; subst hm; exact hx hop
          | cons z zs =>
            simp at hm; subst hm
            have := ha z (by simp)
            rw [hmk z hop] at this; simp at this
    · exact ih h.2 (fun j hj => ha j (List.mem_cons_of_mem _ hj)) j hj

theorem merged_item {c : Code} {j : Instr} (h : Item c j) (hl : isLoad j = true) (hn : ∀ d, ¬ LoadsCode j d)
    {ps : List Part} (hp : ∀ l, OkAll c l ps) : Item c (merged j ps) := by
  obtain ⟨k, i, hk, hop, ha, ho, -⟩ := h
  exact ⟨k, i, hk, hop, ha, ho, .inr ⟨rfl, hl, hn, ps, rfl, hp _⟩⟩

/-! ### What is kept -/

theorem keeps_refl (lines : List (Nat × Nat)) (a : List Instr) (s : List (Nat × Text)) : Keeps lines a s a :=
  fun j hj => ⟨fun hv _ _ ho _ => .inr ⟨j, hj, hv, ho⟩, fun _ _ => hj⟩

theorem keeps_trans {lines : List (Nat × Nat)} {a b d : List Instr} {s t u : List (Nat × Text)}
    (h1 : Keeps lines a s b) (h2 : Keeps lines b t d) (hs : s ⊆ u) (ht : t ⊆ u) : Keeps lines a u d := by
  intro j hj
  refine ⟨?_, fun e he => (h2 j ((h1 j hj).2 e he)).2 e he⟩
  intro hv l r ho hr
  rcases (h1 j hj).1 hv l r ho hr with ⟨x, hn, hx⟩ | ⟨j', hj', hv', ho'⟩
  · exact .inl ⟨x, hn, hs hx⟩
  · rcases (h2 j' hj').1 hv' l r ho' hr with ⟨x, hn, hx⟩ | h
    · exact .inl ⟨x, hn, ht hx⟩
    · exact .inr h

/-- An instruction that is gone, of which nothing must be seen or everything has been. -/
theorem keeps_cons {lines : List (Nat × Nat)} {i : Instr} {is : List Instr} {s : List (Nat × Text)}
    (hi : ∀ d, ¬ LoadsCode i d)
    (hs : Visible i → ∀ l r, Owes lines i l r → r ≠ [] → ∃ t, Names r t ∧ (l, t) ∈ s) : Keeps lines (i :: is) s is := by
  intro j hj
  rcases List.mem_cons.1 hj with hj | hj
  · subst hj
    exact ⟨fun hv l r ho hr => .inl (hs hv l r ho hr), fun d hd => absurd hd (hi d)⟩
  · exact keeps_refl lines is s j hj

theorem not_code {i : Instr} (h : i.op ≠ c!"LOAD_CONST") : ∀ d, ¬ LoadsCode i d := fun _ hd => h hd.1

theorem keeps_implicit {lines : List (Nat × Nat)} {i : Instr} {is : List Instr} {s : List (Nat × Text)}
    (hi : i.op ∈ implicit) : Keeps lines (i :: is) s is := by
  apply keeps_cons
  · apply not_code
    intro h; rw [h] at hi; exact absurd hi (by decide)
  · intro hv; exact absurd hi hv.1

theorem inv_append {c : Code} {a b : List Instr} (h : Inv c (a ++ b)) : Inv c b where
  items := fun j hj => h.items j (List.mem_append_right _ hj)
  chain := chain_append h.chain
  last := by
    intro i hi
    apply h.last i
    rw [List.getLast?_append, hi]; rfl

theorem inv_tail {c : Code} {i : Instr} {is : List Instr} (h : Inv c (i :: is)) : Inv c is := inv_append (a := [i]) h

/-- What a round may do. -/
def Good (c : Code) (olds : List Instr) : Next → Prop
  | .error => False
  | .restart left => Inv c left ∧ weights left < weights olds ∧ Keeps c.lines olds [] left
  | .hidden left => Inv c left ∧ weights left < weights olds ∧ Keeps c.lines olds [] left
  | .shown s left => Inv c left ∧ weights left < weights olds ∧ s.Ok c 0 ∧ Keeps c.lines olds (s.leaves 0) left
  | .nested d s left => Inv c left ∧ (∃ i, olds = i :: left ∧ LoadsCode i d ∧ Item c i) ∧ s.Ok c 0

theorem at_ok {c : Code} (f : Formed c) {j : Instr} (h : Item c j) (hb : j.op ∉ idle) {t : Text} (ht : t ∈ fixed)
    {m : Nat} (hm : m = bigLine ∨ HasLine c m) (l : Nat) : (msgAt c.lines j t m).Ok c l := by
  have key : HasLine c (if m = bigLine then lineOf c.lines j else m) := by
    split
    · exact item_has f h hb
    · rename_i hne
      rcases hm with hm | hm
      · exact absurd hm hne
      · exact hm
  simp only [msgAt, Part.Ok]
  exact ⟨key, key, .inl ht⟩

theorem weight_pos (i : Instr) : 0 < i.weight := by rw [i.weight_eq]; omega

theorem finish_good {c : Code} (f : Formed c) {olds rest : List Instr} {full : List Part}
    (hi : Inv c rest) (hw : weights rest < weights olds) (hk : Keeps c.lines olds (leavesOf 0 full) rest)
    (hf : ∀ l, OkAll c l full) : Good c olds (finish c.lines full rest) := by
  cases rest with
  | nil =>
    simp only [finish, Good, many_ok, Part.leaves]
    exact ⟨hi, hw, hf 0, hk⟩
  | cons i is =>
    rw [finish]
    have h1 : ∃ a, i :: is = a ++ (if i.op = c!"POP_TOP" then is else i :: is) ∧
        Keeps c.lines (i :: is) [] (if i.op = c!"POP_TOP" then is else i :: is) := by
      split
      · rename_i hp
        exact ⟨[i], rfl, keeps_implicit (by rw [hp]; decide)⟩
      · exact ⟨[], rfl, keeps_refl _ _ _⟩
    have h2 : (if i.op = c!"POP_TOP" then is else i :: is) ≠ [] := by
      split
      · rename_i hp
        intro h
        subst h
        exact hi.last i rfl (by rw [hp]; decide)
      · simp
    generalize (if i.op = c!"POP_TOP" then is else i :: is) = xs at h1 h2 ⊢
    obtain ⟨a, ha, hka⟩ := h1
    have hix : Inv c xs := by rw [ha] at hi; exact inv_append hi
    have hwx : weights xs ≤ weights (i :: is) := by rw [ha, weights_append]; omega
    have hkx : Keeps c.lines olds (leavesOf 0 full) xs :=
      keeps_trans hk hka (fun _ h => h) (by simp)
    cases xs with
    | nil => exact absurd rfl h2
    | cons j js =>
      have hj := hix.items j (by simp)
      have hwj : weights js < weights (j :: js) := by simp only [weights]; have := weight_pos j; omega
      rw [finishWith]
      split
      · rename_i hs
        have hop : j.op ∉ idle ∧ j.op ≠ c!"LOAD_CONST" := by
          simp only [isStore, decide_eq_true_eq, List.mem_cons, List.not_mem_nil, or_false] at hs
          rcases hs with hs | hs <;> rw [hs] <;> decide
        simp only [Good, Part.Ok, OkAll, Part.leaves, leavesOf, and_true, List.append_nil]
        refine ⟨inv_tail hix, by omega, ⟨msg_ok f hj hop.1 0, tok_ok f hj hop.1 (by simp [fixed]) 0, hf 0⟩, ?_⟩
        refine keeps_trans hkx (keeps_cons (is := js) (s := (msg c.lines j).leaves 0) (not_code hop.2) ?_) ?_ ?_
        · intro _ l r ho _; exact msg_owes f hj ho 0
        · intro x hx; simp [hx]
        · intro x hx; simp [hx]
      · split
        · rename_i hr
          simp only [Good, Part.Ok, OkAll, Part.leaves, leavesOf, and_true, List.append_nil]
          refine ⟨inv_tail hix, by omega, ⟨?_, hf 0⟩, ?_⟩
          · apply at_ok f hj (by rw [hr]; decide) (by simp [fixed])
            have h1 := Part.minLine_ok (lineOf c.lines j) j.repr (repr_ok f hj (by rw [hr]; decide)).1
            have h2 := minLines_ok 0 full (hf 0)
            rcases Nat.le_total j.repr.minLine (minLines full) with h | h
            · rw [Nat.min_eq_left h]; exact h1
            · rw [Nat.min_eq_right h]; exact h2
          · refine keeps_trans hkx (keeps_implicit (is := js) (s := []) (by rw [hr]; decide)) ?_ (by simp)
            intro x hx; simp [hx]
        · simp only [Good, many_ok, Part.leaves]
          exact ⟨hix, by omega, hf 0, hkx⟩

theorem load_visible {j : Instr} (h : isLoad j = true) : j.op ∉ implicit := by
  simp only [isLoad, decide_eq_true_eq, List.mem_cons, List.not_mem_nil, or_false] at h
  rcases h with h | h | h | h <;> rw [h] <;> decide

theorem weights_mem {j : Instr} {is : List Instr} (h : j ∈ is) : j.weight ≤ weights is := by
  induction is with
  | nil => simp at h
  | cons i is ih =>
    simp only [weights]
    rcases List.mem_cons.1 h with h | h
    · subst h; omega
    · have := ih h; omega

/-- What follows a call or the like, and loses nothing with `dropped`. -/
theorem restart_good {c : Code} {pre mid dropped rest : List Instr} {x g : Instr} {full : List Part}
    (f : Formed c) (hi : Inv c (pre ++ mid ++ x :: (dropped ++ rest)))
    (loads : ∀ j ∈ pre ++ mid, isLoad j = true) (nc : ∀ j ∈ pre ++ mid, ∀ d, ¬ LoadsCode j d)
    (hg : g ∈ mid) (hf : ∀ l, OkAll c l full) (hm : ∀ j ∈ mid, msg c.lines j ∈ full)
    (hx : x.op ≠ c!"LOAD_CONST") (hxm : Visible x → msg c.lines x ∈ full)
    (hd : ∀ j ∈ dropped, j.op ∈ implicit) (hr : rest ≠ []) :
    Good c (pre ++ mid ++ x :: (dropped ++ rest)) (.restart (pre ++ merged g full :: rest)) := by
  have hir : Inv c rest := inv_append (a := pre ++ mid ++ x :: dropped) (by simpa using hi)
  have hgl : isLoad g = true := loads g (by simp [hg])
  have hgn := nc g (by simp [hg])
  have hmv : Visible (merged g full) := ⟨load_visible hgl, hgn⟩
  have owed : ∀ j, Item c j → msg c.lines j ∈ full → ∀ l r, Owes c.lines j l r → Owes c.lines (merged g full) l r := by
    intro j hj hjm l r ho
    obtain ⟨t, hn, ht⟩ := msg_owes f hj ho (lineOf c.lines (merged g full))
    exact .inr ⟨full, t, rfl, hn, leavesOf_mem hjm ht⟩
  refine ⟨⟨?_, ?_, ?_⟩, ?_, ?_⟩
  · intro j hj
    rcases List.mem_append.1 hj with hj | hj
    · exact hi.items j (by simp [hj])
    · rcases List.mem_cons.1 hj with hj | hj
      · subst hj
        exact merged_item (hi.items g (by simp [hg])) hgl hgn hf
      · exact hir.items j hj
  · have : pre ++ merged g full :: rest = (pre ++ [merged g full]) ++ rest := by simp
    rw [this]
    apply chain_loads _ hir.chain
    intro j hj
    rcases List.mem_append.1 hj with hj | hj
    · exact ⟨loads j (by simp [hj]), nc j (by simp [hj])⟩
    · simp only [List.mem_singleton] at hj
      subst hj
      exact ⟨hgl, hgn⟩
  · intro i hl
    apply hir.last i
    rw [List.getLast?_append, List.getLast?_cons] at hl
    cases hrl : rest.getLast? with
    | none => rw [List.getLast?_eq_none_iff] at hrl; exact absurd hrl hr
    | some y => rw [hrl] at hl; simpa using hl
  · simp only [weights_append, weights, merged_weight]
    have := weights_mem hg
    have := weight_pos x
    omega
  · intro j hj
    simp only [List.mem_append, List.mem_cons] at hj
    have hmid : ∀ j, Item c j → msg c.lines j ∈ full → ∀ l r, Owes c.lines j l r →
        ∃ j' ∈ pre ++ merged g full :: rest, Visible j' ∧ Owes c.lines j' l r :=
      fun j h1 h2 l r ho => ⟨merged g full, by simp, hmv, owed j h1 h2 l r ho⟩
    rcases hj with (hj | hj) | hj | hj | hj
    · exact ⟨fun hv _ _ ho _ => .inr ⟨j, by simp [hj], hv, ho⟩, fun _ _ => by simp [hj]⟩
    · exact ⟨fun _ l r ho _ => .inr (hmid j (hi.items j (by simp [hj])) (hm j hj) l r ho),
        fun d hd' => absurd hd' (nc j (by simp [hj]) d)⟩
    · subst hj
      exact ⟨fun hv l r ho _ => .inr (hmid j (hi.items j (by simp)) (hxm hv) l r ho), fun d hd' => absurd hd'.1 hx⟩
    · have := hd j hj
      refine ⟨fun hv => absurd this hv.1, fun d hd' => ?_⟩
      rw [hd'.1] at this; exact absurd this (by decide)
    · exact ⟨fun hv _ _ ho _ => .inr ⟨j, by simp [hj], hv, ho⟩, fun _ _ => by simp [hj]⟩

/-- A whole expression that has been put together. -/
theorem whole_good {c : Code} {mid dropped rest : List Instr} {x : Instr} {full : List Part}
    (f : Formed c) (hi : Inv c (mid ++ x :: (dropped ++ rest))) (nc : ∀ j ∈ mid, ∀ d, ¬ LoadsCode j d)
    (hf : ∀ l, OkAll c l full) (hm : ∀ j ∈ mid, msg c.lines j ∈ full)
    (hx : x.op ∈ implicit) (hd : ∀ j ∈ dropped, j.op ∈ implicit) :
    Good c (mid ++ x :: (dropped ++ rest)) (finish c.lines full rest) := by
  have hir : Inv c rest := inv_append (a := mid ++ x :: dropped) (by simpa using hi)
  apply finish_good f hir _ _ hf
  · simp only [weights_append, weights]
    have := weight_pos x
    omega
  · intro j hj
    simp only [List.mem_append, List.mem_cons] at hj
    have gone : ∀ j : Instr, j.op ∈ implicit → (Visible j → ∀ l r, Owes c.lines j l r → r ≠ [] →
      (∃ t, Names r t ∧ (l, t) ∈ leavesOf 0 full) ∨ ∃ j' ∈ rest, Visible j' ∧ Owes c.lines j' l r) ∧
        (∀ d, LoadsCode j d → j ∈ rest) := by
      intro j hj
      refine ⟨fun hv => absurd hj hv.1, fun d hd' => ?_⟩
      rw [hd'.1] at hj; exact absurd hj (by decide)
    rcases hj with hj | hj | hj | hj
    · refine ⟨fun _ l r ho _ => .inl ?_, fun d hd' => absurd hd' (nc j hj d)⟩
      obtain ⟨t, hn, ht⟩ := msg_owes f (hi.items j (by simp [hj])) ho 0
      exact ⟨t, hn, leavesOf_mem (hm j hj) ht⟩
    · subst hj; exact gone j hx
    · exact gone j (hd j hj)
    · exact keeps_refl _ _ _ j hj

theorem take_drop_mem {a : List Instr} {n : Nat} : a.take n ++ a.drop n = a := List.take_append_drop n a

theorem look_good {c : Code} (f : Formed c) {found rest : List Instr} {x : Instr}
    (hi : Inv c (found ++ x :: rest)) (loads : ∀ j ∈ found, isLoad j = true) (hx : isLoad x = false) {r : Next}
    (h : look c.lines found x rest = some r) : Good c (found ++ x :: rest) r := by
  have hxi := hi.items x (by simp)
  have hxc : x.op ≠ c!"LOAD_CONST" := by
    intro h'; simp only [isLoad, h'] at hx; exact absurd hx (by decide)
  have nc : x.op ≠ c!"MAKE_FUNCTION" → ∀ j ∈ found, ∀ d, ¬ LoadsCode j d := fun h' => chain_no_code hi.chain loads h' hx
  have busy : ∀ j ∈ found, Item c j ∧ j.op ∉ idle := fun j hj => ⟨hi.items j (by simp [hj]), load_busy (loads j hj)⟩
  have hfx : Follows x rest := (chain_append (a := found) hi.chain).1
  have hlast : ∀ y : Instr, rest.getLast? = some y → y.op ∉ notLast := by
    intro y hy
    exact hi.last y (by rw [List.getLast?_append, List.getLast?_cons, hy]; rfl)
  have hrest : x.op ∈ notLast → rest ≠ [] := by
    intro h1 h2
    subst h2
    exact hi.last x (by rw [List.getLast?_append]; rfl) h1
  have hnum : x.op ∈ [c!"CALL_FUNCTION", c!"PRECALL", c!"CALL"] → ∃ n, x.arg = .num n := by
    intro h1
    obtain ⟨k, i, hk, hop, ha, -⟩ := hxi
    cases f with
    | mk _ _ _ _ _ calls => rw [ha]; exact calls i (List.mem_of_getElem? hk) (by rw [← hop]; exact h1)
  have htup : x.op = c!"BUILD_TUPLE" → ∃ n, x.arg = .num (n + 1) := by
    intro h1
    obtain ⟨k, i, hk, hop, ha, -⟩ := hxi
    cases f with
    | mk _ _ _ _ tuples => rw [ha]; exact tuples i (List.mem_of_getElem? hk) (by rw [← hop]; exact h1)
  unfold look at h
  split at h
  · -- LOAD_ATTR
    rename_i ho
    cases hl : found.getLast? with
    | none => rw [hl] at h; simp at h
    | some prev =>
      rw [hl] at h
      simp only [Option.some.injEq] at h
      subst h
      have hsplit : found = found.dropLast ++ [prev] := by
        have hne : found ≠ [] := by intro e; rw [e] at hl; simp at hl
        rw [List.getLast?_eq_some_getLast hne] at hl
        obtain rfl := Option.some.inj hl
        exact (List.dropLast_concat_getLast hne).symm
      have hp : prev ∈ found := by rw [hsplit]; simp
      have nc' := nc (by rw [ho]; decide)
      have hxb : x.op ∉ idle := by rw [ho]; decide
      have := restart_good (pre := found.dropLast) (mid := [prev]) (dropped := []) (rest := rest) (x := x) (g := prev)
        (full := [msg c.lines prev, msgTok c.lines prev (.text c!"."), msg c.lines x]) f
        (by rw [← hsplit]; exact hi) (by rw [← hsplit]; exact loads) (by rw [← hsplit]; exact nc') (by simp)
        (by
          intro l
          simp only [OkAll, and_true]
          exact ⟨msg_ok f (busy prev hp).1 (busy prev hp).2 l, tok_ok f (busy prev hp).1 (busy prev hp).2 (by simp [fixed]) l,
            msg_ok f hxi hxb l⟩)
        (by simp) hxc (by simp) (by simp) (hrest (by rw [ho]; decide))
      rw [← hsplit] at this
      simpa using this
  · split at h
    · -- calls
      rename_i hne ho
      have ho' := ho
      simp only [List.mem_cons, List.not_mem_nil, or_false] at ho'
      have himp : x.op ∈ implicit := by rcases ho' with h | h | h <;> rw [h] <;> decide
      have hnl : x.op ∈ notLast := by rcases ho' with h | h | h <;> rw [h] <;> decide
      have nc' := nc (by rcases ho' with h | h | h <;> rw [h] <;> decide)
      obtain ⟨n, hn⟩ := hnum ho
      rw [hn] at h
      dsimp only at h
      split at h
      · simp at h
      · rename_i hlen
        -- the `CALL` that goes with a `PRECALL`
        have hdrop : ∃ dropped, rest = dropped ++ (if x.op = c!"PRECALL" then rest.drop 1 else rest) ∧
            (∀ j ∈ dropped, j.op ∈ implicit) ∧ (if x.op = c!"PRECALL" then rest.drop 1 else rest) ≠ [] := by
          split
          · rename_i hp
            obtain ⟨j, hj, hjo⟩ := hfx.1 hp
            cases hr : rest with
            | nil => rw [hr] at hj; simp at hj
            | cons y ys =>
              rw [hr] at hj
              simp only [List.getElem?_cons_zero, Option.some.injEq] at hj
              subst hj
              refine ⟨[y], rfl, by simp [hjo]; decide, ?_⟩
              intro e
              simp only [List.drop_succ_cons, List.drop_zero] at e
              subst e
              exact hlast y (by rw [hr]; rfl) (by rw [hjo]; decide)
          · exact ⟨[], rfl, by simp, hrest hnl⟩
        generalize (if x.op = c!"PRECALL" then rest.drop 1 else rest) = rest' at h hdrop
        obtain ⟨dropped, hr, hd, hr'⟩ := hdrop
        have hsp := take_drop_mem (a := found) (n := found.length - (n + 1))
        generalize hmid : found.drop (found.length - (n + 1)) = mid at h hsp
        cases mid with
        | nil => simp at h
        | cons g args =>
          dsimp only at h
          have hmem : ∀ j ∈ g :: args, j ∈ found := fun j hj => by rw [← hsp]; exact List.mem_append_right _ hj
          have hfull := callRepr_ok f (fun j hj => busy j (hmem j hj))
          have hmsg := callRepr_msg c.lines g args
          split at h
          · rename_i he
            simp only [Option.some.injEq] at h
            subst h
            have h0 : found.take (found.length - (n + 1)) = [] := by rw [he]; simp
            rw [h0, List.nil_append] at hsp
            rw [hr]
            rw [← hsp]
            exact whole_good f (by rw [hsp, ← hr]; exact hi) (by rw [hsp]; exact nc') hfull hmsg himp hd
          · simp only [Option.some.injEq] at h
            subst h
            have := restart_good (pre := found.take (found.length - (n + 1))) (mid := g :: args) (dropped := dropped)
              (rest := rest') (x := x) (g := g) (full := callRepr c.lines g args) f
              (by rw [hsp, ← hr]; exact hi) (by rw [hsp]; exact loads) (by rw [hsp]; exact nc') (by simp) hfull hmsg hxc
              (fun hv => absurd himp hv.1) hd hr'
            rw [hsp, ← hr] at this
            exact this
    · split at h
      · -- tuples
        rename_i ho
        have himp : x.op ∈ implicit := by rw [ho]; decide
        have nc' := nc (by rw [ho]; decide)
        have hr' := hrest (by rw [ho]; decide)
        obtain ⟨n, hn⟩ := htup ho
        rw [hn] at h
        dsimp only at h
        split at h
        · simp at h
        · rename_i hlen
          have hsp := take_drop_mem (a := found) (n := found.length - (n + 1))
          generalize hmid : found.drop (found.length - (n + 1)) = mid at h hsp
          cases mid with
          | nil =>
            have := congrArg List.length hmid
            simp at this
            omega
          | cons g args =>
            simp only [List.headD_cons] at h
            have hmem : ∀ j ∈ g :: args, j ∈ found := fun j hj => by rw [← hsp]; exact List.mem_append_right _ hj
            have hfull := tupleRepr_ok (g := g) (args := g :: args) f
              (fun j hj => busy j (hmem j (by simpa using hj)))
            have hmsg := tupleRepr_msg c.lines g (g :: args)
            split at h
            · rename_i he
              simp only [Option.some.injEq] at h
              subst h
              have h0 : found.take (found.length - (n + 1)) = [] := by rw [he]; simp
              rw [h0, List.nil_append] at hsp
              rw [← hsp]
              exact whole_good (dropped := []) f (by rw [hsp]; exact hi) (by rw [hsp]; exact nc') hfull hmsg himp (by simp)
            · simp only [Option.some.injEq] at h
              subst h
              have := restart_good (pre := found.take (found.length - (n + 1))) (mid := g :: args) (dropped := [])
                (rest := rest) (x := x) (g := g) (full := tupleRepr c.lines g (g :: args)) f
                (by rw [hsp]; exact hi) (by rw [hsp]; exact loads) (by rw [hsp]; exact nc') (by simp) hfull hmsg hxc
                (fun hv => absurd himp hv.1) (by simp) hr'
              rw [hsp] at this
              exact this
      · simp at h

theorem lookahead_good {c : Code} (f : Formed c) {is : List Instr} (hi : Inv c is) {r : Next}
    (h : lookahead c.lines is = some r) : Good c is r := by
  unfold lookahead at h
  have hsp : is.takeWhile isLoad ++ is.dropWhile isLoad = is := List.takeWhile_append_dropWhile
  have hl : ∀ j ∈ is.takeWhile isLoad, isLoad j = true := fun j hj => List.all_eq_true.1 (List.all_takeWhile) j hj
  split at h
  · simp at h
  · simp at h
  · rename_i f' fs n rest h1 h2
    have hn : isLoad n = false := by
      have := List.head?_dropWhile_not isLoad is
      rw [h2] at this
      simpa using this
    rw [h1] at hsp hl
    rw [h2] at hsp
    rw [← hsp] at hi ⊢
    exact look_good f hi hl hn h

theorem next_good {c : Code} (f : Formed c) {i : Instr} {is : List Instr} (hi : Inv c (i :: is)) :
    Good c (i :: is) (next c.lines i is) := by
  have hii := hi.items i (by simp)
  have hw : weights is < weights (i :: is) := by simp only [weights]; have := weight_pos i; omega
  have hmin : i.op ∉ idle → i.repr.minLine = bigLine ∨ HasLine c i.repr.minLine := fun hb =>
    Part.minLine_ok _ _ (repr_ok f hii hb).1
  unfold next
  split
  · rename_i r hr
    exact lookahead_good f hi hr
  · split
    · rename_i ho
      refine ⟨inv_tail hi, hw, keeps_implicit ?_⟩
      simp only [List.mem_cons, List.not_mem_nil, or_false] at ho
      rcases ho with ho | ho <;> rw [ho] <;> decide
    · rename_i hidle
      have hb : i.op ∉ idle := hidle
      split
      · rename_i ho
        simp only [Good, Part.Ok, OkAll, Part.leaves, leavesOf, and_true, List.append_nil]
        refine ⟨inv_tail hi, hw, ⟨at_ok f hii hb (by simp [fixed]) (hmin hb) 0, msg_ok f hii hb 0⟩, ?_⟩
        refine keeps_cons (not_code (by rw [ho]; decide)) ?_
        intro _ l r ho _
        obtain ⟨t, hn, ht⟩ := msg_owes f hii ho 0
        exact ⟨t, hn, by simp [ht]⟩
      · split
        · rename_i hload
          have hnl : i.op ∈ notLast := by
            simp only [isLoad, decide_eq_true_eq, List.mem_cons, List.not_mem_nil, or_false] at hload
            rcases hload with h | h | h | h <;> rw [h] <;> decide
          cases is with
          | nil => exact absurd hnl (hi.last i rfl)
          | cons n rest =>
            have hni := hi.items n (by simp)
            have hw2 : weights rest < weights (i :: n :: rest) := by
              simp only [weights]; have := weight_pos i; omega
            -- a code object is not followed by a store, a return or a raise
            have hcode : n.op ≠ c!"MAKE_FUNCTION" → n.op ≠ c!"LOAD_CONST" → ∀ d, ¬ LoadsCode i d := by
              intro h1 h2 d hd
              rcases hi.chain.1.2 d hd with ⟨j, hj, hjo⟩ | ⟨j, m, hj, hjo, -⟩
              · simp at hj; subst hj; exact h1 hjo
              · simp at hj; subst hj; exact h2 hjo
            have two : ∀ (s : List (Nat × Text)), (∀ d, ¬ LoadsCode i d) → (msg c.lines i).leaves 0 ⊆ s →
                (∀ d, ¬ LoadsCode n d) → (Visible n → (msg c.lines n).leaves 0 ⊆ s) →
                Keeps c.lines (i :: n :: rest) s rest := by
              intro s h1 h2 h3 h4
              refine keeps_trans (keeps_cons (s := s) h1 ?_) (keeps_cons (s := s) h3 ?_) (fun _ h => h) (fun _ h => h)
              · intro _ l r ho _
                obtain ⟨t, hn, ht⟩ := msg_owes f hii ho 0
                exact ⟨t, hn, h2 ht⟩
              · intro hv l r ho _
                obtain ⟨t, hn, ht⟩ := msg_owes f hni ho 0
                exact ⟨t, hn, h4 hv ht⟩
            have single : (∀ d, ¬ LoadsCode i d) → Good c (i :: n :: rest) (.shown (plain c.lines i) (n :: rest)) := by
              intro hc
              refine ⟨inv_tail hi, hw, plain_ok f hii hb 0, keeps_cons hc ?_⟩
              intro hv l r ho hr
              rcases plain_owes hv ho 0 with h | h
              · exact absurd h hr
              · exact h
            rw [load]
            split
            · rename_i hs
              have hop : n.op ∉ idle ∧ n.op ≠ c!"LOAD_CONST" ∧ n.op ≠ c!"MAKE_FUNCTION" := by
                simp only [isStore, decide_eq_true_eq, List.mem_cons, List.not_mem_nil, or_false] at hs
                rcases hs with hs | hs <;> rw [hs] <;> decide
              simp only [Good, Part.Ok, OkAll, Part.leaves, leavesOf, and_true, List.append_nil]
              refine ⟨inv_tail (inv_tail hi), hw2,
                ⟨msg_ok f hni hop.1 0, tok_ok f hni hop.1 (by simp [fixed]) 0, msg_ok f hii hb 0⟩, ?_⟩
              apply two _ (hcode hop.2.2 hop.2.1) _ (not_code hop.2.1) (fun _ => _)
              · intro x hx; simp [hx]
              · intro _ x hx; simp [hx]
            · split
              · rename_i hr
                simp only [Good, Part.Ok, OkAll, Part.leaves, leavesOf, and_true, List.append_nil]
                refine ⟨inv_tail (inv_tail hi), hw2, ⟨at_ok f hii hb (by simp [fixed]) (hmin hb) 0, msg_ok f hii hb 0⟩, ?_⟩
                apply two _ (hcode (by rw [hr]; decide) (by rw [hr]; decide)) _ (not_code (by rw [hr]; decide)) _
                · intro x hx; simp [hx]
                · intro hv; exact absurd (by rw [hr]; decide) hv.1
              · split
                · rename_i hr
                  simp only [Good, Part.Ok, OkAll, Part.leaves, leavesOf, and_true, List.append_nil]
                  refine ⟨inv_tail (inv_tail hi), hw2, ⟨at_ok f hii hb (by simp [fixed]) (hmin hb) 0, msg_ok f hii hb 0⟩, ?_⟩
                  apply two _ (hcode (by rw [hr.1]; decide) (by rw [hr.1]; decide)) _ (not_code (by rw [hr.1]; decide)) _
                  · intro x hx; simp [hx]
                  · intro hv; exact absurd (by rw [hr.1]; decide) hv.1
                · split
                  · rename_i hc
                    split
                    · rename_i d hd
                      exact ⟨inv_tail hi, ⟨i, rfl, ⟨hc, hd⟩, hii⟩, tok_ok f hii hb (by simp [fixed]) 0⟩
                    · rename_i hd
                      exact single (fun d hd' => hd d hd'.2)
                  · rename_i hc
                    exact single (not_code hc)
        · rename_i hload
          refine ⟨inv_tail hi, hw, plain_ok f hii hb 0, keeps_cons ?_ ?_⟩
          · apply not_code
            intro h; apply hload; simp only [isLoad, h]; decide
          · intro hv l r ho hr
            rcases plain_owes hv ho 0 with h | h
            · exact absurd h hr
            · exact h

end Disasm
