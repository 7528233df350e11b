import Verif.TemplateLines.Model
/-!
C121: a breakpoint in a Django template may be on the lines of its nodes.
-/

namespace TemplateLines
open Py

/-! ### Specification -/

/-- A node of the template: one of the list, or in a list of a node of it. -/
inductive In (nodelist : List Node) : Node → Prop
  | top {n} : n ∈ nodelist → In nodelist n
  | child {n m a} : In nodelist n → m ∈ n.list a → In nodelist m

/-- A node that is rendered as part of the template: one of the list, or in one of the lists that a node of it says it has. -/
inductive Rendered (nodelist : List Node) : Node → Prop
  | top {n} : n ∈ nodelist → Rendered nodelist n
  | child {n m as a} : Rendered nodelist n → n.lists = some as → a ∈ as → m ∈ n.list a → Rendered nodelist m

/-- At most one of a node's lists has nodes. -/
def AtMostOne (n : Node) : Prop := ∀ as, n.lists = some as → ∀ a ∈ as, ∀ b ∈ as, n.list a ≠ [] → n.list b ≠ [] → a = b

/-! ### What is given is of the template -/

theorem in_mono {l l' : List Node} (h : ∀ n ∈ l, In l' n) {n : Node} (hn : In l n) : In l' n := by
  induction hn with
  | top h' => exact h _ h'
  | child _ hm ih => exact .child ih hm

theorem last_mem {l : List Node} {n d : Node} (h : l.getLast?.getD d = n) (hl : l ≠ []) : n ∈ l := by
  cases hh : l.getLast? with
  | none => exact absurd (List.getLast?_eq_none_iff.mp hh) hl
  | some m =>
    rw [hh] at h
    cases h
    exact List.mem_of_getLast? hh

theorem children_in (iter : List Node → List Node) (hiter : ∀ l n, n ∈ iter l → In l n) (as : List Attr) (node : Node) (n : Node)
    (h : n ∈ children iter node as) : In [node] n := by
  induction as generalizing node with
  | nil => cases h
  | cons a rest ih =>
    rw [children] at h
    dsimp only at h
    split at h
    · exact ih node h
    · have hgiven : ∀ m ∈ iter (node.list a), In [node] m := by
        intro m hm
        exact in_mono (fun k hk => .child (.top (List.mem_singleton.mpr rfl)) hk) (hiter _ m hm)
      rcases List.mem_append.mp h with h | h
      · exact hgiven n h
      · have := ih _ h
        by_cases he : iter (node.list a) = []
        · rw [he] at this; exact this
        · refine in_mono ?_ this
          intro k hk
          rw [List.mem_singleton] at hk
          exact hgiven k (last_mem hk.symm he)

theorem iternodes_in (fuel : Nat) (l : List Node) (n : Node) (h : n ∈ iternodes fuel l) : In l n := by
  induction fuel generalizing l n with
  | zero => cases h
  | succ fuel ih =>
    rw [iternodes, List.mem_flatMap] at h
    obtain ⟨m, hm, h⟩ := h
    rcases List.mem_cons.mp h with rfl | h
    · exact .top hm
    · cases hl : m.lists with
      | none => rw [hl] at h; cases h
      | some as =>
        rw [hl] at h
        refine in_mono ?_ (children_in _ ih as m n h)
        intro k hk
        rw [List.mem_singleton] at hk
        subst hk
        exact .top hm

/-- **C121**: every line taken for valid is that of a node of the template that is not plain text. -/
theorem c121_sound (nodelist : List Node) (l : Nat) (h : l ∈ validLines nodelist) :
    ∃ n, In nodelist n ∧ n.ignored = false ∧ n.line = some l := by
  unfold validLines at h
  rw [List.mem_filterMap] at h
  obtain ⟨n, hn, h⟩ := h
  split at h
  · cases h
  · rename_i hi
    exact ⟨n, iternodes_in _ _ _ hn, by simpa using hi, h⟩

/-! ### What is of the template is given -/

theorem depth_pos (n : Node) : 0 < n.depth := by
  cases n with
  | mk _ _ _ _ => rw [Node.depth]; omega

theorem depth_mem {l : List Node} {n : Node} (h : n ∈ l) : n.depth ≤ depthList l := by
  induction l with
  | nil => cases h
  | cons m rest ih =>
    rw [depthList]
    rcases List.mem_cons.mp h with rfl | h
    · exact Nat.le_max_left ..
    · exact Nat.le_trans (ih h) (Nat.le_max_right ..)

theorem depth_list (n : Node) (a : Attr) : depthList (n.list a) < n.depth := by
  cases n with
  | mk l i ls attrs =>
    rw [Node.depth]
    unfold Node.list Node.attrs
    dsimp only
    have : ∀ attrs : List (Attr × List Node), depthList ((Dict.get attrs a).getD []) ≤ depthAttrs attrs := by
      intro attrs
      induction attrs with
      | nil => exact Nat.zero_le _
      | cons e rest ih =>
        obtain ⟨k, ns⟩ := e
        rw [Dict.get_cons, depthAttrs]
        split
        · exact Nat.le_max_left ..
        · exact Nat.le_trans ih (Nat.le_max_right ..)
    have := this attrs
    omega

/-- Before the first list with nodes, the node looked at is the one meant; after it the rest is looked for in others. -/
theorem children_has (iter : List Node → List Node) (as : List Attr) (node : Node) (a : Attr) (ha : a ∈ as) (m : Node) (hm : m ∈ iter (node.list a))
    (hne : node.list a ≠ []) (honly : ∀ b ∈ as, b ≠ a → node.list b = []) : m ∈ children iter node as := by
  induction as with
  | nil => cases ha
  | cons b rest ih =>
    rw [children]
    dsimp only
    by_cases hb : b = a
    · subst hb
      rw [if_neg (by simpa using hne)]
      exact List.mem_append.mpr (.inl hm)
    · rw [honly b (List.mem_cons_self ..) hb]
      simp only [List.isEmpty_nil, if_true]
      rcases List.mem_cons.mp ha with h | h
      · exact absurd h.symm hb
      · exact ih h (fun c hc => honly c (List.mem_cons_of_mem _ hc))

theorem iternodes_has (fuel : Nat) (l : List Node) (hd : depthList l ≤ fuel) (hone : ∀ n, Rendered l n → AtMostOne n) (n : Node) (h : Rendered l n) :
    n ∈ iternodes fuel l := by
  induction fuel generalizing l n with
  | zero =>
    exfalso
    have : l ≠ [] := by
      rintro rfl
      induction h with
      | top h => cases h
      | child _ _ _ _ ih => exact ih
    cases l with
    | nil => exact this rfl
    | cons m rest =>
      have h1 := depth_mem (List.mem_cons_self (a := m) (l := rest))
      have h2 := depth_pos m
      omega
  | succ fuel ih =>
    -- a rendered node is one of the list, or rendered in a list of one of the list
    have hcase : n ∈ l ∨ ∃ m ∈ l, ∃ as a, m.lists = some as ∧ a ∈ as ∧ Rendered (m.list a) n := by
      clear hone ih hd
      induction h with
      | top h => exact .inl h
      | child h1 h2 h3 h4 ih =>
        rename_i n' m' as a
        rcases ih with h | ⟨m, hm, as', a', h1', h2', h3'⟩
        · exact .inr ⟨n', h, as, a, h2, h3, .top h4⟩
        · exact .inr ⟨m, hm, as', a', h1', h2', .child h3' h2 h3 h4⟩
    rw [iternodes, List.mem_flatMap]
    rcases hcase with h' | ⟨m, hm, as, a, hls, ha, hr⟩
    · exact ⟨n, h', List.mem_cons_self ..⟩
    · refine ⟨m, hm, List.mem_cons_of_mem _ ?_⟩
      rw [hls]
      dsimp only
      have hrm : Rendered l m := .top hm
      have hne : m.list a ≠ [] := by
        intro h0
        rw [h0] at hr
        clear h
        induction hr with
        | top h => cases h
        | child _ _ _ _ ih => exact ih
      have hlift : ∀ k, Rendered (m.list a) k → Rendered l k := by
        intro k hk
        induction hk with
        | top h => exact .child hrm hls ha h
        | child _ h2 h3 h4 ih => exact .child ih h2 h3 h4
      refine children_has _ as m a ha n ?_ hne ?_
      · refine ih _ ?_ (fun k hk => hone k (hlift k hk)) n hr
        have h1 := depth_list m a
        have h2 := depth_mem hm
        omega
      · intro b hb hba
        cases hlb : m.list b with
        | nil => rfl
        | cons x xs =>
          exact absurd (hone m hrm as hls b hb a ha (by rw [hlb]; simp) hne) hba

/-- **C121** (partial: no node has nodes in two of its lists, as a `for` with an `empty` part has): the lines of all nodes that are rendered, not being plain text,
are valid. -/
theorem c121_complete_partial (nodelist : List Node) (hone : ∀ n, Rendered nodelist n → AtMostOne n) (n : Node) (h : Rendered nodelist n)
    (hi : n.ignored = false) (l : Nat) (hl : n.line = some l) : l ∈ validLines nodelist := by
  unfold validLines
  rw [List.mem_filterMap]
  exact ⟨n, iternodes_has _ _ (Nat.le_refl _) hone n h, by rw [hi]; simpa using hl⟩

/-! ### Examples and witnesses -/

def text (l : Nat) : Node := .mk (some l) true (some [0]) []
def var (l : Nat) : Node := .mk (some l) false (some [0]) []
/-- `{% if %}` -/
def ifNode (l : Nat) (body : List Node) : Node := .mk (some l) false (some [0]) [(0, body)]
/-- `{% for %} … {% empty %} … {% endfor %}`: `nodelist_loop` and `nodelist_empty` -/
def forNode (l : Nat) (body empty : List Node) : Node := .mk (some l) false (some [1, 2]) [(1, body), (2, empty)]

def t1 : List Node := [text 1, ifNode 2 [text 2, forNode 3 [var 4, ifNode 5 [var 6]] []], var 8]

theorem c121_example : validLines t1 = [2, 3, 4, 5, 6, 8] := by decide +kernel

def t2 : List Node := [text 1, forNode 2 [ifNode 3 [var 4]] []]

example : (∀ n, Rendered t2 n → AtMostOne n) ∧ Rendered t2 (var 4) := by
  have key : ∀ n, Rendered t2 n → n = text 1 ∨ n = forNode 2 [ifNode 3 [var 4]] [] ∨ n = ifNode 3 [var 4] ∨ n = var 4 := by
    intro n h
    induction h with
    | top h => simp only [t2, List.mem_cons, List.not_mem_nil, or_false] at h; rcases h with h | h <;> simp [h]
    | child _ hl ha hm ih =>
      rcases ih with rfl | rfl | rfl | rfl <;> cases hl <;> simp only [List.mem_cons, List.not_mem_nil, or_false] at ha
      · subst ha; cases hm
      · rcases ha with rfl | rfl
        · rcases List.mem_singleton.mp hm with rfl
          exact .inr (.inr (.inl rfl))
        · cases hm
      · subst ha
        rcases List.mem_singleton.mp hm with rfl
        exact .inr (.inr (.inr rfl))
      · subst ha; cases hm
  refine ⟨?_, ?_⟩
  · intro n hn as has a ha b hb h1 h2
    rcases key n hn with rfl | rfl | rfl | rfl <;> cases has <;> simp only [List.mem_cons, List.not_mem_nil, or_false] at ha hb
    · rw [ha, hb]
    · rcases ha with rfl | rfl
      · rcases hb with rfl | rfl
        · rfl
        · exact absurd rfl h2
      · exact absurd rfl h1
    · rw [ha, hb]
    · rw [ha, hb]
  · have h1 : Rendered t2 (forNode 2 [ifNode 3 [var 4]] []) := .top (List.mem_cons_of_mem _ (List.mem_cons_self ..))
    have h2 : Rendered t2 (ifNode 3 [var 4]) := .child h1 rfl (List.mem_cons_self ..) (List.mem_cons_self ..)
    exact .child h2 rfl (List.mem_cons_self ..) (List.mem_cons_self ..)

/-- The `empty` part of a `for` whose body is not empty is not looked at: its lines are taken for invalid. -/
theorem c121_empty_witness : validLines [forNode 1 [var 2] [var 4]] = [1, 2] ∧ Rendered [forNode 1 [var 2] [var 4]] (var 4) :=
  ⟨by decide +kernel, .child (n := forNode 1 [var 2] [var 4]) (as := [1, 2]) (a := 2) (.top (List.mem_singleton.mpr rfl)) rfl (by decide)
    (by simp [Node.list, Node.attrs, forNode, Dict.get_cons])⟩

end TemplateLines
