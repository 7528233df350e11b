import Verif.TryExcept.Model
/-!
C25: the try/except regions collected from a source file, and the decision made with them.
-/

namespace TryExcept

/-! ### Specification -/

mutual
/-- `x` is `t` or a node below it. -/
inductive In : Tree → Tree → Prop
  | self (t) : In t t
  | plain {x l kids} : InF x kids → In x (.plain l kids)
  | raise_ {x l b kids} : InF x kids → In x (.raise_ l b kids)
  | body {x l body hs rest} : InF x body → In x (.try_ l body hs rest)
  | handlers {x l body hs rest} : InH x hs → In x (.try_ l body hs rest)
  | rest {x l body hs rest} : InF x rest → In x (.try_ l body hs rest)
  | bodyStar {x l body hs rest} : InF x body → In x (.tryStar l body hs rest)
  | handlersStar {x l body hs rest} : InH x hs → In x (.tryStar l body hs rest)
  | restStar {x l body hs rest} : InF x rest → In x (.tryStar l body hs rest)
inductive InF : Tree → Forest → Prop
  | head {x t f} : In x t → InF x (.cons t f)
  | tail {x t f} : InF x f → InF x (.cons t f)
inductive InH : Tree → Handlers → Prop
  | head {x l e kids hs} : InF x kids → InH x (.cons l e kids hs)
  | tail {x l e kids hs} : InH x hs → InH x (.cons l e kids hs)
end

/-- The lines of the handlers. -/
def Handlers.lines : Handlers → List Nat
  | .nil => []
  | .cons l _ _ hs => l :: hs.lines
def Handlers.ends : Handlers → List Nat
  | .nil => []
  | .cons _ e _ hs => e :: hs.ends

/-- What is collected for a `try` statement with these handlers: from the `try` to the first `except`, from there to
the end of the last handler, and the bare `raise` statements anywhere in the handlers. -/
structure Describes (i : Info) (l : Nat) (hs : Handlers) : Prop where
  tryLine : i.tryLine = l
  exceptLine : i.exceptLine = hs.lines.head?
  exceptEnd : i.exceptEnd = hs.ends.getLast?
  raises : ∀ r, r ∈ i.raises ↔ ∃ kids, InH (.raise_ r true kids) hs

/-- There is no `except*` in the file. -/
def NoStar (f : Forest) : Prop := ∀ l b h r, ¬InF (.tryStar l b h r) f

/-! ### The visitor -/

/-- The information of a completed `try` statement, for induction. -/
structure Sub where
  line : Nat
  hs : Handlers

def own (l : Nat) (hs : Handlers) : List Sub := match hs with | .nil => [] | .cons .. => [⟨l, hs⟩]

mutual
def regions : Tree → List Sub
  | .plain _ kids => regionsF kids
  | .raise_ _ _ kids => regionsF kids
  | .try_ l body hs rest => own l hs ++ (regionsF rest ++ (regionsH hs ++ regionsF body))
  | .tryStar _ body hs rest => regionsF rest ++ (regionsH hs ++ regionsF body)
def regionsF : Forest → List Sub
  | .nil => []
  | .cons t f => regionsF f ++ regions t
def regionsH : Handlers → List Sub
  | .nil => []
  | .cons _ _ kids hs => regionsH hs ++ regionsF kids
end

mutual
/-- lines of the bare raises, in order of visit -/
def bare : Tree → List Nat
  | .plain _ kids => bareF kids
  | .raise_ l b kids => (if b then [l] else []) ++ bareF kids
  | .try_ _ body hs rest => bareF body ++ (bareH hs ++ bareF rest)
  | .tryStar _ body hs rest => bareF body ++ (bareH hs ++ bareF rest)
def bareF : Forest → List Nat
  | .nil => []
  | .cons t f => bare t ++ bareF f
def bareH : Handlers → List Nat
  | .nil => []
  | .cons _ _ kids hs => bareF kids ++ bareH hs
end

mutual
def starless : Tree → Bool
  | .plain _ kids => starlessF kids
  | .raise_ _ _ kids => starlessF kids
  | .try_ _ body hs rest => starlessF body && starlessH hs && starlessF rest
  | .tryStar .. => false
def starlessF : Forest → Bool
  | .nil => true
  | .cons t f => starless t && starlessF f
def starlessH : Handlers → Bool
  | .nil => true
  | .cons _ _ kids hs => starlessF kids && starlessH hs
end

/-- The info built for a `try` with handlers. -/
def infoOf (s : Sub) : Info :=
  { tryLine := s.line, exceptLine := s.hs.lines.head?, exceptEnd := s.hs.ends.getLast?, raises := bareH s.hs }

/-- adding bare raises to an open entry -/
def addAll (ls : List Nat) (o : Open) : Open := ls.foldl (fun o l => addRaise l o) o

@[simp] theorem addAll_nil (o : Open) : addAll [] o = o := rfl
theorem addAll_append (a b : List Nat) (o : Open) : addAll (a ++ b) o = addAll b (addAll a o) := by
  simp [addAll, List.foldl_append]
@[simp] theorem addAll_ignore (ls : List Nat) (o : Open) : (addAll ls o).ignore = o.ignore := by
  induction ls generalizing o with
  | nil => rfl
  | cons l ls ih => exact ih _
@[simp] theorem addAll_inExcept (ls : List Nat) (o : Open) : (addAll ls o).inExcept = o.inExcept := by
  induction ls generalizing o with
  | nil => rfl
  | cons l ls ih => exact ih _
theorem addAll_info_zero (ls : List Nat) (o : Open) (h : o.inExcept = 0) : addAll ls o = o := by
  induction ls generalizing o with
  | nil => rfl
  | cons l ls ih =>
    have : addRaise l o = o := by
      obtain ⟨i, g, n⟩ := o
      simp only at h
      subst h
      simp [addRaise]
    show addAll ls (addRaise l o) = o
    rw [this]; exact ih o h
theorem addAll_info_one (ls : List Nat) (o : Open) (h : o.inExcept = 1) :
    (addAll ls o) = { o with info := { o.info with raises := o.info.raises ++ ls } } := by
  induction ls generalizing o with
  | nil => simp
  | cons l ls ih =>
    show addAll ls (addRaise l o) = _
    rw [ih _ (by simpa [addRaise] using h)]
    simp [addRaise, h]

/-- what visiting handlers does to the entry on top -/
def afterHandlers (hs : Handlers) (o : Open) : Open :=
  match hs with
  | .nil => o
  | .cons l _ _ _ =>
    { o with
      ignore := false
      info := { o.info with exceptLine := some (o.info.exceptLine.getD l), exceptEnd := hs.ends.getLast?,
                            raises := o.info.raises ++ bareH hs } }

theorem map_addAll_append (a b : List Nat) (st : List Open) :
    (st.map (addAll a)).map (addAll b) = st.map (addAll (a ++ b)) := by
  simp [List.map_map, Function.comp_def, addAll_append]

mutual
theorem visit_ok : ∀ (t : Tree) (v : Visitor), starless t = true →
    visit t v = some { infos := (regions t).map infoOf ++ v.infos, stack := v.stack.map (addAll (bare t)) }
  | .plain l kids, v, h => by
    rw [visit, visitForest_ok kids v h]
    simp [regions, bare]
  | .raise_ l b kids, v, h => by
    rw [visit, visitForest_ok kids _ h]
    cases b with
    | true =>
      simp only [if_true, regions, bare, Option.some.injEq, Visitor.mk.injEq, true_and]
      rw [← map_addAll_append]
      rfl
    | false => simp [regions, bare]
  | .try_ l body hs rest, v, h => by
    simp only [starless, Bool.and_eq_true] at h
    rw [visit, visitForest_ok body _ h.1.1]
    simp only [Option.bind_some, List.map_cons]
    rw [addAll_info_zero _ _ rfl]
    rw [visitHandlers_ok hs _ _ _ h.1.2 rfl]
    simp only [Option.bind_some]
    rw [visitForest_ok rest _ h.2]
    simp only [Option.bind_some, List.map_cons, leaveTry, addAll_ignore]
    have h0 : (afterHandlers hs { info := { tryLine := l } }).inExcept = 0 := by cases hs <;> rfl
    rw [addAll_info_zero _ _ h0, map_addAll_append, map_addAll_append]
    cases hs with
    | nil => simp [regions, own, bare, afterHandlers, bareH, regionsH, List.append_assoc]
    | cons hl he hk hr =>
      simp [regions, own, bare, afterHandlers, infoOf, Handlers.lines, List.append_assoc]
  | .tryStar .., v, h => by cases h
theorem visitForest_ok : ∀ (f : Forest) (v : Visitor), starlessF f = true →
    visitForest f v = some { infos := (regionsF f).map infoOf ++ v.infos, stack := v.stack.map (addAll (bareF f)) }
  | .nil, v, _ => by
    have : (fun o => o) = addAll (bareF .nil) := by funext o; rfl
    simp [visitForest, regionsF, ← this]
  | .cons t f, v, h => by
    simp only [starlessF, Bool.and_eq_true] at h
    rw [visitForest, visit_ok t v h.1]
    simp only [Option.bind_some]
    rw [visitForest_ok f _ h.2]
    simp only [map_addAll_append]
    simp [regionsF, bareF, List.append_assoc]
theorem visitHandlers_ok : ∀ (hs : Handlers) (infos : List Info) (o : Open) (st : List Open), starlessH hs = true →
    o.inExcept = 0 →
    visitHandlers hs { infos, stack := o :: st } =
      some { infos := (regionsH hs).map infoOf ++ infos, stack := afterHandlers hs o :: st.map (addAll (bareH hs)) }
  | .nil, infos, o, st, _, _ => by
    have : (fun o => o) = addAll (bareH .nil) := by funext o; rfl
    simp [visitHandlers, regionsH, afterHandlers, ← this]
  | .cons l e kids hs, infos, o, st, h, ho => by
    simp only [starlessH, Bool.and_eq_true] at h
    rw [visitHandlers]
    simp only [enterHandler, Option.bind_some]
    rw [visitForest_ok kids _ h.1]
    simp only [Option.bind_some, List.map_cons, leaveHandler, addAll_inExcept]
    rw [addAll_info_one _ _ (by simp [ho])]
    simp only [ho]
    rw [visitHandlers_ok hs _ _ _ h.2 (by simp), map_addAll_append]
    have hb : bareF kids ++ bareH hs = bareH (.cons l e kids hs) := by simp [bareH]
    rw [hb]
    simp only [Option.some.injEq, Visitor.mk.injEq, List.cons.injEq, and_true]
    refine ⟨by simp [regionsH, List.append_assoc], ?_⟩
    cases hs with
    | nil => simp [afterHandlers, Handlers.ends, bareH, ho]
    | cons l' e' k' h' => simp [afterHandlers, Handlers.ends, bareH, ho, List.append_assoc]
end

/-! ### From the recursive description to the specification -/

mutual
theorem starless_of : ∀ t : Tree, (∀ l b h r, ¬In (.tryStar l b h r) t) → starless t = true
  | .plain _ kids, hn => starlessF_of kids fun l b h r hi => hn l b h r (.plain hi)
  | .raise_ _ _ kids, hn => starlessF_of kids fun l b h r hi => hn l b h r (.raise_ hi)
  | .try_ _ body hs rest, hn => by
    simp only [starless, Bool.and_eq_true]
    exact ⟨⟨starlessF_of body fun l b h r hi => hn l b h r (.body hi), starlessH_of hs fun l b h r hi => hn l b h r (.handlers hi)⟩,
      starlessF_of rest fun l b h r hi => hn l b h r (.rest hi)⟩
  | .tryStar l b h r, hn => absurd (.self _) (hn l b h r)
theorem starlessF_of : ∀ f : Forest, (∀ l b h r, ¬InF (.tryStar l b h r) f) → starlessF f = true
  | .nil, _ => rfl
  | .cons t f, hn => by
    simp only [starlessF, Bool.and_eq_true]
    exact ⟨starless_of t fun l b h r hi => hn l b h r (.head hi), starlessF_of f fun l b h r hi => hn l b h r (.tail hi)⟩
theorem starlessH_of : ∀ hs : Handlers, (∀ l b h r, ¬InH (.tryStar l b h r) hs) → starlessH hs = true
  | .nil, _ => rfl
  | .cons _ _ kids hs, hn => by
    simp only [starlessH, Bool.and_eq_true]
    exact ⟨starlessF_of kids fun l b h r hi => hn l b h r (.head hi), starlessH_of hs fun l b h r hi => hn l b h r (.tail hi)⟩
end

mutual
theorem mem_bare : ∀ (t : Tree) (r : Nat), r ∈ bare t ↔ ∃ k, In (.raise_ r true k) t
  | .plain l kids, r => by
    rw [bare, mem_bareF kids r]
    exact ⟨fun ⟨k, h⟩ => ⟨k, .plain h⟩, fun ⟨k, h⟩ => by cases h with | plain h => exact ⟨k, h⟩⟩
  | .raise_ l b kids, r => by
    rw [bare, List.mem_append, mem_bareF kids r]
    constructor
    · rintro (h | ⟨k, h⟩)
      · cases b with
        | true => simp only [if_true, List.mem_singleton] at h; subst h; exact ⟨kids, .self _⟩
        | false => simp at h
      · exact ⟨k, .raise_ h⟩
    · rintro ⟨k, h⟩
      cases h with
      | self => left; simp
      | raise_ h => exact .inr ⟨k, h⟩
  | .try_ l body hs rest, r => by
    rw [bare, List.mem_append, List.mem_append, mem_bareF body r, mem_bareF rest r, mem_bareH hs r]
    constructor
    · rintro (⟨k, h⟩ | ⟨k, h⟩ | ⟨k, h⟩)
      · exact ⟨k, .body h⟩
      · exact ⟨k, .handlers h⟩
      · exact ⟨k, .rest h⟩
    · rintro ⟨k, h⟩
      cases h with
      | body h => exact .inl ⟨k, h⟩
      | handlers h => exact .inr (.inl ⟨k, h⟩)
      | rest h => exact .inr (.inr ⟨k, h⟩)
  | .tryStar l body hs rest, r => by
    rw [bare, List.mem_append, List.mem_append, mem_bareF body r, mem_bareF rest r, mem_bareH hs r]
    constructor
    · rintro (⟨k, h⟩ | ⟨k, h⟩ | ⟨k, h⟩)
      · exact ⟨k, .bodyStar h⟩
      · exact ⟨k, .handlersStar h⟩
      · exact ⟨k, .restStar h⟩
    · rintro ⟨k, h⟩
      cases h with
      | bodyStar h => exact .inl ⟨k, h⟩
      | handlersStar h => exact .inr (.inl ⟨k, h⟩)
      | restStar h => exact .inr (.inr ⟨k, h⟩)
theorem mem_bareF : ∀ (f : Forest) (r : Nat), r ∈ bareF f ↔ ∃ k, InF (.raise_ r true k) f
  | .nil, r => by
    simp only [bareF, List.not_mem_nil, false_iff]
    rintro ⟨k, h⟩; cases h
  | .cons t f, r => by
    rw [bareF, List.mem_append, mem_bare t r, mem_bareF f r]
    constructor
    · rintro (⟨k, h⟩ | ⟨k, h⟩)
      · exact ⟨k, .head h⟩
      · exact ⟨k, .tail h⟩
    · rintro ⟨k, h⟩
      cases h with
      | head h => exact .inl ⟨k, h⟩
      | tail h => exact .inr ⟨k, h⟩
theorem mem_bareH : ∀ (hs : Handlers) (r : Nat), r ∈ bareH hs ↔ ∃ k, InH (.raise_ r true k) hs
  | .nil, r => by
    simp only [bareH, List.not_mem_nil, false_iff]
    rintro ⟨k, h⟩; cases h
  | .cons l e kids hs, r => by
    rw [bareH, List.mem_append, mem_bareF kids r, mem_bareH hs r]
    constructor
    · rintro (⟨k, h⟩ | ⟨k, h⟩)
      · exact ⟨k, .head h⟩
      · exact ⟨k, .tail h⟩
    · rintro ⟨k, h⟩
      cases h with
      | head h => exact .inl ⟨k, h⟩
      | tail h => exact .inr ⟨k, h⟩
end

mutual
theorem mem_regions : ∀ (t : Tree) (s : Sub),
    s ∈ regions t ↔ ∃ b r, In (.try_ s.line b s.hs r) t ∧ s.hs ≠ .nil
  | .plain l kids, s => by
    rw [regions, mem_regionsF kids s]
    exact ⟨fun ⟨b, r, h, hn⟩ => ⟨b, r, .plain h, hn⟩, fun ⟨b, r, h, hn⟩ => by cases h with | plain h => exact ⟨b, r, h, hn⟩⟩
  | .raise_ l _ kids, s => by
    rw [regions, mem_regionsF kids s]
    exact ⟨fun ⟨b, r, h, hn⟩ => ⟨b, r, .raise_ h, hn⟩, fun ⟨b, r, h, hn⟩ => by cases h with | raise_ h => exact ⟨b, r, h, hn⟩⟩
  | .try_ l body hs rest, s => by
    rw [regions, List.mem_append, List.mem_append, List.mem_append, mem_regionsF body s, mem_regionsF rest s, mem_regionsH hs s]
    constructor
    · rintro (h | ⟨b, r, h, hn⟩ | ⟨b, r, h, hn⟩ | ⟨b, r, h, hn⟩)
      · cases hs with
        | nil => cases h
        | cons a c d e =>
          simp only [own, List.mem_singleton] at h
          subst h
          exact ⟨body, rest, .self _, by simp⟩
      · exact ⟨b, r, .rest h, hn⟩
      · exact ⟨b, r, .handlers h, hn⟩
      · exact ⟨b, r, .body h, hn⟩
    · rintro ⟨b, r, h, hn⟩
      cases h with
      | self =>
        left
        obtain ⟨sl, sh⟩ := s
        cases sh with
        | nil => exact absurd rfl hn
        | cons a c d e => simp [own]
      | rest h => exact .inr (.inl ⟨b, r, h, hn⟩)
      | handlers h => exact .inr (.inr (.inl ⟨b, r, h, hn⟩))
      | body h => exact .inr (.inr (.inr ⟨b, r, h, hn⟩))
  | .tryStar l body hs rest, s => by
    rw [regions, List.mem_append, List.mem_append, mem_regionsF body s, mem_regionsF rest s, mem_regionsH hs s]
    constructor
    · rintro (⟨b, r, h, hn⟩ | ⟨b, r, h, hn⟩ | ⟨b, r, h, hn⟩)
      · exact ⟨b, r, .restStar h, hn⟩
      · exact ⟨b, r, .handlersStar h, hn⟩
      · exact ⟨b, r, .bodyStar h, hn⟩
    · rintro ⟨b, r, h, hn⟩
      cases h with
      | restStar h => exact .inl ⟨b, r, h, hn⟩
      | handlersStar h => exact .inr (.inl ⟨b, r, h, hn⟩)
      | bodyStar h => exact .inr (.inr ⟨b, r, h, hn⟩)
theorem mem_regionsF : ∀ (f : Forest) (s : Sub),
    s ∈ regionsF f ↔ ∃ b r, InF (.try_ s.line b s.hs r) f ∧ s.hs ≠ .nil
  | .nil, s => by
    simp only [regionsF, List.not_mem_nil, false_iff]
    rintro ⟨b, r, h, _⟩; cases h
  | .cons t f, s => by
    rw [regionsF, List.mem_append, mem_regions t s, mem_regionsF f s]
    constructor
    · rintro (⟨b, r, h, hn⟩ | ⟨b, r, h, hn⟩)
      · exact ⟨b, r, .tail h, hn⟩
      · exact ⟨b, r, .head h, hn⟩
    · rintro ⟨b, r, h, hn⟩
      cases h with
      | tail h => exact .inl ⟨b, r, h, hn⟩
      | head h => exact .inr ⟨b, r, h, hn⟩
theorem mem_regionsH : ∀ (hs : Handlers) (s : Sub),
    s ∈ regionsH hs ↔ ∃ b r, InH (.try_ s.line b s.hs r) hs ∧ s.hs ≠ .nil
  | .nil, s => by
    simp only [regionsH, List.not_mem_nil, false_iff]
    rintro ⟨b, r, h, _⟩; cases h
  | .cons l e kids hs, s => by
    rw [regionsH, List.mem_append, mem_regionsF kids s, mem_regionsH hs s]
    constructor
    · rintro (⟨b, r, h, hn⟩ | ⟨b, r, h, hn⟩)
      · exact ⟨b, r, .tail h, hn⟩
      · exact ⟨b, r, .head h, hn⟩
    · rintro ⟨b, r, h, hn⟩
      cases h with
      | tail h => exact .inl ⟨b, r, h, hn⟩
      | head h => exact .inr ⟨b, r, h, hn⟩
end

theorem infoOf_describes (s : Sub) : Describes (infoOf s) s.line s.hs :=
  ⟨rfl, rfl, rfl, fun r => mem_bareH s.hs r⟩

/-! ### The property -/

/-- What is collected from a source file without `except*` is exactly one description for each `try` statement
that has handlers, at any depth of nesting. -/
theorem c25_regions {f : Forest} (h : NoStar f) :
    ∃ infos, collectSource f = some infos ∧
      (∀ i ∈ infos, ∃ l b hs r, InF (.try_ l b hs r) f ∧ hs ≠ .nil ∧ Describes i l hs) ∧
      (∀ l b hs r, InF (.try_ l b hs r) f → hs ≠ .nil → ∃ i ∈ infos, Describes i l hs) := by
  refine ⟨(regionsF f).map infoOf, ?_, ?_, ?_⟩
  · simp [collectSource, visitForest_ok f {} (starlessF_of f h)]
  · intro i hi
    rw [List.mem_map] at hi
    obtain ⟨s, hs, rfl⟩ := hi
    obtain ⟨b, r, h1, h2⟩ := (mem_regionsF f s).1 hs
    exact ⟨s.line, b, s.hs, r, h1, h2, infoOf_describes s⟩
  · intro l b hs r h1 h2
    exact ⟨infoOf ⟨l, hs⟩, List.mem_map.2 ⟨⟨l, hs⟩, (mem_regionsF f _).2 ⟨b, r, h1, h2⟩, rfl⟩, infoOf_describes _⟩

/-- The decision, for any regions: the function returns at `fl`, the last exception was raised at `lr`, exceptions
were raised at `rl`. -/
theorem c25_decision (infos : List Info) (fl lr : Nat) (rl : List Nat) :
    isUnhandled infos fl lr rl = true ↔
      fl ∈ rl ∨ (∀ i ∈ infos, i.inTry lr = false) ∨
      (∃ i ∈ infos, i.inExcept fl = true ∧ (i.exceptLine = some fl ∨ fl ∈ i.raises)) := by
  unfold isUnhandled
  by_cases h1 : fl ∈ rl
  · simp [h1]
  · rw [if_neg (by simpa using h1)]
    simp only [h1, false_or]
    cases infos with
    | nil => simp
    | cons a as =>
      rw [if_neg (by simp)]
      by_cases h2 : ∀ i ∈ a :: as, i.inTry lr = false
      · rw [if_pos (by rw [List.isEmpty_iff, List.filter_eq_nil_iff]; intro i hi; simp [h2 i hi])]
        exact ⟨fun _ => .inl h2, fun _ => rfl⟩
      · rw [if_neg (by rw [List.isEmpty_iff, List.filter_eq_nil_iff]; intro hc; exact h2 fun i hi => by simpa using hc i hi)]
        rw [List.any_eq_true]
        constructor
        · rintro ⟨i, hi, hx⟩
          simp only [Bool.and_eq_true, Bool.or_eq_true, decide_eq_true_eq, List.contains_iff_mem] at hx
          exact .inr ⟨i, hi, hx⟩
        · rintro (h | ⟨i, hi, hx⟩)
          · exact absurd h h2
          · exact ⟨i, hi, by simpa using hx⟩

/-- In terms of the source: returning at line `fl` after an exception raised at `lr`, the exception counts as
unhandled by the function exactly when an exception was raised at the very line the function returns from; or no
`try` statement of the function with handlers has `lr` between its `try` and its first `except`; or the function
returns from within the handlers of some `try` statement, at their first `except` or at a bare `raise`. -/
theorem c25_source {f : Forest} (h : NoStar f) (lines : List Nat) (fb : List Info) (fl lr : Nat) (rl : List Nat) :
    isUnhandled (collect f lines fb) fl lr rl = true ↔
      fl ∈ rl ∨
      (∀ l b hs r, InF (.try_ l b hs r) f → (∃ x ∈ lines, x ≤ l) → (∃ x ∈ lines, l ≤ x) →
        ∀ e, hs.lines.head? = some e → ¬(l ≤ lr ∧ lr < e)) ∨
      (∃ l b hs r e z, InF (.try_ l b hs r) f ∧ (∃ x ∈ lines, x ≤ l) ∧ (∃ x ∈ lines, l ≤ x) ∧
        hs.lines.head? = some e ∧ hs.ends.getLast? = some z ∧ e ≤ fl ∧ fl ≤ z ∧
        (fl = e ∨ ∃ k, InH (.raise_ fl true k) hs)) := by
  obtain ⟨infos, hc, hin, hout⟩ := c25_regions h
  have hmem : ∀ i, i ∈ collect f lines fb ↔ i ∈ infos ∧ (∃ x ∈ lines, x ≤ i.tryLine) ∧ (∃ x ∈ lines, i.tryLine ≤ x) := by
    intro i; unfold collect; rw [hc]; simp
  have hne : ∀ hs : Handlers, hs ≠ .nil → ∃ e, hs.lines.head? = some e := by
    intro hs hn; cases hs with
    | nil => exact absurd rfl hn
    | cons a b c d => exact ⟨a, rfl⟩
  rw [c25_decision]
  refine or_congr_right (or_congr ?_ ?_)
  · constructor
    · intro hall l b hs r hi hx hy e he
      have hn : hs ≠ .nil := by rintro rfl; cases he
      obtain ⟨i, hi1, hi2⟩ := hout l b hs r hi hn
      have := hall i ((hmem i).2 ⟨hi1, by rw [hi2.tryLine]; exact hx, by rw [hi2.tryLine]; exact hy⟩)
      simp only [Info.inTry, hi2.tryLine, hi2.exceptLine, he, Bool.and_eq_false_iff, decide_eq_false_iff_not] at this
      omega
    · intro hall i hi
      obtain ⟨hi1, hx, hy⟩ := (hmem i).1 hi
      obtain ⟨l, b, hs, r, h1, hn, hd⟩ := hin i hi1
      rw [hd.tryLine] at hx hy
      obtain ⟨e, he⟩ := hne hs hn
      have := hall l b hs r h1 hx hy e he
      simp only [Info.inTry, hd.tryLine, hd.exceptLine, he, Bool.and_eq_false_iff, decide_eq_false_iff_not]
      omega
  · constructor
    · rintro ⟨i, hi, hx, hr⟩
      obtain ⟨hi1, hx1, hx2⟩ := (hmem i).1 hi
      obtain ⟨l, b, hs, r, h1, hn, hd⟩ := hin i hi1
      rw [hd.tryLine] at hx1 hx2
      obtain ⟨e, he⟩ := hne hs hn
      simp only [Info.inExcept, hd.exceptLine, he, hd.exceptEnd, Bool.and_eq_true, decide_eq_true_eq] at hx
      cases hz : hs.ends.getLast? with
      | none => rw [hz] at hx; simp at hx
      | some z =>
        rw [hz] at hx
        simp only [decide_eq_true_eq] at hx
        refine ⟨l, b, hs, r, e, z, h1, hx1, hx2, he, hz, hx.1, hx.2, ?_⟩
        rcases hr with hr | hr
        · rw [hd.exceptLine, he] at hr
          exact .inl (Option.some.inj hr).symm
        · exact .inr ((hd.raises fl).1 hr)
    · rintro ⟨l, b, hs, r, e, z, hi, hx, hy, he, hz, h1, h2, h3⟩
      have hn : hs ≠ .nil := by rintro rfl; cases he
      obtain ⟨i, hi1, hd⟩ := hout l b hs r hi hn
      refine ⟨i, (hmem i).2 ⟨hi1, by rw [hd.tryLine]; exact hx, by rw [hd.tryLine]; exact hy⟩, ?_, ?_⟩
      · simp [Info.inExcept, hd.exceptLine, he, hd.exceptEnd, hz, h1, h2]
      · rcases h3 with h3 | h3
        · left; rw [hd.exceptLine, he, h3]
        · right; exact (hd.raises fl).2 h3

/-! ### The top-level tracer over a whole execution of the function -/

def traceAll (infos : List Info) (sus : Bool) : Tracer → List Ev → Tracer × List Nat
  | t, [] => (t, [])
  | t, e :: es =>
    let (t', r) := trace infos sus t e
    let (t'', rs) := traceAll infos sus t' es
    (t'', r.toList ++ rs)

/-- the lines at which exceptions were seen, latest first -/
def raised : List Ev → List (Nat × Nat)
  | [] => []
  | .exception l e :: es => raised es ++ [(l, e)]
  | _ :: es => raised es

theorem traceAll_no_return {infos : List Info} {sus : Bool} (es : List Ev) (h : ∀ l, Ev.return_ l ∉ es) (t : Tracer) :
    (traceAll infos sus t es).2 = [] ∧
    (traceAll infos sus t es).1 =
      { raiseLines := (raised es).map (·.1) ++ t.raiseLines,
        lastRaise := ((raised es).head?.map (·.1)).or t.lastRaise,
        lastExc := ((raised es).head?.map (·.2)).or t.lastExc } := by
  induction es generalizing t with
  | nil => simp [traceAll, raised]
  | cons e es ih =>
    have h' : ∀ l, Ev.return_ l ∉ es := fun l hl => h l (by simp [hl])
    cases e with
    | exception l x =>
      obtain ⟨h1, h2⟩ := ih h' (trace infos sus t (.exception l x)).1
      constructor
      · simp only [traceAll]; rw [h1]; simp [trace]
      · simp only [traceAll]; rw [h2]
        simp only [trace, raised, List.map_append, List.map_cons, List.map_nil, List.append_assoc, List.cons_append, List.nil_append]
        cases hr : raised es <;> simp
    | return_ l => exact absurd (by simp) (h l)
    | other =>
      obtain ⟨h1, h2⟩ := ih h' t
      constructor
      · simp only [traceAll, trace]; rw [h1]; simp
      · simp only [traceAll, trace]; rw [h2]; simp [raised]

/-- One execution of a top-level function: at its return, a stop for an unhandled exception happens exactly when
an exception was seen, the thread did not already stop for one, and the last one is unhandled by `c25_decision`. -/
theorem c25_top_level (infos : List Info) (sus : Bool) (es : List Ev) (fl : Nat) (h : ∀ l, Ev.return_ l ∉ es) :
    (traceAll infos sus {} (es ++ [.return_ fl])).2 =
      match raised es with
      | [] => []
      | (lr, e) :: _ => if !sus && isUnhandled infos fl lr ((raised es).map (·.1)) then [e] else [] := by
  have happ : ∀ (es : List Ev) t x, traceAll infos sus t (es ++ [x]) =
      ((trace infos sus (traceAll infos sus t es).1 x).1,
       (traceAll infos sus t es).2 ++ (trace infos sus (traceAll infos sus t es).1 x).2.toList) := by
    intro es
    induction es with
    | nil => intro t x; simp [traceAll]
    | cons e es ih => intro t x; simp only [List.cons_append, traceAll]; rw [ih]; simp [List.append_assoc]
  obtain ⟨h1, h2⟩ := traceAll_no_return (infos := infos) (sus := sus) es h {}
  rw [happ, h1, h2]
  cases hr : raised es with
  | nil => simp [trace]
  | cons p ps =>
    obtain ⟨lr, e⟩ := p
    simp only [trace, List.head?_cons, Option.map_some, Option.some_or, List.nil_append, List.append_nil]
    cases hq : (!sus && isUnhandled infos fl lr (((lr, e) :: ps).map (·.1))) <;> simp

/-- An exception that leaves a top-level function (the function returns from the line where it was last raised) is
always reported. -/
theorem c25_leaving_reported (infos : List Info) (es : List Ev) (fl e : Nat) (rest : List (Nat × Nat))
    (h : ∀ l, Ev.return_ l ∉ es) (hr : raised es = (fl, e) :: rest) :
    (traceAll infos false {} (es ++ [.return_ fl])).2 = [e] := by
  rw [c25_top_level _ _ _ _ h, hr]
  have : isUnhandled infos fl fl (((fl, e) :: rest).map (·.1)) = true := by
    rw [c25_decision]; simp
  simp only [this]
  rfl

/-! ### Witnesses -/

def leaf (l : Nat) : Tree := .plain l .nil

/-- try (1): 2; except (3): 4; bare raise (5). A sibling statement at 7. -/
def sampleModule : Forest :=
  .cons (.try_ 1 (.cons (leaf 2) .nil) (.cons 3 5 (.cons (leaf 4) (.cons (.raise_ 5 true .nil) .nil)) .nil) .nil)
    (.cons (leaf 7) .nil)

example : NoStar sampleModule := by
  intro l b h r hi
  cases hi with
  | head hi =>
    cases hi with
    | body hi => cases hi with
      | head hi => cases hi with | plain hi => cases hi
      | tail hi => cases hi
    | handlers hi => cases hi with
      | head hi => cases hi with
        | head hi => cases hi with | plain hi => cases hi
        | tail hi => cases hi with
          | head hi => cases hi with | raise_ hi => cases hi
          | tail hi => cases hi
      | tail hi => cases hi
    | rest hi => cases hi
  | tail hi => cases hi with
    | head hi => cases hi with | plain hi => cases hi
    | tail hi => cases hi

example : collectSource sampleModule = some [{ tryLine := 1, exceptLine := some 3, exceptEnd := some 5, raises := [5] }] := by
  simp [sampleModule, collectSource, visitForest, visit, visitHandlers, enterHandler, leaveHandler, leaveTry, leaf, addRaise]
/-- handled: raised at 2, returned from 7 -/
example : isUnhandled [{ tryLine := 1, exceptLine := some 3, exceptEnd := some 5, raises := [5] }] 7 2 [2] = false := by decide
/-- re-raised at 5 -/
example : isUnhandled [{ tryLine := 1, exceptLine := some 3, exceptEnd := some 5, raises := [5] }] 5 2 [2] = true := by decide

/-- A handled exception is reported as unhandled when the function later returns normally from the line that had
raised it (a retry loop around `return f()`). -/
theorem c25_retry_misreported :
    (traceAll [{ tryLine := 1, exceptLine := some 3, exceptEnd := some 4 }] false {}
      [.exception 2 77, .other, .other, .return_ 2]).2 = [77] := by decide

/-- `except*` outside a `try` makes the collection from source fail (the bytecode is used instead) ... -/
theorem c25_except_star_fails :
    collectSource (.cons (.tryStar 1 (.cons (leaf 2) .nil) (.cons 3 4 .nil .nil) .nil) .nil) = none := by
  simp [collectSource, visitForest, visit, visitHandlers, enterHandler, leaf]

/-- ... and inside the body of another `try` its handlers are taken for handlers of that one: here the outer
statement, with a handler at 9, is recorded as having its handlers from line 4 on, so the statements 5 to 8 of its
body are taken to be outside the `try`. -/
theorem c25_except_star_misattributed :
    (collectSource (.cons (.try_ 1 (.cons (.tryStar 2 (.cons (leaf 3) .nil) (.cons 4 5 .nil .nil) .nil) (.cons (leaf 7) .nil))
      (.cons 9 10 .nil .nil) .nil) .nil)) = some [{ tryLine := 1, exceptLine := some 4, exceptEnd := some 10 }] ∧
    ({ tryLine := 1, exceptLine := some 4, exceptEnd := some 10 } : Info).inTry 7 = false := by
  constructor
  · simp [collectSource, visitForest, visit, visitHandlers, enterHandler, leaveHandler, leaveTry, leaf]
  · decide

end TryExcept
