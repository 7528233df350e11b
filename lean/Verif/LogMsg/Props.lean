import Verif.LogMsg.Spec
/-!
C36 (log messages).
-/

namespace LogMsg
open Spec

theorem level_open (l : Int) : levelAfter '{' l = l + 1 := by simp [levelAfter]
theorem level_close (l : Int) : levelAfter '}' l = l - 1 := by simp [levelAfter]
theorem level_char {c : Char} (h1 : c ≠ '{') (h2 : c ≠ '}') (l : Int) : levelAfter c l = l := by simp [levelAfter, h1, h2]

theorem nested_balanced {e : Str} (h : Balanced e) : ∀ (r acc : Str) (l : Int), 0 ≤ l → nested (e ++ r) acc l = nested r (acc ++ e) l := by
  induction h with
  | nil => intro r acc l _; simp
  | @char c s h1 h2 _ ih =>
    intro r acc l hl
    rw [List.cons_append, nested, level_char h1 h2, if_neg (by omega), ih r _ l hl]
    simp
  | @braces s t _ _ ih1 ih2 =>
    intro r acc l hl
    have e1 : '{' :: s ++ '}' :: t ++ r = '{' :: (s ++ ('}' :: (t ++ r))) := by simp
    rw [e1, nested, level_open, if_neg (by omega), ih1 _ _ (l + 1) (by omega), nested, level_close]
    rw [if_neg (by omega), show l + 1 - 1 = l by omega, ih2 r _ l hl]
    simp

theorem nested_close {e : Str} (h : Balanced e) (r : Str) : nested (e ++ '}' :: r) [] 0 = some (strip e, r) := by
  rw [nested_balanced h _ _ 0 (by omega), nested, level_close]
  simp

theorem dropWhile_nil_iff (s : Str) : s.dropWhile isSpace = [] ↔ Blank s := by
  induction s with
  | nil => simp [Blank]
  | cons c s ih =>
    rw [List.dropWhile_cons]
    split
    · rename_i h; rw [ih]; simp [Blank, h]
    · rename_i h; simp [Blank, h]

theorem strip_nil_iff (s : Str) : strip s = [] ↔ Blank s := by
  unfold strip
  rw [List.reverse_eq_nil_iff, dropWhile_nil_iff]
  constructor
  · intro h
    by_cases h2 : Blank s
    · exact h2
    · exfalso
      have h3 : s.dropWhile isSpace ≠ [] := fun e => h2 ((dropWhile_nil_iff s).1 e)
      obtain ⟨c, t, hc⟩ := List.exists_cons_of_ne_nil h3
      have h4 : isSpace c = true := h c (by rw [hc]; simp)
      have h5 : ∀ {l : Str} {c t}, l.dropWhile isSpace = c :: t → isSpace c = false := by
        intro l
        induction l with
        | nil => intro c t h; simp at h
        | cons x l ih =>
          intro c t h
          rw [List.dropWhile_cons] at h
          split at h
          · exact ih h
          · rename_i hx; cases h; simpa using hx
      rw [h5 hc] at h4; cases h4
  · intro h
    rw [(dropWhile_nil_iff s).2 h]
    simp [Blank]

/-- the format of a list of pieces -/
def fmtOf : List Piece → Str
  | [] => []
  | .text c :: ps => c :: fmtOf ps
  | .expr e :: ps => if strip e ≠ [] then c!"%s" ++ fmtOf ps else fmtOf ps

def exprsOf : List Piece → List Str
  | [] => []
  | .text _ :: ps => exprsOf ps
  | .expr e :: ps => if strip e ≠ [] then strip e :: exprsOf ps else exprsOf ps

theorem extract_source (ps : List Piece) (h : ∀ p ∈ ps, p.Ok) : extract (source ps) = some (fmtOf ps, exprsOf ps) := by
  induction ps with
  | nil => rw [source, List.flatMap_nil, extract]; rfl
  | cons p ps ih =>
    have ih := ih fun q hq => h q (by simp [hq])
    have hp := h p (by simp)
    cases p with
    | text c =>
      show extract (c :: source ps) = _
      have hc : c ≠ '{' := hp
      rw [extract, if_neg hc, ih]
      rfl
    | expr e =>
      have e1 : source (.expr e :: ps) = '{' :: (e ++ '}' :: source ps) := by simp [source, Piece.source]
      rw [e1, extract, if_pos rfl]
      split
      · rename_i hn; rw [nested_close hp] at hn; cases hn
      · rename_i e' r' hn
        rw [nested_close hp] at hn
        cases hn
        rw [ih]
        simp only [fmtOf, exprsOf]
        split <;> rfl

/-- text that closes `n` braces more than it opens, never more at any point -/
inductive Closing : Nat → Str → Prop
  | zero {s} : Balanced s → Closing 0 s
  | succ {n s t} : Balanced s → Closing n t → Closing (n + 1) (s ++ '}' :: t)

theorem closing_char {c : Char} {n : Nat} {s : Str} (h1 : c ≠ '{') (h2 : c ≠ '}') (h : Closing n s) : Closing n (c :: s) := by
  cases h with
  | zero h => exact .zero (.char h1 h2 h)
  | succ h h' => exact .succ (s := c :: _) (.char h1 h2 h) h'

theorem closing_open {n : Nat} {s : Str} (h : Closing (n + 1) s) : Closing n ('{' :: s) := by
  cases h with
  | succ h h' =>
    cases h' with
    | zero h' => exact .zero (.braces h h')
    | @succ n s1 t1 h'' h3 =>
      rename_i s0
      have : '{' :: (s0 ++ '}' :: (s1 ++ '}' :: t1)) = ('{' :: s0 ++ '}' :: s1) ++ '}' :: t1 := by simp
      rw [this]
      exact .succ (.braces h h'') h3

theorem nested_closing {s : Str} : ∀ {acc e r : Str} {l : Nat}, nested s acc l = some (e, r) →
    ∃ t, s = t ++ '}' :: r ∧ Closing l t := by
  induction s with
  | nil => intro acc e r l h; simp [nested] at h
  | cons c s ih =>
    intro acc e r l h
    rw [nested] at h
    by_cases h1 : c = '{'
    · subst h1
      rw [level_open, if_neg (by omega)] at h
      obtain ⟨t, rfl, ht⟩ := ih (l := l + 1) h
      exact ⟨'{' :: t, by simp, closing_open ht⟩
    · by_cases h2 : c = '}'
      · subst h2
        rw [level_close] at h
        by_cases hl : l = 0
        · subst hl
          simp at h
          exact ⟨[], by simp [h.2], .zero .nil⟩
        · rw [if_neg (by omega)] at h
          obtain ⟨t, rfl, ht⟩ := ih (l := l - 1) (by rw [← h]; congr 1; omega)
          refine ⟨'}' :: t, by simp, ?_⟩
          have := Closing.succ (s := []) .nil ht
          rwa [show l - 1 + 1 = l by omega] at this
      · rw [level_char h1 h2, if_neg (by omega)] at h
        obtain ⟨t, rfl, ht⟩ := ih h
        exact ⟨c :: t, by simp, closing_char h1 h2 ht⟩

theorem extract_pieces (n : Nat) : ∀ (s : Str), s.length ≤ n → (extract s).isSome → ∃ ps, (∀ p ∈ ps, p.Ok) ∧ source ps = s := by
  induction n with
  | zero => intro s hs _; exact ⟨[], by simp, by cases s <;> simp_all [source]⟩
  | succ n ih =>
    intro s hs h
    cases s with
    | nil => exact ⟨[], by simp, rfl⟩
    | cons c r =>
      rw [extract] at h
      split at h
      · rename_i hc
        subst hc
        split at h
        · simp at h
        · rename_i e r' hn
          obtain ⟨t, rfl, ht⟩ := nested_closing (l := 0) hn
          have hb : Balanced t := by cases ht; assumption
          obtain ⟨ps, hps, rfl⟩ := ih r' (by simp at hs; omega) (by cases he : extract r' <;> simp_all)
          refine ⟨.expr t :: ps, ?_, by simp [source, Piece.source]⟩
          intro p hp
          rcases List.mem_cons.1 hp with rfl | hp
          · exact hb
          · exact hps p hp
      · rename_i hc
        obtain ⟨ps, hps, rfl⟩ := ih r (by simpa using hs) (by cases he : extract r <;> simp_all)
        refine ⟨.text c :: ps, ?_, by simp [source, Piece.source]⟩
        intro p hp
        rcases List.mem_cons.1 hp with rfl | hp
        · exact hc
        · exact hps p hp

/-- the message has an expression that is not blank -/
def HasExpr (ps : List Piece) : Prop := ∃ e, Piece.expr e ∈ ps ∧ ¬ Blank e

theorem exprsOf_nil_iff (ps : List Piece) : exprsOf ps = [] ↔ ¬ HasExpr ps := by
  induction ps with
  | nil => simp [exprsOf, HasExpr]
  | cons p ps ih =>
    cases p with
    | text c => simp only [exprsOf, ih, HasExpr, List.mem_cons, reduceCtorEq, false_or]
    | expr e =>
      simp only [exprsOf]
      by_cases hb : Blank e
      · rw [if_neg (by simp [(strip_nil_iff e).2 hb]), ih]
        simp only [HasExpr, List.mem_cons, Piece.expr.injEq, not_exists, not_and, Classical.not_not]
        constructor
        · rintro h x (rfl | hx)
          · exact hb
          · exact h x hx
        · intro h x hx; exact h x (Or.inr hx)
      · rw [if_pos (by simpa [strip_nil_iff] using hb)]
        simp only [reduceCtorEq, false_iff, Classical.not_not]
        exact ⟨e, by simp, hb⟩

theorem format_char {c : Char} (h : c ≠ '%') (f : Str) (args : List Str) : format (c :: f) args = (format f args).map (c :: ·) := by
  rw [format]
  · rw [if_neg h]
  all_goals intros; contradiction

theorem format_pieces (v : Str → Str) (ps : List Piece) (hp : ∀ c, Piece.text c ∈ ps → c ≠ '%') :
    format (fmtOf ps) ((exprsOf ps).map v) = some (expected v ps) := by
  induction ps with
  | nil => rfl
  | cons p ps ih =>
    have ih := ih fun c hc => hp c (by simp [hc])
    cases p with
    | text c =>
      have hc := hp c (by simp)
      show format (c :: fmtOf ps) ((exprsOf ps).map v) = some (c :: expected v ps)
      rw [format_char hc, ih]; rfl
    | expr e =>
      by_cases hb : Blank e
      · have h0 := (strip_nil_iff e).2 hb
        simp only [fmtOf, exprsOf, h0, ne_eq, not_true_eq_false, if_false]
        rw [ih]
        simp [expected, hb]
      · have h0 : strip e ≠ [] := fun h => hb ((strip_nil_iff e).1 h)
        simp only [fmtOf, exprsOf, h0, ne_eq, not_false_eq_true, if_true, List.map_cons]
        show format ('%' :: 's' :: fmtOf ps) (v (strip e) :: _) = _
        rw [format, ih]
        simp [expected, hb]

/-- The value of a log message is its text with every expression replaced by its value, provided that the literal
text has no `%` and that each expression stands for one value. -/
theorem c36_value (py : Python) (value : Str → Str) (ps : List Piece) (hok : ∀ p ∈ ps, p.Ok) (hperc : ∀ c, Piece.text c ∈ ps → c ≠ '%')
    (hval : ∀ e, Piece.expr e ∈ ps → ¬ Blank e → py.Expr (strip e) ∧ py.values (strip e) = [value (strip e)]) :
    py.eval (convert py.repr (source ps)) = some (expected value ps) := by
  have hE : ∀ e ∈ exprsOf ps, py.Expr e ∧ py.values e = [value e] := by
    clear hok hperc
    induction ps with
    | nil => intro e he; cases he
    | cons p ps ih =>
      have ih := ih fun e he => hval e (by simp [he])
      cases p with
      | text c => exact ih
      | expr x =>
        intro e he
        simp only [exprsOf] at he
        split at he
        · rename_i h0
          rcases List.mem_cons.1 he with rfl | he
          · exact hval x (by simp) fun hb => h0 ((strip_nil_iff x).2 hb)
          · exact ih e he
        · exact ih e he
  have hfm : (exprsOf ps).flatMap py.values = (exprsOf ps).map value := by
    revert hE
    generalize exprsOf ps = es
    intro hE
    induction es with
    | nil => rfl
    | cons e es ih =>
      rw [List.flatMap_cons, (hE e (by simp)).2, ih fun x hx => hE x (by simp [hx])]
      rfl
  unfold convert
  rw [extract_source ps hok]
  simp only
  by_cases hes : exprsOf ps = []
  · rw [if_pos hes, py.eval_repr]
    have := format_pieces value ps hperc
    rw [hes] at this
    -- without expressions formatting changes nothing
    have hid : ∀ (f : Str), '%' ∉ f → format f [] = some f := by
      intro f
      induction f with
      | nil => intro _; rfl
      | cons c f ih =>
        intro h
        simp only [List.mem_cons, not_or] at h
        rw [format_char (Ne.symm h.1), ih h.2]; rfl
    have hno : '%' ∉ fmtOf ps := by
      clear this hfm hE hval hok
      induction ps with
      | nil => simp [fmtOf]
      | cons p ps ih =>
        cases p with
        | text c =>
          simp only [fmtOf, List.mem_cons, not_or]
          exact ⟨(hperc c (by simp)).symm, ih (fun c hc => hperc c (by simp [hc])) hes⟩
        | expr e =>
          simp only [exprsOf] at hes
          split at hes
          · cases hes
          · rename_i h0
            simp only [fmtOf, h0, if_false]
            exact ih (fun c hc => hperc c (by simp [hc])) hes
    rw [List.map_nil, hid _ hno] at this
    exact this
  · rw [if_neg hes, py.eval_format _ _ hes fun e he => (hE e he).1, hfm]
    exact format_pieces value ps hperc

/-- Without expressions the value is the text, whatever characters it has (blank braces removed). -/
theorem c36_literal (py : Python) (ps : List Piece) (hok : ∀ p ∈ ps, p.Ok) (hno : ¬ HasExpr ps) (value : Str → Str) :
    py.eval (convert py.repr (source ps)) = some (expected value ps) := by
  unfold convert
  rw [extract_source ps hok]
  simp only
  rw [if_pos ((exprsOf_nil_iff ps).2 hno), py.eval_repr]
  congr 1
  clear hok
  induction ps with
  | nil => rfl
  | cons p ps ih =>
    have ih := ih fun ⟨e, he, hb⟩ => hno ⟨e, by simp [he], hb⟩
    cases p with
    | text c =>
      show c :: fmtOf ps = c :: expected value ps
      rw [ih]
    | expr e =>
      have hb : Blank e := Classical.byContradiction fun hb => hno ⟨e, by simp, hb⟩
      simp only [fmtOf, (strip_nil_iff e).2 hb, ne_eq, not_true_eq_false, if_false]
      rw [ih]
      simp [expected, hb]

/-- A message that is not made of text and balanced expressions gives the text of the error, and only such a message
does. -/
theorem c36_unbalanced (s : Str) :
    (extract s = none ↔ ¬ ∃ ps, (∀ p ∈ ps, p.Ok) ∧ source ps = s) ∧
    (∀ py : Python, extract s = none → py.eval (convert py.repr s) = some (c!"Unbalanced braces in: " ++ s)) := by
  refine ⟨⟨?_, ?_⟩, ?_⟩
  · rintro h ⟨ps, hps, rfl⟩
    rw [extract_source ps hps] at h
    cases h
  · intro h
    cases he : extract s with
    | none => rfl
    | some x => exact absurd (extract_pieces s.length s (Nat.le_refl _) (by simp [he])) h
  · intro py h
    unfold convert
    rw [h]
    exact py.eval_repr _

/-! ### Witnesses outside the hypotheses -/

theorem balanced_plain {s : Str} (h : ∀ c ∈ s, c ≠ '{' ∧ c ≠ '}') : Balanced s := by
  induction s with
  | nil => exact .nil
  | cons c s ih => exact .char (h c (by simp)).1 (h c (by simp)).2 (ih fun x hx => h x (by simp [hx]))

def x : Piece := .expr ['x']

theorem ok_x : x.Ok := balanced_plain (by decide)
theorem not_blank_x : ¬ Blank ['x'] := by unfold Blank; decide
theorem strip_x : strip ['x'] = ['x'] := by decide

/-- A percent sign after an expression makes the evaluation fail: `{x}%`. -/
theorem c36_percent_fails (py : Python) (v : Str) (h : py.Expr ['x'] ∧ py.values ['x'] = [v]) :
    py.eval (convert py.repr c!"{x}%") = none := by
  have e := extract_source [x, .text '%'] (by intro p hp; simp at hp; rcases hp with rfl | rfl; exact ok_x; exact (by decide : '%' ≠ '{'))
  have hs : source [x, .text '%'] = c!"{x}%" := rfl
  rw [hs] at e
  unfold convert
  rw [e]
  have hes : exprsOf [x, .text '%'] = [['x']] := by decide
  have hf : fmtOf [x, .text '%'] = c!"%s%" := by simp [fmtOf, x, strip_x]
  simp only [hes, hf]
  rw [if_neg (by simp), py.eval_format _ _ (by simp) (by simpa using h.1)]
  simp only [List.flatMap_cons, List.flatMap_nil, h.2, List.append_nil]
  rfl

/-- Two percent signs become one when there is an expression: `{x}%%` shows one. -/
theorem c36_percent_lost (py : Python) (v : Str) (h : py.Expr ['x'] ∧ py.values ['x'] = [v]) :
    py.eval (convert py.repr c!"{x}%%") = some (v ++ ['%']) := by
  have e := extract_source [x, .text '%', .text '%'] (by
    intro p hp; simp at hp; rcases hp with rfl | rfl; exact ok_x; exact (by decide : '%' ≠ '{'))
  have hs : source [x, .text '%', .text '%'] = c!"{x}%%" := rfl
  rw [hs] at e
  unfold convert
  rw [e]
  have hes : exprsOf [x, .text '%', .text '%'] = [['x']] := by decide
  have hf : fmtOf [x, .text '%', .text '%'] = c!"%s%%" := by simp [fmtOf, x, strip_x]
  simp only [hes, hf]
  rw [if_neg (by simp), py.eval_format _ _ (by simp) (by simpa using h.1)]
  simp only [List.flatMap_cons, List.flatMap_nil, h.2, List.append_nil]
  rfl

/-- An expression that stands for several values (`{a, b}`) makes the evaluation fail. -/
theorem c36_tuple_fails (py : Python) (v w : Str) (h : py.Expr c!"a, b" ∧ py.values c!"a, b" = [v, w]) :
    py.eval (convert py.repr c!"{a, b}") = none := by
  have e := extract_source [.expr c!"a, b"] (by intro p hp; simp at hp; rcases hp with rfl; exact balanced_plain (by decide))
  have hs : source [.expr c!"a, b"] = c!"{a, b}" := rfl
  rw [hs] at e
  have hst : strip c!"a, b" = c!"a, b" := by decide
  unfold convert
  rw [e]
  have hes : exprsOf [.expr c!"a, b"] = [c!"a, b"] := by decide
  have hf : fmtOf [.expr c!"a, b"] = c!"%s" := by simp [fmtOf, hst]
  simp only [hes, hf]
  rw [if_neg (by simp), py.eval_format _ _ (by simp) (by simpa using h.1)]
  simp only [List.flatMap_cons, List.flatMap_nil, h.2, List.append_nil]
  rfl

/-! ### The assumptions about Python can be met

A small language: `repr` writes a backslash before every character, expressions are names, and the value of a name is
given by a function. -/

namespace Toy

def repr (s : Str) : Str := '"' :: s.flatMap (fun c => ['\\', c]) ++ ['"']

def readStr : Str → Option (Str × Str)
  | '"' :: r => some ([], r)
  | '\\' :: c :: r => (readStr r).map fun p => (c :: p.1, p.2)
  | _ => none

def items : Str → Str → List Str
  | [], _ => []
  | ',' :: ' ' :: r, acc => acc :: items r []
  | ',' :: _, acc => [acc]
  | c :: r, acc => items r (acc ++ [c])

def eval (value : Str → Str) (s : Str) : Option Str :=
  match s with
  | '"' :: r =>
    match readStr r with
    | some (f, []) => some f
    | some (f, r) => format f ((items (r.drop 4) []).map value)
    | none => none
  | _ => none

theorem readStr_repr (s r : Str) : readStr (s.flatMap (fun c => ['\\', c]) ++ '"' :: r) = some (s, r) := by
  induction s with
  | nil => rfl
  | cons c s ih => simp only [List.flatMap_cons, List.cons_append, List.nil_append, readStr, ih, Option.map_some]

theorem items_name (e : Str) (h : ',' ∉ e) : ∀ r acc, items (e ++ r) acc = items r (acc ++ e) := by
  induction e with
  | nil => intro r acc; simp
  | cons c e ih =>
    simp only [List.mem_cons, not_or] at h
    intro r acc
    rw [List.cons_append, items, ih h.2]
    · simp
    · intro _ hc; exact absurd hc.symm h.1
    · intro hc; exact absurd hc.symm h.1

theorem items_join (es : List Str) (hne : es ≠ []) (h : ∀ e ∈ es, ',' ∉ e) : items (join c!", " es ++ c!",)") [] = es := by
  induction es with
  | nil => exact absurd rfl hne
  | cons e es ih =>
    cases es with
    | nil => simp only [join]; rw [items_name e (h e (by simp))]; simp [items]
    | cons e' es =>
      simp only [join, List.append_assoc]
      rw [items_name e (h e (by simp))]
      simp only [List.cons_append, List.nil_append, items]
      rw [ih (by simp) fun x hx => h x (by simp [hx])]

def python (value : Str → Str) : Python where
  repr := repr
  eval := eval value
  Expr e := ',' ∉ e
  values e := [value e]
  eval_repr s := by
    show eval value ('"' :: (s.flatMap (fun c => ['\\', c]) ++ ['"'])) = _
    simp only [eval, readStr_repr]
  eval_format f es hne h := by
    have e1 : repr f ++ c!" % (" ++ join c!", " es ++ c!",)" =
        '"' :: (f.flatMap (fun c => ['\\', c]) ++ '"' :: (c!" % (" ++ (join c!", " es ++ c!",)"))) := by simp [repr]
    rw [e1]
    simp only [eval, readStr_repr]
    show format f ((items (join c!", " es ++ c!",)") []).map value) = _
    rw [items_join es hne h]
    congr 1
    clear e1 hne h
    induction es with
    | nil => rfl
    | cons e es ih => rw [List.flatMap_cons, ← ih]; rfl

end Toy

/-- e.g. `x is {x}, {d["{"]}`-like nesting: `v={ {k:{x}} }!` -/
example : (Toy.python fun e => '<' :: e ++ ['>']).eval (convert Toy.repr c!"v={ f{k{x}} }!") = some c!"v=<f{k{x}}>!" := by
  have hb : Balanced c!" f{k{x}} " := by
    have h1 : Balanced c!"k{x}" := .char (by decide) (by decide) (.braces (s := ['x']) (t := []) (balanced_plain (by decide)) .nil)
    exact .char (by decide) (by decide) (.char (by decide) (by decide) (.braces (s := c!"k{x}") (t := [' ']) h1 (balanced_plain (by decide))))
  have hnb : ¬ Blank c!" f{k{x}} " := by unfold Blank; decide
  have hst : strip c!" f{k{x}} " = c!"f{k{x}}" := by decide
  have := c36_value (Toy.python fun e => '<' :: e ++ ['>']) (fun e => '<' :: e ++ ['>'])
    [.text 'v', .text '=', .expr c!" f{k{x}} ", .text '!']
    (by
      intro p hp
      simp only [List.mem_cons, List.not_mem_nil, or_false] at hp
      rcases hp with rfl | rfl | rfl | rfl
      · exact (by decide : 'v' ≠ '{')
      · exact (by decide : '=' ≠ '{')
      · exact hb
      · exact (by decide : '!' ≠ '{'))
    (by intro c hc; simp at hc; rcases hc with rfl | rfl | rfl <;> decide)
    (by intro e he _; simp at he; subst he; rw [hst]; exact ⟨by show ',' ∉ c!"f{k{x}}"; decide, rfl⟩)
  have e1 : source [.text 'v', .text '=', .expr c!" f{k{x}} ", .text '!'] = c!"v={ f{k{x}} }!" := rfl
  rw [e1] at this
  rw [show (Toy.python fun e => '<' :: e ++ ['>']).repr = Toy.repr from rfl] at this
  rw [this]
  simp [expected, hnb, hst]

/-! ### Whitespace around expressions -/

/-- The code points Python takes for whitespace. -/
def whitespace : List Nat :=
  [9, 10, 11, 12, 13, 28, 29, 30, 31, 32, 0x85, 0xA0, 0x1680, 0x2000, 0x2001, 0x2002, 0x2003, 0x2004, 0x2005, 0x2006, 0x2007, 0x2008,
   0x2009, 0x200A, 0x2028, 0x2029, 0x202F, 0x205F, 0x3000]

theorem isSpace_iff (c : Char) : isSpace c = true ↔ c.toNat ∈ whitespace := by
  simp only [isSpace, whitespace, Bool.or_eq_true, Bool.and_eq_true, decide_eq_true_eq, beq_iff_eq, List.mem_cons, List.not_mem_nil,
    or_false]
  omega

theorem dropWhile_split (s : Str) : ∃ a, s = a ++ s.dropWhile isSpace ∧ (∀ c ∈ a, isSpace c = true) ∧
    ∀ c, (s.dropWhile isSpace).head? = some c → isSpace c = false := by
  induction s with
  | nil => exact ⟨[], rfl, by simp, by simp⟩
  | cons x s ih =>
    rw [List.dropWhile_cons]
    split
    · rename_i hx
      obtain ⟨a, h1, h2, h3⟩ := ih
      refine ⟨x :: a, ?_, ?_, h3⟩
      · exact congrArg (x :: ·) h1
      · intro c hc
        rcases List.mem_cons.1 hc with rfl | hc
        · exact hx
        · exact h2 c hc
    · rename_i hx
      refine ⟨[], rfl, by simp, ?_⟩
      intro c hc
      simp only [List.head?_cons, Option.some.injEq] at hc
      rw [← hc]; simpa using hx

/-- The expression evaluated is what is between the braces without the whitespace around it. -/
theorem c36_trimmed (e : Str) : ∃ a b, e = a ++ strip e ++ b ∧ (∀ c ∈ a, c.toNat ∈ whitespace) ∧ (∀ c ∈ b, c.toNat ∈ whitespace) ∧
    (∀ c, (strip e).head? = some c → c.toNat ∉ whitespace) ∧ (∀ c, (strip e).getLast? = some c → c.toNat ∉ whitespace) := by
  obtain ⟨a, ha, ha1, ha2⟩ := dropWhile_split e
  obtain ⟨b, hb, hb1, hb2⟩ := dropWhile_split (e.dropWhile isSpace).reverse
  have hs : e.dropWhile isSpace = strip e ++ b.reverse := by
    have := congrArg List.reverse hb
    rw [List.reverse_reverse, List.reverse_append] at this
    exact this
  refine ⟨a, b.reverse, ?_, ?_, ?_, ?_, ?_⟩
  · rw [List.append_assoc, ← hs]; exact ha
  · exact fun c hc => (isSpace_iff c).1 (ha1 c hc)
  · exact fun c hc => (isSpace_iff c).1 (hb1 c (by simpa using hc))
  · intro c hc hw
    have : (e.dropWhile isSpace).head? = some c := by rw [hs, List.head?_append, hc]; rfl
    have h := ha2 c this
    rw [← isSpace_iff, h] at hw
    cases hw
  · intro c hc hw
    have : ((e.dropWhile isSpace).reverse.dropWhile isSpace).head? = some c := by
      rw [← hc, strip, List.getLast?_reverse]
    have h := hb2 c this
    rw [← isSpace_iff, h] at hw
    cases hw

example : strip c!" a b\t" = c!"a b" := by decide

end LogMsg
