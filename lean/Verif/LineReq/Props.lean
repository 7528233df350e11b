import Verif.LineReq.Lemmas
/-!
C84: requests of the line protocol mean what the client wrote.

The specification below is the client's side: how a client writes a request on one line. Fields are joined
with tabs; in conditions and expressions a new line is written `@_@NEW_LINE_CHAR@_@` and a tab
`@_@TAB_CHAR@_@`; in an expression to evaluate a new line is written `@LINE@`; what is not given is `None`.
-/

namespace LineReq

/-! ### Specification -/

/-- A condition or expression on one line, without tabs. -/
def oneLine (s : Str) : Str :=
  s.flatMap (fun c => if c = '\n' then c!"@_@NEW_LINE_CHAR@_@" else if c = '\t' then c!"@_@TAB_CHAR@_@" else [c])

/-- An expression to evaluate, on one line. -/
def oneLineExpr (s : Str) : Str := s.flatMap (fun c => if c = '\n' then c!"@LINE@" else [c])

def optional : Option Str → Str
  | none => c!"None"
  | some s => oneLine s

def plainOptional : Option Str → Str
  | none => c!"None"
  | some s => s

def pyBool (b : Bool) : Str := if b then c!"True" else c!"False"

/-- Text in which the tags cannot be confused with what surrounds them. -/
def Safe (s : Str) : Prop :=
  ¬ c!"@_" <:+: s ∧ ¬ c!"_@" <:+: s ∧ ¬ c!"\tNEW_LINE_CHAR" <:+: s

def SafeOpt : Option Str → Prop
  | none => True
  | some s => Safe s

/-- Text that means something as a condition: trimmed, not empty, and not the word for "not given". -/
def Meaningful : Option Str → Prop
  | none => True
  | some s => Py.strip s = s ∧ s ≠ [] ∧ s ≠ c!"None"

/-- A field that is neither empty nor the word for "not given". -/
def Given : Option Str → Prop
  | none => True
  | some s => s ≠ [] ∧ s ≠ c!"None"

def tabs (ws : List Str) : Str := Py.join1 '\t' ws

def writeBreak (b : Break) : Str :=
  tabs [Py.intStr b.id, b.btype, b.filename, Py.intStr b.line, b.funcName, optional b.condition, optional b.expression,
    plainOptional b.hitCondition, pyBool b.isLogpoint, b.suspendPolicy]

/-- A breakpoint a client may ask for. -/
structure Sendable (b : Break) : Prop where
  btype : '\t' ∉ b.btype
  filename : '\t' ∉ b.filename
  func : '\t' ∉ b.funcName
  hit : ∀ h, b.hitCondition = some h → '\t' ∉ h
  hitGiven : Given b.hitCondition
  cond : SafeOpt b.condition ∧ Meaningful b.condition
  expr : SafeOpt b.expression ∧ Meaningful b.expression

/-! ### Helpers -/

theorem oneLine_eq (s : Str) : oneLine s = s.flatMap encC := rfl

theorem oneLineExpr_eq (s : Str) : oneLineExpr s = s.flatMap encL := rfl

theorem no_tab_optional (o : Option Str) : '\t' ∉ optional o := by
  cases o with
  | none => decide
  | some s => exact no_tab_enc s

theorem orNone_restore (o : Option Str) (h : SafeOpt o) (hm : Meaningful o) : orNone (restore (optional o)) = o := by
  cases o with
  | none =>
    have : restore (optional none) = c!"None" := by
      show restore ((c!"None").flatMap encC) = _
      rw [restore_enc _ ⟨by decide, by decide, by decide⟩]; decide
    rw [this]; rfl
  | some s =>
    obtain ⟨a, b, c⟩ := hm
    show orNone (restore (s.flatMap encC)) = _
    rw [restore_enc s ⟨h.1, h.2.1, h.2.2⟩, a, orNone, if_neg (by simp [b, c])]

theorem orNone_plain (o : Option Str) (h : Given o) : orNone (plainOptional o) = o := by
  cases o with
  | none => rfl
  | some s => rw [plainOptional, orNone, if_neg (by simp [h.1, h.2])]

theorem pyBool_true (b : Bool) : decide (pyBool b = c!"True") = b := by cases b <;> decide

theorem finish_ok (b : Break) (h : Sendable b) :
    finish (Py.intStr b.id) b.btype b.filename (Py.intStr b.line) b.funcName (optional b.condition)
      (optional b.expression) (some (plainOptional b.hitCondition)) b.isLogpoint b.suspendPolicy = some b := by
  rw [finish, Py.parseInt_intStr, Py.parseInt_intStr]
  simp only [orNone_restore _ h.cond.1 h.cond.2, orNone_restore _ h.expr.1 h.expr.2, Option.bind_some,
    orNone_plain _ h.hitGiven]

theorem no_tab_plain (b : Break) (h : Sendable b) : '\t' ∉ plainOptional b.hitCondition := by
  cases hh : b.hitCondition with
  | none => decide
  | some s => exact h.hit s hh

theorem no_tab_pyBool (b : Bool) : '\t' ∉ pyBool b := by cases b <;> decide

/-! ### Breakpoints -/

/-- **C84.** A breakpoint written by a client that uses ids is the breakpoint that is added: same id, type, file,
line, function, condition and expression (with their tabs and new lines), hit condition, kind and policy. -/
theorem c84_set_break (b : Break) (h : Sendable b) : setBreak true (writeBreak b) = some b := by
  have := splitN_join [Py.intStr b.id, b.btype, b.filename, Py.intStr b.line, b.funcName, optional b.condition,
    optional b.expression, plainOptional b.hitCondition, pyBool b.isLogpoint] b.suspendPolicy
    (by simp [no_tab_int, h.btype, h.filename, h.func, no_tab_optional, no_tab_plain b h, no_tab_pyBool])
  simp only [List.length_cons, List.length_nil, List.cons_append, List.nil_append] at this
  rw [setBreak, if_pos rfl, setBreakWithId, writeBreak, tabs, this]
  simp only [pyBool_true]
  exact finish_ok b h

/-- Without the policy (older clients) it is the same breakpoint with the default policy. -/
theorem c84_set_break_no_policy (b : Break) (h : Sendable b) (hp : b.suspendPolicy = c!"NONE") :
    setBreak true (tabs [Py.intStr b.id, b.btype, b.filename, Py.intStr b.line, b.funcName, optional b.condition,
      optional b.expression, plainOptional b.hitCondition, pyBool b.isLogpoint]) = some b := by
  have nt : ∀ x ∈ [Py.intStr b.id, b.btype, b.filename, Py.intStr b.line, b.funcName, optional b.condition,
      optional b.expression, plainOptional b.hitCondition, pyBool b.isLogpoint], '\t' ∉ x := by
    simp [no_tab_int, h.btype, h.filename, h.func, no_tab_optional, no_tab_plain b h, no_tab_pyBool]
  rw [setBreak, if_pos rfl, setBreakWithId, tabs, splitN_few 9 _ (by simp) nt (by simp)]
  simp only
  rw [splitN_few 8 _ (by simp) nt (by simp)]
  simp only [pyBool_true]
  rw [← hp]
  exact finish_ok b h

/-- Seven fields (oldest clients): a plain breakpoint. -/
theorem c84_set_break_old (b : Break) (h : Sendable b) (hh : b.hitCondition = none) (hl : b.isLogpoint = false)
    (hp : b.suspendPolicy = c!"NONE") :
    setBreak true (tabs [Py.intStr b.id, b.btype, b.filename, Py.intStr b.line, b.funcName, optional b.condition,
      optional b.expression]) = some b := by
  have nt : ∀ x ∈ [Py.intStr b.id, b.btype, b.filename, Py.intStr b.line, b.funcName, optional b.condition,
      optional b.expression], '\t' ∉ x := by
    simp [no_tab_int, h.btype, h.filename, h.func, no_tab_optional]
  rw [setBreak, if_pos rfl, setBreakWithId, tabs, splitN_few 9 _ (by simp) nt (by simp)]
  simp only
  rw [splitN_few 8 _ (by simp) nt (by simp)]
  simp only
  rw [splitN_few 6 _ (by simp) nt (by simp)]
  simp only
  have := finish_ok b h
  rw [hh, hl, hp] at this
  rw [← this]
  rfl

/-- A client without ids: the line is the id. -/
theorem c84_set_break_no_id (b : Break) (h : Sendable b) (hi : b.id = b.line) (hh : b.hitCondition = none)
    (hl : b.isLogpoint = false) (hpol : '\t' ∉ b.suspendPolicy) :
    setBreak false (tabs [b.btype, b.filename, Py.intStr b.line, b.funcName, b.suspendPolicy, optional b.condition,
      optional b.expression]) = some b := by
  have nt : ∀ x ∈ [b.btype, b.filename, Py.intStr b.line, b.funcName, b.suspendPolicy, optional b.condition,
      optional b.expression], '\t' ∉ x := by
    simp [no_tab_int, h.btype, h.filename, h.func, no_tab_optional, hpol]
  rw [setBreak, if_neg (by decide), setBreakNoId, tabs, splitN_few 6 _ (by simp) nt (by simp)]
  simp only
  have := finish_ok b h
  rw [hi, hh, hl] at this
  rw [← this]
  rfl

/-- The request is one line of the protocol whatever the condition and the expression are. -/
theorem c84_one_line (b : Break) (h : ∀ s ∈ [b.btype, b.filename, b.funcName, b.suspendPolicy], '\n' ∉ s)
    (hh : ∀ s, b.hitCondition = some s → '\n' ∉ s) : '\n' ∉ writeBreak b := by
  have hi : ∀ i, '\n' ∉ Py.intStr i := fun i h => absurd (Py.intStr_not_space i _ h) (by decide)
  have ho : ∀ o, '\n' ∉ optional o := by
    intro o; cases o with
    | none => decide
    | some s => exact no_nl_enc s
  have hb : ∀ x, '\n' ∉ pyBool x := by intro x; cases x <;> decide
  have hp : '\n' ∉ plainOptional b.hitCondition := by
    cases hc : b.hitCondition with
    | none => decide
    | some s => exact hh s hc
  simp only [List.mem_cons, List.not_mem_nil, or_false, forall_eq_or_imp, forall_eq] at h
  simp [writeBreak, tabs, Py.join1, hi, ho, hb, hp, h]

/-- Nothing is added for a request with fewer than seven fields, or whose id or line is no number. -/
theorem c84_set_break_reject (ws : List Str) (hne : ws ≠ []) (nt : ∀ x ∈ ws, '\t' ∉ x)
    (hbad : ws.length < 7 ∨ (∃ s, ws[0]? = some s ∧ Py.parseInt s = none) ∨ (∃ s, ws[3]? = some s ∧ Py.parseInt s = none))
    (hlen : ws.length ≤ 10) : setBreak true (tabs ws) = none := by
  rw [setBreak, if_pos rfl, setBreakWithId, tabs, splitN_few 9 _ hne nt (by omega)]
  have fin : ∀ i bt fn l f c e hit log pol, (Py.parseInt i = none ∨ Py.parseInt l = none) →
      finish i bt fn l f c e hit log pol = none := by
    intro i bt fn l f c e hit log pol h
    unfold finish
    rcases h with h | h
    · rw [h]
    · rw [h]; cases Py.parseInt i <;> rfl
  by_cases h10 : ws.length = 10
  · match ws, h10 with
    | [i, bt, fn, l, f, c, e, h, log, pol], _ =>
      simp only
      apply fin
      rcases hbad with hb | ⟨s, hs, hb⟩ | ⟨s, hs, hb⟩
      · simp at hb
      · simp at hs; subst hs; exact Or.inl hb
      · simp at hs; subst hs; exact Or.inr hb
  · split
    · simp at h10
    · rw [splitN_few 8 _ hne nt (by omega)]
      by_cases h9 : ws.length = 9
      · match ws, h9 with
        | [i, bt, fn, l, f, c, e, h, log], _ =>
          simp only
          apply fin
          rcases hbad with hb | ⟨s, hs, hb⟩ | ⟨s, hs, hb⟩
          · simp at hb
          · simp at hs; subst hs; exact Or.inl hb
          · simp at hs; subst hs; exact Or.inr hb
      · split
        · simp at h9
        · by_cases h7 : ws.length ≤ 7
          · rw [splitN_few 6 _ hne nt (by omega)]
            split
            · apply fin
              rcases hbad with hb | ⟨s, hs, hb⟩ | ⟨s, hs, hb⟩
              · simp at hb
              · simp at hs; subst hs; exact Or.inl hb
              · simp at hs; subst hs; exact Or.inr hb
            · rfl
          · have h8 : ws.length = 8 := by omega
            match ws, h8 with
            | [i, bt, fn, l, f, c, e, h], _ =>
              have := splitN_join [i, bt, fn, l, f, c] (Py.join1 '\t' [e, h]) (fun x hx => nt x (by simp at hx ⊢; grind))
              simp only [List.length_cons, List.length_nil, List.cons_append, List.nil_append] at this
              have e1 : Py.join1 '\t' [i, bt, fn, l, f, c, Py.join1 '\t' [e, h]] = Py.join1 '\t' [i, bt, fn, l, f, c, e, h] := by
                simp [Py.join1]
              rw [← e1, this]
              simp only
              apply fin
              rcases hbad with hb | ⟨s, hs, hb⟩ | ⟨s, hs, hb⟩
              · simp at hb
              · simp at hs; subst hs; exact Or.inl hb
              · simp at hs; subst hs; exact Or.inr hb

/-- Removing: type, file and id as written. -/
theorem c84_remove_break (bt fn : Str) (i : Int) (h1 : '\t' ∉ bt) (h2 : '\t' ∉ fn) :
    removeBreak (tabs [bt, fn, Py.intStr i]) = some (bt, fn, i) := by
  have := splitN_join [bt, fn] (Py.intStr i) (by simp [h1, h2])
  simp only [List.length_cons, List.length_nil, List.cons_append, List.nil_append] at this
  rw [removeBreak, tabs, this]
  simp only [Py.parseInt_intStr, Option.map_some]

/-! ### Exception breakpoints -/

/-- How often to stop for handled exceptions, as the protocol numbers it. -/
inductive Handled where
  | never | everyFrame | once
deriving DecidableEq, Repr

def Handled.code : Handled → Int
  | .never => 0
  | .everyFrame => 1
  | .once => 2

def bit (b : Bool) : Str := if b then c!"1" else c!"0"

/-- An exception breakpoint of Python, six fields. -/
theorem c84_exception_break (exc : Str) (cond expr : Option Str) (hd : Handled) (u lib : Bool)
    (h1 : '\t' ∉ exc) (h2 : '-' ∉ exc) (hc : SafeOpt cond ∧ Meaningful cond) (he : SafeOpt expr ∧ Meaningful expr) :
    addExceptionBreak (tabs [exc, optional cond, optional expr, Py.intStr hd.code, bit u, bit lib]) =
      some (.python exc cond expr (hd ≠ .never) u (hd = .once) lib) := by
  have nb : ∀ b, '\t' ∉ bit b := by intro b; cases b <;> decide
  have nt : ∀ x ∈ [exc, optional cond, optional expr, Py.intStr hd.code, bit u, bit lib], '\t' ∉ x := by
    simp [h1, no_tab_optional, no_tab_int, nb]
  have pb : ∀ b, Py.parseInt (bit b) = some (if b then 1 else 0) := by intro b; cases b <;> decide
  rw [addExceptionBreak, if_pos (by simp [tabs, Py.join1]), tabs, splitN_few 5 _ (by simp) nt (by simp)]
  simp only
  rw [addExc, excName, if_neg h2]
  simp only [if_true, Py.parseInt_intStr, pb, orNone_restore _ hc.1 hc.2, orNone_restore _ he.1 he.2]
  cases hd <;> cases u <;> cases lib <;> simp [Handled.code]

/-- Four fields: no condition and no expression. -/
theorem c84_exception_break_old (exc : Str) (hd : Handled) (u lib : Bool) (h1 : '\t' ∉ exc) (h2 : '-' ∉ exc) :
    addExceptionBreak (tabs [exc, Py.intStr hd.code, bit u, bit lib]) =
      some (.python exc none none (hd ≠ .never) u (hd = .once) lib) := by
  have nb : ∀ b, '\t' ∉ bit b := by intro b; cases b <;> decide
  have nt : ∀ x ∈ [exc, Py.intStr hd.code, bit u, bit lib], '\t' ∉ x := by simp [h1, no_tab_int, nb]
  have pb : ∀ b, Py.parseInt (bit b) = some (if b then 1 else 0) := by intro b; cases b <;> decide
  have e0 : orNone (restore []) = none := by
    have : restore [] = [] := by
      rw [restore, Py.replaceAll_nil, Py.replaceAll_nil]; rfl
    rw [this]; rfl
  rw [addExceptionBreak, if_pos (by simp [tabs, Py.join1]), tabs, splitN_few 5 _ (by simp) nt (by simp)]
  simp only
  rw [splitN_few 3 _ (by simp) nt (by simp)]
  simp only
  rw [addExc, excName, if_neg h2]
  simp only [if_true, Py.parseInt_intStr, pb, e0]
  cases hd <;> cases u <;> cases lib <;> simp [Handled.code]

/-- The name alone: neither on handled nor on unhandled exceptions. -/
theorem c84_exception_break_name (exc : Str) (h1 : '\t' ∉ exc) (h2 : '-' ∉ exc) :
    addExceptionBreak exc = some (.python exc none none false false false false) := by
  have e0 : orNone (restore []) = none := by
    have : restore [] = [] := by
      rw [restore, Py.replaceAll_nil, Py.replaceAll_nil]; rfl
    rw [this]; rfl
  have p0 : Py.parseInt c!"0" = some 0 := by decide
  rw [addExceptionBreak, if_neg h1, addExc, excName, if_neg h2]
  simp [p0, e0]

/-- The kind of a plugin breakpoint is what stands before the dash. -/
theorem c84_exception_break_plugin (kind exc : Str) (h1 : '\t' ∉ kind ∧ '\t' ∉ exc) (h2 : '-' ∉ kind ∧ '-' ∉ exc)
    (hk : kind ≠ c!"python") : addExceptionBreak (kind ++ '-' :: exc) = some (.plugin kind exc) := by
  have nt : '\t' ∉ kind ++ '-' :: exc := by simp [h1]
  rw [addExceptionBreak, if_neg nt, addExc, excName, if_pos (by simp), Py.split1_append _ _ _ h2.1,
    Py.split1_of_not_mem _ _ h2.2]
  simp only [if_neg hk]

/-! ### Evaluation and change of variables -/

/-- The expression that is evaluated is the one the client gave, with all its lines. -/
theorem c84_evaluate (th fr sc ex attr : Str) (tr : Bool) (h : ∀ x ∈ [th, fr, sc, ex], '\t' ∉ x)
    (hs : ¬ c!"@LINE" <:+: ex) :
    evaluate (tabs [th, fr, sc, oneLineExpr ex, bit tr, attr]) =
      some { thread := th, frame := fr, expression := ex, trim := tr, attr := attr } := by
  have nb : ∀ b, '\t' ∉ bit b := by intro b; cases b <;> decide
  have pb : ∀ b, Py.parseInt (bit b) = some (if b then 1 else 0) := by intro b; cases b <;> decide
  simp only [List.mem_cons, List.not_mem_nil, or_false, forall_eq_or_imp, forall_eq] at h
  have := splitN_join [th, fr, sc, oneLineExpr ex, bit tr] attr
    (by simp only [List.mem_cons, List.not_mem_nil, or_false, forall_eq_or_imp, forall_eq]
        exact ⟨h.1, h.2.1, h.2.2.1, no_tab_encL _ h.2.2.2, nb _⟩)
  simp only [List.length_cons, List.length_nil, List.cons_append, List.nil_append] at this
  rw [evaluate, tabs, this]
  simp only
  rw [finishEval, pb, oneLineExpr_eq, line_pass _ hs]
  cases tr <;> rfl

/-- Without a place to store the result. -/
theorem c84_evaluate_old (th fr sc ex : Str) (tr : Bool) (h : ∀ x ∈ [th, fr, sc, ex], '\t' ∉ x)
    (hs : ¬ c!"@LINE" <:+: ex) :
    evaluate (tabs [th, fr, sc, oneLineExpr ex, bit tr]) =
      some { thread := th, frame := fr, expression := ex, trim := tr, attr := [] } := by
  have nb : ∀ b, '\t' ∉ bit b := by intro b; cases b <;> decide
  have pb : ∀ b, Py.parseInt (bit b) = some (if b then 1 else 0) := by intro b; cases b <;> decide
  simp only [List.mem_cons, List.not_mem_nil, or_false, forall_eq_or_imp, forall_eq] at h
  have nt : ∀ x ∈ [th, fr, sc, oneLineExpr ex, bit tr], '\t' ∉ x := by
    simp only [List.mem_cons, List.not_mem_nil, or_false, forall_eq_or_imp, forall_eq]
    exact ⟨h.1, h.2.1, h.2.2.1, no_tab_encL _ h.2.2.2, nb _⟩
  rw [evaluate, tabs, splitN_few 5 _ (by simp) nt (by simp)]
  simp only
  rw [splitN_few 4 _ (by simp) nt (by simp)]
  simp only
  rw [finishEval, pb, oneLineExpr_eq, line_pass _ hs]
  cases tr <;> rfl

theorem replaceChar_join (ws : List Str) (h : ∀ x ∈ ws, '\t' ∉ x) :
    Py.replaceChar '\t' '.' (Py.join1 '\t' ws) = Py.join1 '.' ws := by
  have hone : ∀ w : Str, '\t' ∉ w → Py.replaceChar '\t' '.' w = w := by
    intro w hw
    unfold Py.replaceChar
    conv => rhs; rw [← List.map_id w]
    apply List.map_congr_left
    intro a ha
    have : a ≠ '\t' := fun e => hw (e ▸ ha)
    simp [this]
  induction ws with
  | nil => rfl
  | cons w ws ih =>
    cases ws with
    | nil => exact hone w (h w (by simp))
    | cons v vs =>
      have ih := ih (fun x hx => h x (by simp [hx]))
      rw [Py.join1_cons '\t' w (v :: vs) (by simp), Py.join1_cons '.' w (v :: vs) (by simp), ← ih]
      have hw := hone w (h w (by simp))
      simp only [Py.replaceChar] at hw ⊢
      rw [List.map_append, hw, List.map_cons, if_pos rfl]

/-- Changing a variable: the path (as a dotted name) and the value as written. -/
theorem c84_change_variable (th fr sc value : Str) (path : List Str) (hp : path ≠ [])
    (h : '\t' ∉ th ∧ '\t' ∉ fr ∧ '\t' ∉ sc ∧ '\t' ∉ value) (hpath : ∀ x ∈ path, '\t' ∉ x) :
    changeVariable (tabs (th :: fr :: sc :: path ++ [value])) =
      some { thread := th, frame := fr, scope := sc, attr := Py.join1 '.' path, value := value } := by
  have e1 : tabs (th :: fr :: sc :: path ++ [value]) = tabs [th, fr, sc, tabs path ++ '\t' :: value] := by
    simp only [tabs]
    have ev : Py.join1 '\t' (path ++ [value]) = Py.join1 '\t' path ++ '\t' :: value := by
      rw [Py.join1_append _ _ _ hp (by simp)]; rfl
    simp only [List.cons_append]
    rw [Py.join1_cons _ _ _ (by simp), Py.join1_cons _ _ _ (by simp), Py.join1_cons _ _ _ (by simp), ev]
    rfl
  have := splitN_join [th, fr, sc] (tabs path ++ '\t' :: value) (by simp [h])
  simp only [List.length_cons, List.length_nil, List.cons_append, List.nil_append] at this
  have hv : ∀ x ∈ value.reverse, decide (x ≠ '\t') = true := by
    intro x hx; simp; rintro rfl; exact h.2.2.2 (by simpa using hx)
  rw [changeVariable, e1, tabs, this]
  simp only
  rw [if_pos (by simp)]
  have er : (tabs path ++ '\t' :: value).reverse = value.reverse ++ '\t' :: (tabs path).reverse := by simp
  rw [er, List.takeWhile_append_of_pos hv, List.dropWhile_append_of_pos hv]
  simp only [ne_eq, not_true_eq_false, decide_false, List.takeWhile_cons, List.dropWhile_cons, Bool.false_eq_true, if_false, List.append_nil,
    List.reverse_reverse, List.drop_succ_cons, List.drop_zero]
  rw [tabs, replaceChar_join path hpath]

/-- A smart step by position: thread, offset and child offset as written. -/
theorem c84_smart_step (th f : Str) (o : Int) (child : Option Int) (h : '\t' ∉ th) :
    smartStep (tabs [th, c!"offset=" ++ (match child with | none => Py.intStr o | some k => Py.intStr o ++ ';' :: Py.intStr k), f]) =
      some (.byOffset th o (child.getD (-1))) := by
  have ns : ∀ i, ';' ∉ Py.intStr i := by
    intro i hi
    cases i with
    | ofNat n => exact absurd (Py.natStr_digits n _ hi) (by decide)
    | negSucc n =>
      simp only [Py.intStr, List.mem_cons] at hi
      rcases hi with hi | hi
      · exact absurd hi (by decide)
      · exact absurd (Py.natStr_digits _ _ hi) (by decide)
  have key : ∀ t : Str, '\t' ∉ t → smartStep (tabs [th, c!"offset=" ++ t, f]) =
      (if ';' ∈ t then
        match Py.split1 ';' t with
        | [a, b] =>
          match Py.parseInt a, Py.parseInt b with
          | some a, some b => some (.byOffset th a b)
          | _, _ => none
        | _ => none
      else (Py.parseInt t).map (fun o => .byOffset th o (-1))) := by
    intro t ht
    have := splitN_join [th, c!"offset=" ++ t] f (by simp [h, ht])
    simp only [List.length_cons, List.length_nil, List.cons_append, List.nil_append] at this
    rw [smartStep, tabs]
    simp only [List.cons_append, List.nil_append]
    rw [this]
    simp only
    rw [if_pos (by simp [Py.startsWith, offsetEq])]
    rfl
  cases child with
  | none =>
    simp only
    rw [key _ (no_tab_int o), if_neg (ns o), Py.parseInt_intStr]; rfl
  | some k =>
    simp only
    rw [key _ (by simp [no_tab_int]), if_pos (by simp), Py.split1_append _ _ _ (ns o), Py.split1_of_not_mem _ _ (ns k)]
    simp only [Py.parseInt_intStr]; rfl

/-! ### Examples -/

/-- A condition of two lines with a tab, an `@` and an expression. -/
def exBreak : Break :=
  { id := 7, btype := c!"python-line", filename := c!"/a b/é.py", line := 12, funcName := c!"None",
    condition := some c!"x == 'u@v'\nand\ty", expression := some c!"print(x)", hitCondition := some c!"== 3",
    isLogpoint := true, suspendPolicy := c!"ALL" }

theorem c84_example : Sendable exBreak ∧ setBreak true (writeBreak exBreak) = some exBreak := by
  have h : Sendable exBreak := by
    refine ⟨by decide, by decide, by decide, ?_, ?_, ?_, ?_⟩
    · intro h hh; simp [exBreak] at hh; subst hh; decide
    · simp [exBreak, Given]
    · refine ⟨?_, ?_⟩
      · show Safe _
        exact ⟨by decide, by decide, by decide⟩
      · exact ⟨by decide, by decide, by decide⟩
    · refine ⟨?_, ?_⟩
      · show Safe _
        exact ⟨by decide, by decide, by decide⟩
      · exact ⟨by decide, by decide, by decide⟩
  exact ⟨h, c84_set_break _ h⟩

/-! ### Where the proviso is needed -/

theorem replaceAll_go (pat new : Str) (c : Char) (cs : Str) (h : ¬ pat.isPrefixOf (c :: cs) = true) :
    Py.replaceAll pat new (c :: cs) = c :: Py.replaceAll pat new cs := replace_skip pat new c cs h

/-- A condition of this shape (tab, the word, new line) comes out changed although it contains no `@` at all. -/
theorem c84_tag_confusion_witness :
    restore (oneLine c!"\tNEW_LINE_CHAR\nx") ≠ Py.strip c!"\tNEW_LINE_CHAR\nx" := by
  have e : oneLine c!"\tNEW_LINE_CHAR\nx" = c!"@_@TAB_CHAR" ++ (nlTag ++ c!"NEW_LINE_CHAR@_@x") := rfl
  have e1 : Py.replaceAll nlTag ['\n'] (c!"@_@TAB_CHAR" ++ (nlTag ++ c!"NEW_LINE_CHAR@_@x"))
      = c!"@_@TAB_CHAR\nNEW_LINE_CHAR@_@x" := by
    simp only [List.cons_append, List.nil_append]
    iterate 11 rw [replace_skip _ _ _ _ (by simp [nlTag, List.isPrefixOf])]
    rw [show (nlTag ++ ['N', 'E', 'W', '_', 'L', 'I', 'N', 'E', '_', 'C', 'H', 'A', 'R', '@', '_', '@', 'x'] : Str)
      = nlTag ++ c!"NEW_LINE_CHAR@_@x" from rfl, Py.replaceAll_prefix _ _ _ (by decide)]
    iterate 17 rw [replace_skip _ _ _ _ (by simp [nlTag, List.isPrefixOf])]
    rw [Py.replaceAll_nil]; rfl
  have e2 : Py.replaceAll tabTag ['\t'] c!"@_@TAB_CHAR\nNEW_LINE_CHAR@_@x" = c!"@_@TAB_CHAR\nNEW_LINE_CHAR@_@x" := by
    iterate 29 rw [replace_skip _ _ _ _ (by simp [tabTag, List.isPrefixOf])]
    rw [Py.replaceAll_nil]
  rw [e, restore, e1, e2]
  decide

/-- A value with a tab cannot be assigned: its first part is taken for part of the name. -/
theorem c84_change_tab_witness :
    changeVariable (tabs [c!"t", c!"f", c!"FRAME", c!"x", c!"'a\tb'"]) =
      some { thread := c!"t", frame := c!"f", scope := c!"FRAME", attr := c!"x.'a", value := c!"b'" } := by decide

/-- Eight fields: the hit condition becomes part of the expression. -/
theorem c84_eight_fields_witness (e h : Str) (h1 : '\t' ∉ e) (h2 : '\t' ∉ h) :
    setBreak true (tabs [c!"1", c!"python-line", c!"f", c!"2", c!"None", c!"None", e, h]) =
      finish c!"1" c!"python-line" c!"f" c!"2" c!"None" c!"None" (tabs [e, h]) none false c!"NONE" := by
  have nt : ∀ x ∈ [c!"1", c!"python-line", c!"f", c!"2", c!"None", c!"None", e, h], '\t' ∉ x := by simp [h1, h2]
  rw [setBreak, if_pos rfl, setBreakWithId, tabs, splitN_few 9 _ (by simp) nt (by simp)]
  simp only
  rw [splitN_few 8 _ (by simp) nt (by simp)]
  simp only
  have := splitN_join [c!"1", c!"python-line", c!"f", c!"2", c!"None", c!"None"] (Py.join1 '\t' [e, h]) (by simp)
  simp only [List.length_cons, List.length_nil, List.cons_append, List.nil_append] at this
  rw [show Py.join1 '\t' [c!"1", c!"python-line", c!"f", c!"2", c!"None", c!"None", e, h]
    = Py.join1 '\t' [c!"1", c!"python-line", c!"f", c!"2", c!"None", c!"None", Py.join1 '\t' [e, h]] by simp [Py.join1], this]
  rfl

/-- The name of a dictionary entry that contains a tab, written with the tag, is looked up with the tag in it. -/
theorem c84_locator_tag_witness : locatorParts (tabs [c!"d", oneLine c!"a\tb"]) = [c!"d", c!"a@_@TAB_CHAR@_@b"] := by decide

end LineReq
