import Verif.Exceptions.Model
/-! Properties C21 (most specific breakpoint), C24 (when an exception stops the program), C51 (the tables set
up by the client), C52 (unhandled exceptions). -/

namespace Exceptions

/-! ### C21 -/

/-- Breakpoint `b` applies to the class by inheritance. -/
def Applies (sub : Class → Class → Bool) (exc : Class) (b : Ebp) : Prop :=
  ∃ t, b.type = some t ∧ sub exc t = true

/-- `c` is for a strictly more specific class than `b`. -/
def MoreSpecific (sub : Class → Class → Bool) (c b : Ebp) : Prop :=
  ∃ tc tb, c.type = some tc ∧ b.type = some tb ∧ sub tc tb = true ∧ sub tb tc = false

/-- Invariant of the search: the best so far applies and nothing seen is more specific. -/
theorem search_inv (sub : Class → Class → Bool) (trans : ∀ a b c, sub a b = true → sub b c = true → sub a c = true)
    (exc : Class) (bs seen : List Ebp) (best : Option Ebp)
    (h : ∀ b, best = some b → b ∈ seen ∧ Applies sub exc b ∧ ∀ c ∈ seen, Applies sub exc c → ¬ MoreSpecific sub c b)
    (h0 : best = none → ∀ c ∈ seen, ¬ Applies sub exc c) :
    (∀ b, search sub exc bs best = some b →
      b ∈ seen ++ bs ∧ Applies sub exc b ∧ ∀ c ∈ seen ++ bs, Applies sub exc c → ¬ MoreSpecific sub c b) ∧
    (search sub exc bs best = none → ∀ c ∈ seen ++ bs, ¬ Applies sub exc c) := by
  induction bs generalizing seen best with
  | nil => simpa [search] using ⟨h, h0⟩
  | cons b bs ih =>
    have step : ∀ best', search sub exc (b :: bs) best = search sub exc bs best' →
        (∀ x, best' = some x → x ∈ seen ++ [b] ∧ Applies sub exc x ∧
          ∀ c ∈ seen ++ [b], Applies sub exc c → ¬ MoreSpecific sub c x) →
        (best' = none → ∀ c ∈ seen ++ [b], ¬ Applies sub exc c) →
        (∀ x, search sub exc (b :: bs) best = some x →
          x ∈ seen ++ b :: bs ∧ Applies sub exc x ∧ ∀ c ∈ seen ++ b :: bs, Applies sub exc c → ¬ MoreSpecific sub c x) ∧
        (search sub exc (b :: bs) best = none → ∀ c ∈ seen ++ b :: bs, ¬ Applies sub exc c) := by
      intro best' he h1 h2
      have := ih (seen ++ [b]) best' h1 h2
      rw [List.append_assoc, List.singleton_append] at this
      rw [he]
      exact this
    cases ht : b.type with
    | none =>
      have hna : ¬ Applies sub exc b := by rintro ⟨t, h, _⟩; rw [ht] at h; cases h
      refine step best (by simp [search, ht]) ?_ ?_
      · intro x hx
        obtain ⟨m, a, n⟩ := h x hx
        refine ⟨by simp [m], a, fun c hc ha => ?_⟩
        rcases List.mem_append.1 hc with hc | hc
        · exact n c hc ha
        · rw [List.mem_singleton.1 hc] at ha; exact absurd ha hna
      · intro hn c hc
        rcases List.mem_append.1 hc with hc | hc
        · exact h0 hn c hc
        · rw [List.mem_singleton.1 hc]; exact hna
    | some t =>
      by_cases hs : sub exc t = true
      · cases hb : best with
        | none =>
          subst hb
          refine step (some b) (by simp [search, ht, hs]) ?_ (by simp)
          intro x hx
          simp only [Option.some.injEq] at hx
          subst hx
          refine ⟨by simp, ⟨t, ht, hs⟩, fun c hc ha => ?_⟩
          rcases List.mem_append.1 hc with hc | hc
          · exact absurd ha (h0 rfl c hc)
          · rw [List.mem_singleton.1 hc]
            rintro ⟨tc, tb, h1, h2, h3, h4⟩
            rw [h1] at h2; cases h2; rw [h3] at h4; cases h4
        | some c =>
          obtain ⟨hm, ⟨tc, htc, hsc⟩, hn⟩ := h c hb
          by_cases hlt : sub t tc = true
          · rw [← hb]
            refine step (some b) (by simp [search, ht, hs, hb, htc, hlt]) ?_ (by simp)
            intro x hx
            simp only [Option.some.injEq] at hx
            subst hx
            refine ⟨by simp, ⟨t, ht, hs⟩, fun d hd ha => ?_⟩
            rintro ⟨td, tb, h1, h2, h3, h4⟩
            rw [ht] at h2; cases h2
            rcases List.mem_append.1 hd with hd | hd
            · refine hn d hd ha ⟨td, tc, h1, htc, trans _ _ _ h3 hlt, ?_⟩
              cases hx : sub tc td with
              | false => rfl
              | true => rw [trans _ _ _ hlt hx] at h4; cases h4
            · rw [List.mem_singleton.1 hd, ht] at h1; cases h1
              rw [h3] at h4; cases h4
          · rw [← hb]
            refine step (some c) (by simp [search, ht, hs, hb, htc, hlt]) ?_ (by simp)
            intro x hx
            simp only [Option.some.injEq] at hx
            subst hx
            refine ⟨by simp [hm], ⟨tc, htc, hsc⟩, fun d hd ha => ?_⟩
            rcases List.mem_append.1 hd with hd | hd
            · exact hn d hd ha
            · rw [List.mem_singleton.1 hd]
              rintro ⟨td, tb, h1, h2, h3, h4⟩
              rw [ht] at h1; cases h1
              rw [htc] at h2; cases h2
              exact hlt h3
      · have hna : ¬ Applies sub exc b := by rintro ⟨t', h, hs'⟩; rw [ht] at h; cases h; exact hs hs'
        refine step best (by simp [search, ht, hs]) ?_ ?_
        · intro x hx
          obtain ⟨m, a, n⟩ := h x hx
          refine ⟨by simp [m], a, fun c hc ha => ?_⟩
          rcases List.mem_append.1 hc with hc | hc
          · exact n c hc ha
          · rw [List.mem_singleton.1 hc] at ha; exact absurd ha hna
        · intro hn c hc
          rcases List.mem_append.1 hc with hc | hc
          · exact h0 hn c hc
          · rw [List.mem_singleton.1 hc]; exact hna

/-- A breakpoint registered under the exact name of the class is the one used. -/
theorem c21_exact (sub : Class → Class → Bool) (fullName : Class → Name) (exc : Class) (t : Table) (b : Ebp)
    (h : Py.Dict.get t (fullName exc) = some b) : getBreakpoint sub fullName exc t = some b := by
  simp [getBreakpoint, h]

/-- For every class hierarchy and every table without the exact name: the breakpoint used is registered, applies
to a superclass, and no registered breakpoint that applies is for a strictly more specific class. -/
theorem c21_most_specific (sub : Class → Class → Bool)
    (trans : ∀ a b c, sub a b = true → sub b c = true → sub a c = true) (fullName : Class → Name) (exc : Class)
    (t : Table) (b : Ebp) (hn : Py.Dict.get t (fullName exc) = none) (h : getBreakpoint sub fullName exc t = some b) :
    b ∈ t.map (·.2) ∧ Applies sub exc b ∧ ∀ c ∈ t.map (·.2), Applies sub exc c → ¬ MoreSpecific sub c b := by
  simp only [getBreakpoint, hn] at h
  have := (search_inv sub trans exc (t.map (·.2)) [] none (by simp) (by simp)).1 b h
  simpa using this

/-- No breakpoint is used exactly when none is registered for the name or for a superclass. -/
theorem c21_none (sub : Class → Class → Bool)
    (trans : ∀ a b c, sub a b = true → sub b c = true → sub a c = true) (fullName : Class → Name) (exc : Class)
    (t : Table) :
    getBreakpoint sub fullName exc t = none ↔
      Py.Dict.get t (fullName exc) = none ∧ ∀ b ∈ t.map (·.2), ¬ Applies sub exc b := by
  constructor
  · intro h
    cases hn : Py.Dict.get t (fullName exc) with
    | some b => simp [getBreakpoint, hn] at h
    | none =>
      refine ⟨rfl, ?_⟩
      simp only [getBreakpoint, hn] at h
      have := (search_inv sub trans exc (t.map (·.2)) [] none (by simp) (by simp)).2 h
      simpa using this
  · rintro ⟨hn, h⟩
    cases hg : getBreakpoint sub fullName exc t with
    | none => rfl
    | some b =>
      obtain ⟨hm, ha, _⟩ := c21_most_specific sub trans fullName exc t b hn hg
      exact absurd ha (h b hm)

/-- With single inheritance (the superclasses of a class form a chain) the answer is the class of the least
registered superclass, whatever the order of registration. -/
theorem c21_order_independent (sub : Class → Class → Bool)
    (trans : ∀ a b c, sub a b = true → sub b c = true → sub a c = true)
    (antisymm : ∀ a b, sub a b = true → sub b a = true → a = b)
    (chain : ∀ e a b, sub e a = true → sub e b = true → sub a b = true ∨ sub b a = true)
    (fullName : Class → Name) (exc : Class) (t t' : Table) (hp : t.Perm t')
    (hn : Py.Dict.get t (fullName exc) = none) (hn' : Py.Dict.get t' (fullName exc) = none) :
    (getBreakpoint sub fullName exc t).map (·.type) = (getBreakpoint sub fullName exc t').map (·.type) := by
  have hmem : ∀ b, b ∈ t.map (·.2) ↔ b ∈ t'.map (·.2) := fun b => (hp.map _).mem_iff
  cases h : getBreakpoint sub fullName exc t with
  | none =>
    have h2 := ((c21_none sub trans fullName exc t).1 h).2
    have : getBreakpoint sub fullName exc t' = none :=
      (c21_none sub trans fullName exc t').2 ⟨hn', fun b hb => h2 b ((hmem b).2 hb)⟩
    rw [this]
  | some b =>
    obtain ⟨hb, ⟨tb, htb, hsb⟩, hmin⟩ := c21_most_specific sub trans fullName exc t b hn h
    cases h' : getBreakpoint sub fullName exc t' with
    | none =>
      have h2 := ((c21_none sub trans fullName exc t').1 h').2
      exact absurd ⟨tb, htb, hsb⟩ (h2 b ((hmem b).1 hb))
    | some c =>
      obtain ⟨hc, ⟨tc, htc, hsc⟩, hmin'⟩ := c21_most_specific sub trans fullName exc t' c hn' h'
      have e1 : sub tb tc = true → sub tc tb = true := by
        intro hle
        cases hx : sub tc tb with
        | true => rfl
        | false => exact absurd ⟨tb, tc, htb, htc, hle, hx⟩ (hmin' b ((hmem b).1 hb) ⟨tb, htb, hsb⟩)
      have e2 : sub tc tb = true → sub tb tc = true := by
        intro hle
        cases hx : sub tb tc with
        | true => rfl
        | false => exact absurd ⟨tc, tb, htc, htb, hle, hx⟩ (hmin c ((hmem c).2 hc) ⟨tc, htc, hsc⟩)
      have : tb = tc := by
        rcases chain exc tb tc hsb hsc with hx | hx
        · exact antisymm _ _ hx (e1 hx)
        · exact antisymm _ _ (e2 hx) hx
      simp [htb, htc, this]

/-! ### C24 -/

/-- Exceptions used for control flow, ignored exits and exceptions raised by the import machinery. -/
def Ignored (env : Env) (r : Raise) : Prop :=
  (r.exc = env.systemExit ∧ r.ignoredCode = true) ∨ r.exc ∈ env.controlFlow ∨ ∃ e ∈ r.trace, e.importing = true

theorem ignoreTrace_iff (tb : List TbEntry) : ignoreTrace tb = true ↔ ∃ e ∈ tb, e.importing = true := by
  induction tb with
  | nil => simp [ignoreTrace]
  | cons e tb ih => simp [ignoreTrace, ih]

/-- While the thread is suspended no exception stops it again and nothing is recorded. -/
theorem c24_suspended (env : Env) (r : Raise) (prev : Option ExcInfo) (h : r.suspended = true) :
    shouldStop env r prev = ⟨false, r.frame, prev, none⟩ := by
  simp [shouldStop, h]

/-- Control-flow exceptions, ignored exits and import-machinery exceptions never stop and are not recorded
(for every table, option, traceback and filter; template plugins aside). -/
theorem c24_control_flow (env : Env) (r : Raise) (prev : Option ExcInfo) (hp : r.plugin = none) (h : Ignored env r) :
    shouldStop env r prev = ⟨false, r.frame, prev, none⟩ := by
  simp only [shouldStop, hp]
  by_cases h1 : r.suspended = true
  · simp [h1]
  by_cases h2 : r.trace.isEmpty = true
  · simp [h2]
  simp only [h1, h2, if_false, Bool.false_eq_true]
  rcases h with ⟨h, h'⟩ | h | h
  · simp [h, h']
  · simp [h]
  · have := (ignoreTrace_iff r.trace).2 h
    simp [this]

/-- How many frames the exception has travelled: 0 in the frame that raised it. -/
def distance (r : Raise) : Nat := r.trace.length - 1

/-- The documented meaning of the two raise-location options. -/
def LocationOk (firstRaiseOnly skipSameContext : Bool) (d : Nat) : Prop :=
  match firstRaiseOnly, skipSameContext with
  | true, true => d = 1
  | true, false => d = 0
  | false, true => d ≠ 0
  | false, false => True

/-- The filters exclude the exception: the breakpoint ignores libraries and the frame is not in the project, or
an exclusion rule matches. -/
def Excluded (env : Env) (b : Ebp) (f : Frame) : Prop :=
  (b.ignoreLibraries = true ∧ env.inProjectScope f = false) ∨ (env.excludeFilters = true ∧ env.excludedByFilter f = true)

/-- A plugin that wants to stop (on an exception in a template) does, in the frame it gives, whatever the exception breakpoints are; a thread that
is suspended or an exception without traceback stops nothing. -/
theorem c24_plugin (env : Env) (r : Raise) (prev : Option ExcInfo) (f : Frame) (hp : r.plugin = some f) :
    ((shouldStop env r prev).stop = true ↔ r.suspended = false ∧ r.trace ≠ []) ∧
    ((shouldStop env r prev).stop = true → (shouldStop env r prev).frame = f) := by
  unfold shouldStop
  rw [hp]
  cases r.suspended <;> cases r.trace <;> simp

theorem excludeByFilter_iff (env : Env) (b : Ebp) (e : TbEntry) (tb : List TbEntry) :
    excludeByFilter env b (e :: tb) = true ↔ Excluded env b e.frame := by
  unfold excludeByFilter Excluded
  cases b.ignoreLibraries <;> cases env.excludeFilters <;> simp

theorem locationPrevents_iff (env : Env) (b : Ebp) (e : TbEntry) (tb : List TbEntry) :
    locationPrevents env b (e :: tb) = false ↔ LocationOk b.firstRaiseOnly env.skipSameContext tb.length := by
  unfold locationPrevents LocationOk
  cases tb with
  | nil => cases b.firstRaiseOnly <;> cases env.skipSameContext <;> simp
  | cons x xs =>
    cases xs with
    | nil => cases b.firstRaiseOnly <;> cases env.skipSameContext <;> simp [justRaised]
    | cons y ys => cases b.firstRaiseOnly <;> cases env.skipSameContext <;> simp [justRaised]

/-- What the loop does with the caught-exception breakpoint. -/
theorem checkLoop_caught (env : Env) (r : Raise) (prev info : Option ExcInfo) (c : Option Ebp) :
    checkLoop env r prev (c.toList.map (·, false)) info =
      (c.filter (fun b => !excludeByFilter env b r.trace && !(b.hasCondition && !env.condition b r.frame) &&
        !locationPrevents env b r.trace), info) := by
  cases c with
  | none => rfl
  | some b =>
    simp only [Option.toList, List.map_cons, List.map_nil, checkLoop, Bool.false_eq_true, if_false, Option.filter]
    by_cases h1 : excludeByFilter env b r.trace = true
    · simp [h1]
    by_cases h2 : (b.hasCondition && !env.condition b r.frame) = true
    · rw [if_neg h1, if_pos h2]; simp [h2]
    by_cases h3 : locationPrevents env b r.trace = true
    · simp [h1, h2, h3]
    · rw [if_neg h1, if_neg h2, if_neg h3]
      simp only [Bool.not_eq_true] at h1 h2 h3
      simp [h1, h2, h3]

theorem checkLoop_user (env : Env) (r : Raise) (prev info : Option ExcInfo) (u : Option Ebp) (rest : List (Ebp × Bool)) :
    checkLoop env r prev (u.toList.map (·, true) ++ rest) info =
      checkLoop env r prev rest
        (if (u.filter (fun b => !excludeByFilter env b r.trace && !(b.hasCondition && !env.condition b r.frame))).isSome
         then userInfo env r prev info else info) := by
  cases u with
  | none => rfl
  | some b =>
    simp only [Option.toList, List.map_cons, List.map_nil, List.cons_append, List.nil_append, checkLoop, if_true,
      Option.filter]
    by_cases h1 : excludeByFilter env b r.trace = true
    · simp [h1]
    by_cases h2 : (b.hasCondition && !env.condition b r.frame) = true
    · rw [if_neg h1, if_pos h2]; simp [h2]
    · rw [if_neg h1, if_neg h2]
      simp only [Bool.not_eq_true] at h1 h2
      simp [h1, h2]

/-- The program stops on a raised exception exactly when it is running, the exception is not ignored, and the
most specific "raised" breakpoint is not excluded by the filters, its condition (if any) holds and the
raise-location options allow this distance from the raise. -/
theorem c24_stop_iff (env : Env) (r : Raise) (prev : Option ExcInfo) (hp : r.plugin = none) :
    (shouldStop env r prev).stop = true ↔
      r.suspended = false ∧ ¬ Ignored env r ∧
      ∃ e tb b, r.trace = e :: tb ∧ getBreakpoint env.sub env.fullName r.exc env.tables.caught = some b ∧
        ¬ Excluded env b e.frame ∧ (b.hasCondition = true → env.condition b r.frame = true) ∧
        LocationOk b.firstRaiseOnly env.skipSameContext (distance r) := by
  by_cases hi : Ignored env r
  · rw [c24_control_flow env r prev hp hi]; simp [hi]
  by_cases h1 : r.suspended = true
  · rw [c24_suspended env r prev h1]; simp [h1]
  simp only [Bool.not_eq_true] at h1
  cases htb : r.trace with
  | nil => simp [shouldStop, htb, h1]
  | cons e tb =>
    have g1 : ¬ ((decide (r.exc = env.systemExit) && r.ignoredCode) = true) := by
      simp only [Bool.and_eq_true, decide_eq_true_eq]; exact fun h => hi (.inl h)
    have g2 : ¬ r.exc ∈ env.controlFlow := fun h => hi (.inr (.inl h))
    have g3 : ¬ ignoreTrace r.trace = true := fun h => hi (.inr (.inr ((ignoreTrace_iff _).1 h)))
    have hd : distance r = tb.length := by simp [distance, htb]
    simp only [shouldStop, h1, hp, if_neg g1, if_neg g2, if_neg g3]
    have g4 : ¬ r.trace.isEmpty = true := by rw [htb]; simp
    rw [checkLoop_user, checkLoop_caught]
    simp only [if_neg g4, Bool.false_eq_true, if_false]
    cases hc : getBreakpoint env.sub env.fullName r.exc env.tables.caught with
    | none => simp
    | some b =>
      have hloc := locationPrevents_iff env b e tb
      have hex := excludeByFilter_iff env b e tb
      rw [← htb] at hloc hex
      rw [← hd] at hloc
      simp only [Option.filter]
      constructor
      · intro h
        split at h
        · rename_i b' _ hf
          split at hf
          · rename_i hcond
            simp only [Bool.and_eq_true, Bool.not_eq_true'] at hcond
            refine ⟨trivial, hi, e, tb, b, rfl, rfl, ?_, ?_, ?_⟩
            · rw [← hex, hcond.1.1]; simp
            · intro hcd
              have := hcond.1.2
              rw [hcd] at this
              simpa using this
            · exact hloc.1 hcond.2
          · simp at hf
        · cases h
      · rintro ⟨_, _, e', tb', b', he, hb, hx, hcd, hl⟩
        cases he; cases hb
        have e1 : excludeByFilter env b r.trace = false := by
          cases hv : excludeByFilter env b r.trace with
          | false => rfl
          | true => exact absurd (hex.1 hv) hx
        have e2 : (b.hasCondition && !env.condition b r.frame) = false := by
          cases hv : b.hasCondition with
          | false => rfl
          | true => simp [hcd hv]
        have e3 := hloc.2 hl
        simp [e1, e2, e3]

/-- The frame is user code and its caller, if there is one, is not. -/
def LeavesUserCode (env : Env) (r : Raise) : Prop :=
  env.filtered r.frame = false ∧ ∀ b, r.back = some b → env.filtered b = true

theorem leavesUserCode_iff (env : Env) (r : Raise) : leavesUserCode env r = true ↔ LeavesUserCode env r := by
  unfold leavesUserCode LeavesUserCode
  cases r.back <;> simp

open Classical in
/-- What is recorded for "user uncaught": it changes only if such a breakpoint applies and the exception is
leaving user code (the frame is user code and its caller, if any, is not); then the line is added. -/
theorem c24_user_uncaught (env : Env) (r : Raise) (prev : Option ExcInfo) (hp : r.plugin = none) :
    (shouldStop env r prev).info =
      if r.suspended = false ∧ r.trace ≠ [] ∧ ¬ Ignored env r ∧ LeavesUserCode env r ∧
         (∃ b, getBreakpoint env.sub env.fullName r.exc env.tables.userUncaught = some b ∧
            excludeByFilter env b r.trace = false ∧ (b.hasCondition = true → env.condition b r.frame = true))
      then some ⟨r.exc, r.line, r.line :: (match prev with | none => [] | some i => i.lines)⟩ else prev := by
  rw [← leavesUserCode_iff]
  by_cases hi : Ignored env r
  · rw [c24_control_flow env r prev hp hi]; simp [hi]
  by_cases h1 : r.suspended = true
  · rw [c24_suspended env r prev h1]; simp [h1]
  simp only [Bool.not_eq_true] at h1
  by_cases h0 : r.trace = []
  · simp [shouldStop, h0, h1]
  have g1 : ¬ ((decide (r.exc = env.systemExit) && r.ignoredCode) = true) := by
    simp only [Bool.and_eq_true, decide_eq_true_eq]; exact fun h => hi (.inl h)
  have g2 : ¬ r.exc ∈ env.controlFlow := fun h => hi (.inr (.inl h))
  have g3 : ¬ ignoreTrace r.trace = true := fun h => hi (.inr (.inr ((ignoreTrace_iff _).1 h)))
  have g4 : ¬ r.trace.isEmpty = true := by simpa using h0
  have key : (shouldStop env r prev).info =
      (if ((getBreakpoint env.sub env.fullName r.exc env.tables.userUncaught).filter
        (fun b => !excludeByFilter env b r.trace && !(b.hasCondition && !env.condition b r.frame))).isSome
       then userInfo env r prev prev else prev) := by
    simp only [shouldStop, h1, hp, if_neg g1, if_neg g2, if_neg g3]
    rw [checkLoop_user, checkLoop_caught]
    simp only [if_neg g4, Bool.false_eq_true, if_false]
    split <;> rename_i hq <;> simp only [Prod.mk.injEq] at hq <;> exact hq.2.symm
  rw [key]
  cases hu : getBreakpoint env.sub env.fullName r.exc env.tables.userUncaught with
  | none => simp
  | some b =>
    have e2 : (Option.filter (fun b => !excludeByFilter env b r.trace && !(b.hasCondition && !env.condition b r.frame))
        (some b)).isSome = (!excludeByFilter env b r.trace && !(b.hasCondition && !env.condition b r.frame)) := by
      simp only [Option.filter]
      split <;> simp_all
    rw [e2]
    simp only [userInfo]
    by_cases hl : leavesUserCode env r = true
    · simp only [hl, if_true]
      by_cases hc : (!excludeByFilter env b r.trace && !(b.hasCondition && !env.condition b r.frame)) = true
      · have hc' := hc
        simp only [Bool.and_eq_true, Bool.not_eq_true', Bool.and_eq_false_iff, Bool.not_eq_false'] at hc'
        rw [if_pos hc, if_pos]
        · cases prev <;> rfl
        · exact ⟨h1, h0, hi, trivial, b, rfl, hc'.1, fun hh => by
            rcases hc'.2 with h2 | h2
            · rw [hh] at h2; cases h2
            · exact h2⟩
      · rw [if_neg hc, if_neg]
        rintro ⟨_, _, _, _, b', hb', he, hcd⟩
        cases hb'
        apply hc
        rw [he]
        cases hv : b.hasCondition with
        | false => rfl
        | true => rw [hcd hv]; rfl
    · simp only [hl, Bool.false_eq_true, if_false, ite_self, false_and, and_false]

/-! ### C51: what the client's request sets up -/

/-- The last breakpoint set for a name by a list of additions. -/
theorem addNamed_other (imp : Import) (t : Tables) (n m : Name) (h u w i : Bool) (hnm : m ≠ n) :
    Py.Dict.get (addNamed imp t n h u w i).caught m = Py.Dict.get t.caught m ∧
    Py.Dict.get (addNamed imp t n h u w i).uncaught m = Py.Dict.get t.uncaught m ∧
    Py.Dict.get (addNamed imp t n h u w i).userUncaught m = Py.Dict.get t.userUncaught m := by
  unfold addNamed
  cases imp n with
  | none => simp
  | some c => cases h <;> cases u <;> cases w <;> simp [addBreak, mkBp, Py.Dict.get_set, hnm]

/-- Filters: after the request exactly the checked kinds break, on every exception, whatever was set before. -/
theorem c51_filters (imp : Import) (isPython : List Name → Bool) (base : Name) (c : Option Class) (ignoreLibs : Bool)
    (t : Tables) (r : Request) (ho : r.options = []) (hb : imp base = some c) :
    let b := mkBp base c r.filterRaised r.filterUncaught r.filterUser ignoreLibs
    (setExceptionBreakpoints imp isPython base ignoreLibs t r).caught = (if r.filterRaised then [(base, b)] else []) ∧
    (setExceptionBreakpoints imp isPython base ignoreLibs t r).uncaught = (if r.filterUncaught then [(base, b)] else []) ∧
    (setExceptionBreakpoints imp isPython base ignoreLibs t r).userUncaught = (if r.filterUser then [(base, b)] else []) := by
  simp only [setExceptionBreakpoints, ho, ne_eq, not_true_eq_false, if_false, addNamed, hb, removeAll]
  cases r.filterRaised <;> cases r.filterUncaught <;> cases r.filterUser <;>
    simp [addBreak, mkBp, Py.Dict.set]

/-- The (name, mode) pairs an options request is about, in order. -/
def wantedOf (isPython : List Name → Bool) (base : Name) (os : List ExcOption) : List (Name × BreakMode) :=
  os.flatMap (fun o => (optionNames isPython base o).map (·, o.mode))

theorem foldl_options (imp : Import) (isPython : List Name → Bool) (base : Name) (ignoreLibs : Bool)
    (os : List ExcOption) (t : Tables) :
    os.foldl (applyOption imp isPython base ignoreLibs) t =
      (wantedOf isPython base os).foldl
        (fun t w => addNamed imp t w.1 (w.2 = .always) (w.2 = .unhandled) (w.2 = .userUnhandled) ignoreLibs) t := by
  induction os generalizing t with
  | nil => rfl
  | cons o os ih =>
    rw [List.foldl_cons, ih]
    simp [wantedOf, List.foldl_append, applyOption, List.foldl_map]

theorem get_caught_foldl (imp : Import) (ignoreLibs : Bool) (ws : List (Name × BreakMode)) (t : Tables) (n : Name) :
    (Py.Dict.get (ws.foldl (fun t w => addNamed imp t w.1 (w.2 = .always) (w.2 = .unhandled) (w.2 = .userUnhandled)
        ignoreLibs) t).caught n).isSome = true ↔
      (Py.Dict.get t.caught n).isSome = true ∨ ((n, BreakMode.always) ∈ ws ∧ (imp n).isSome = true) := by
  induction ws generalizing t with
  | nil => simp
  | cons w ws ih =>
    rw [List.foldl_cons, ih]
    by_cases hn : n = w.1
    · subst hn
      unfold addNamed
      cases hi : imp w.1 with
      | none => simp
      | some c =>
        obtain ⟨wn, wm⟩ := w
        cases wm <;> simp [addBreak, mkBp, Py.Dict.get_set]
    · rw [(addNamed_other imp t w.1 n _ _ _ _ hn).1]
      have : (n, BreakMode.always) ∈ w :: ws ↔ (n, BreakMode.always) ∈ ws := by
        simp only [List.mem_cons, or_iff_right_iff_imp]
        rintro rfl; exact absurd rfl hn
      rw [this]

theorem get_uncaught_foldl (imp : Import) (ignoreLibs : Bool) (ws : List (Name × BreakMode)) (t : Tables) (n : Name) :
    (Py.Dict.get (ws.foldl (fun t w => addNamed imp t w.1 (w.2 = .always) (w.2 = .unhandled) (w.2 = .userUnhandled)
        ignoreLibs) t).uncaught n).isSome = true ↔
      (Py.Dict.get t.uncaught n).isSome = true ∨ ((n, BreakMode.unhandled) ∈ ws ∧ (imp n).isSome = true) := by
  induction ws generalizing t with
  | nil => simp
  | cons w ws ih =>
    rw [List.foldl_cons, ih]
    by_cases hn : n = w.1
    · subst hn
      unfold addNamed
      cases hi : imp w.1 with
      | none => simp
      | some c =>
        obtain ⟨wn, wm⟩ := w
        cases wm <;> simp [addBreak, mkBp, Py.Dict.get_set]
    · rw [(addNamed_other imp t w.1 n _ _ _ _ hn).2.1]
      have : (n, BreakMode.unhandled) ∈ w :: ws ↔ (n, BreakMode.unhandled) ∈ ws := by
        simp only [List.mem_cons, or_iff_right_iff_imp]
        rintro rfl; exact absurd rfl hn
      rw [this]

theorem get_user_foldl (imp : Import) (ignoreLibs : Bool) (ws : List (Name × BreakMode)) (t : Tables) (n : Name) :
    (Py.Dict.get (ws.foldl (fun t w => addNamed imp t w.1 (w.2 = .always) (w.2 = .unhandled) (w.2 = .userUnhandled)
        ignoreLibs) t).userUncaught n).isSome = true ↔
      (Py.Dict.get t.userUncaught n).isSome = true ∨ ((n, BreakMode.userUnhandled) ∈ ws ∧ (imp n).isSome = true) := by
  induction ws generalizing t with
  | nil => simp
  | cons w ws ih =>
    rw [List.foldl_cons, ih]
    by_cases hn : n = w.1
    · subst hn
      unfold addNamed
      cases hi : imp w.1 with
      | none => simp
      | some c =>
        obtain ⟨wn, wm⟩ := w
        cases wm <;> simp [addBreak, mkBp, Py.Dict.get_set]
    · rw [(addNamed_other imp t w.1 n _ _ _ _ hn).2.2]
      have : (n, BreakMode.userUnhandled) ∈ w :: ws ↔ (n, BreakMode.userUnhandled) ∈ ws := by
        simp only [List.mem_cons, or_iff_right_iff_imp]
        rintro rfl; exact absurd rfl hn
      rw [this]

/-- The option is about this name: the category alone stands for the base class, a longer path lists names. -/
def About (isPython : List Name → Bool) (base : Name) (o : ExcOption) (n : Name) : Prop :=
  (∃ p, o.path = [p] ∧ isPython p = true ∧ n = base) ∨
  (∃ p names, o.path = p :: names ∧ names ≠ [] ∧ isPython p = true ∧ ∃ l ∈ names, n ∈ l)

theorem mem_optionNames (isPython : List Name → Bool) (base : Name) (o : ExcOption) (n : Name) :
    n ∈ optionNames isPython base o ↔ About isPython base o n := by
  unfold optionNames About
  rcases h : o.path with _ | ⟨p, _ | ⟨q, rest⟩⟩
  · simp
  · by_cases hp : isPython p = true <;> simp [hp]
  · by_cases hp : isPython p = true
    · simp only [hp, if_true, List.mem_flatten, List.cons.injEq, reduceCtorEq, and_false, false_and, exists_false,
        false_or]
      constructor
      · rintro ⟨l, hl, hn⟩; exact ⟨p, q :: rest, ⟨rfl, rfl⟩, by simp, hp, l, hl, hn⟩
      · rintro ⟨_, _, ⟨rfl, rfl⟩, _, _, l, hl, hn⟩; exact ⟨l, hl, hn⟩
    · simp [hp]

/-- Options: after the request, and whatever was set before, a name breaks in a given way exactly when some
option asks for that mode for that name (and the name can be imported); `never` sets nothing. -/
theorem c51_options (imp : Import) (isPython : List Name → Bool) (base : Name) (ignoreLibs : Bool) (t : Tables)
    (r : Request) (ho : r.options ≠ []) (n : Name) :
    let t' := setExceptionBreakpoints imp isPython base ignoreLibs t r
    let asked (m : BreakMode) := (∃ o ∈ r.options, o.mode = m ∧ About isPython base o n) ∧ (imp n).isSome = true
    ((Py.Dict.get t'.caught n).isSome = true ↔ asked .always) ∧
    ((Py.Dict.get t'.uncaught n).isSome = true ↔ asked .unhandled) ∧
    ((Py.Dict.get t'.userUncaught n).isSome = true ↔ asked .userUnhandled) := by
  have hm : ∀ m, (n, m) ∈ wantedOf isPython base r.options ↔
      ∃ o ∈ r.options, o.mode = m ∧ About isPython base o n := by
    intro m
    simp only [← mem_optionNames, wantedOf, List.mem_flatMap, List.mem_map, Prod.mk.injEq]
    constructor
    · rintro ⟨o, ho, x, hx, rfl, rfl⟩; exact ⟨o, ho, rfl, hx⟩
    · rintro ⟨o, ho, rfl, hx⟩; exact ⟨o, ho, n, hx, rfl, rfl⟩
  simp only [setExceptionBreakpoints, ho, ne_eq, not_false_eq_true, if_true, foldl_options,
    get_caught_foldl, get_uncaught_foldl, get_user_foldl, hm, removeAll, Py.Dict.get_nil]
  simp

/-- Removing one exception breakpoint removes it from all three tables and touches no other name. -/
theorem c51_remove (t : Tables) (n m : Name) :
    Py.Dict.get (removeBreak t n).caught m = (if m = n then none else Py.Dict.get t.caught m) ∧
    Py.Dict.get (removeBreak t n).uncaught m = (if m = n then none else Py.Dict.get t.uncaught m) ∧
    Py.Dict.get (removeBreak t n).userUncaught m = (if m = n then none else Py.Dict.get t.userUncaught m) := by
  simp [removeBreak, Py.Dict.get_erase]

/-- Adding a breakpoint for a name again does not clear the kinds it no longer asks for: the stale one stays
active. -/
theorem c51_add_keeps_stale :
    let t1 := addBreak {} { qname := 1, type := some 1, handled := true }
    let t2 := addBreak t1 { qname := 1, type := some 1, unhandled := true }
    (Py.Dict.get t2.caught 1).isSome = true ∧ (Py.Dict.get t2.uncaught 1).isSome = true := by decide

/-! ### C52: unhandled exceptions -/

theorem userFrame_spec (env : Env) (b : Ebp) (tb : List TbEntry) (f : Option Frame) :
    userFrame env b tb f = ((tb.filter (fun e => !excludeByFilter env b [e])).getLast?.map (·.frame)).or f := by
  have hx : ∀ e tb, excludeByFilter env b (e :: tb) = excludeByFilter env b [e] := fun _ _ => rfl
  induction tb generalizing f with
  | nil => rfl
  | cons e tb ih =>
    rw [userFrame, ih, hx]
    by_cases h : excludeByFilter env b [e] = true
    · simp [h]
    · simp only [Bool.not_eq_true] at h
      simp only [h, Bool.false_eq_true, if_false, List.filter_cons, Bool.not_false, if_true]
      cases hl : (tb.filter (fun e => !excludeByFilter env b [e])) with
      | nil => simp
      | cons x xs =>
        rw [List.getLast?_cons_cons]
        cases h2 : (x :: xs).getLast? with
        | none => simp at h2
        | some y => simp

/-- The program stops on an unhandled exception exactly when an "uncaught" breakpoint matches, the exception is
neither a keyboard interrupt nor an ignored exit, and some frame of the traceback is not excluded; the frame
shown is the innermost such frame, and the condition, if any, holds there. -/
theorem c52_unhandled (env : Env) (ki exc : Class) (ignoredCode : Bool) (trace : List TbEntry) (f : Frame) :
    stopOnUnhandled env ki exc ignoredCode trace = some f ↔
      exc ≠ ki ∧ ¬ (exc = env.systemExit ∧ ignoredCode = true) ∧
      ∃ b, getBreakpoint env.sub env.fullName exc env.tables.uncaught = some b ∧
        (∃ pre e post, trace = pre ++ e :: post ∧ e.frame = f ∧ ¬ Excluded env b e.frame ∧
          ∀ x ∈ post, Excluded env b x.frame) ∧
        (b.hasCondition = true → env.condition b f = true) := by
  have hexc : ∀ b (e : TbEntry), excludeByFilter env b [e] = true ↔ Excluded env b e.frame :=
    fun b e => excludeByFilter_iff env b e []
  have hlast : ∀ b, (trace.filter (fun e => !excludeByFilter env b [e])).getLast?.map (·.frame) = some f ↔
      ∃ pre e post, trace = pre ++ e :: post ∧ e.frame = f ∧ ¬ Excluded env b e.frame ∧
          ∀ x ∈ post, Excluded env b x.frame := by
    intro b
    have : ∀ tb : List TbEntry, (tb.filter (fun e => !excludeByFilter env b [e])).getLast?.map (·.frame) = some f ↔
      ∃ pre e post, tb = pre ++ e :: post ∧ e.frame = f ∧ ¬ Excluded env b e.frame ∧
          ∀ x ∈ post, Excluded env b x.frame := by
      intro tb
      rw [← List.reverse_reverse tb]
      induction tb.reverse with
      | nil => simp
      | cons x xs ih =>
        rw [List.reverse_cons, List.filter_append]
        by_cases h : excludeByFilter env b [x] = true
        · have h' := (hexc b x).1 h
          have e1 : List.filter (fun e => !excludeByFilter env b [e]) [x] = [] := by simp [h]
          rw [e1, List.append_nil, ih]
          constructor
          · rintro ⟨pre, e, post, h1, h2, h3, h4⟩
            exact ⟨pre, e, post ++ [x], by rw [h1]; simp, h2, h3, fun y hy => by
              rcases List.mem_append.1 hy with hy | hy
              · exact h4 y hy
              · rw [List.mem_singleton.1 hy]; exact h'⟩
          · rintro ⟨pre, e, post, h1, h2, h3, h4⟩
            rcases List.eq_nil_or_concat post with hp | ⟨post', y, hp⟩
            · subst hp
              have := List.append_inj' h1 rfl
              simp only [List.cons.injEq, and_true] at this
              rw [← this.2] at h3
              exact absurd h' h3
            · subst hp
              rw [List.concat_eq_append] at h1 h4
              rw [← List.cons_append, ← List.append_assoc] at h1
              have := List.append_inj' h1 rfl
              exact ⟨pre, e, post', this.1, h2, h3, fun y hy => h4 y (by simp [hy])⟩
        · have h' : ¬ Excluded env b x.frame := fun hh => h ((hexc b x).2 hh)
          simp only [Bool.not_eq_true] at h
          have e1 : List.filter (fun e => !excludeByFilter env b [e]) [x] = [x] := by simp [h]
          rw [e1]
          simp only [List.getLast?_append, List.getLast?_singleton, Option.some_or, Option.map_some, Option.some.injEq]
          constructor
          · intro hf
            exact ⟨xs.reverse, x, [], rfl, hf, h', by simp⟩
          · rintro ⟨pre, e, post, h1, h2, h3, h4⟩
            rcases List.eq_nil_or_concat post with hp | ⟨post', y, hp⟩
            · subst hp
              have := List.append_inj' h1 rfl
              simp only [List.cons.injEq, and_true] at this
              rw [this.2]; exact h2
            · subst hp
              rw [List.concat_eq_append] at h1 h4
              rw [← List.cons_append, ← List.append_assoc] at h1
              have := List.append_inj' h1 rfl
              simp only [List.cons.injEq, and_true] at this
              exact absurd (h4 x (by simp [this.2])) h'
    exact this trace
  unfold stopOnUnhandled
  have hempty : env.tables.uncaught.isEmpty = true →
      getBreakpoint env.sub env.fullName exc env.tables.uncaught = none := by
    intro h
    rw [List.isEmpty_iff.1 h]; rfl
  have e0 : (if env.tables.uncaught.isEmpty = true then none
      else getBreakpoint env.sub env.fullName exc env.tables.uncaught) =
      getBreakpoint env.sub env.fullName exc env.tables.uncaught := by
    split
    · rename_i h; rw [hempty h]
    · rfl
  rw [e0]
  cases hb : getBreakpoint env.sub env.fullName exc env.tables.uncaught with
  | none => simp
  | some b =>
    simp only [Option.some.injEq, exists_eq_left', ← hlast b]
    by_cases ht : trace.isEmpty = true
    · rw [List.isEmpty_iff.1 ht]; simp
    by_cases hk : exc = ki
    · simp [hk]
    by_cases hs : (decide (exc = env.systemExit) && ignoredCode) = true
    · have hs' := hs
      simp only [Bool.and_eq_true, decide_eq_true_eq] at hs'
      simp [hs']
    simp only [if_neg ht, if_neg hk, if_neg hs]
    rw [userFrame_spec]
    simp only [Bool.and_eq_true, decide_eq_true_eq] at hs
    simp only [ne_eq, hk, not_false_eq_true, hs, true_and, Option.or_none]
    cases hu : (trace.filter (fun e => !excludeByFilter env b [e])).getLast?.map (·.frame) with
    | none => simp
    | some g =>
      simp only [Option.some.injEq]
      by_cases hc : (b.hasCondition && !env.condition b g) = true
      · rw [if_pos hc]
        simp only [Bool.and_eq_true, Bool.not_eq_true'] at hc
        simp only [reduceCtorEq, false_iff, not_and]
        rintro rfl
        simp [hc]
      · rw [if_neg hc]
        simp only [Bool.and_eq_true, Bool.not_eq_true', not_and, Bool.not_eq_false] at hc
        simp only [Option.some.injEq]
        constructor
        · rintro rfl; exact ⟨rfl, hc⟩
        · exact fun h => h.1

/-! ### The hypotheses are met -/

/-- classes 1 ⊂ 2 ⊂ 3 -/
def sampleSub (a b : Class) : Bool := a ≤ b
def sampleTable : Table := [(30, { qname := 30, type := some 3 }), (20, { qname := 20, type := some 2 }), (99, { qname := 99, type := none })]

example : getBreakpoint sampleSub (fun c => c) 1 sampleTable = some { qname := 20, type := some 2 } := by decide
example : ∀ a b c, sampleSub a b = true → sampleSub b c = true → sampleSub a c = true := by
  intro a b c h1 h2
  simp only [sampleSub, decide_eq_true_eq] at *
  exact Nat.le_trans h1 h2

def sampleEnv : Env where
  sub := sampleSub
  fullName := fun c => c
  tables := { caught := [(30, { qname := 30, type := some 3, handled := true })],
              uncaught := [(30, { qname := 30, type := some 3, unhandled := true, ignoreLibraries := true })] }
  systemExit := 7
  controlFlow := [8, 9]
  excludeFilters := false
  inProjectScope := fun f => f < 100
  excludedByFilter := fun _ => false
  filtered := fun f => f ≥ 100
  condition := fun _ _ => true
  skipSameContext := false

example : (shouldStop sampleEnv { exc := 1, trace := [⟨5, 10, false⟩, ⟨6, 11, false⟩], frame := 5, line := 10 } none).stop = true := by
  decide
example : Ignored sampleEnv { exc := 8, trace := [⟨5, 10, false⟩], frame := 5, line := 10 } := .inr (.inl (by decide))
example : stopOnUnhandled sampleEnv 50 1 false [⟨5, 10, false⟩, ⟨6, 11, false⟩, ⟨101, 12, false⟩] = some 6 := by decide

end Exceptions
