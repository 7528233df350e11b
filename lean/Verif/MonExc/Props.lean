import Verif.Exceptions.Props
import Verif.MonExc.Model
/-!
C66: with `sys.monitoring`, an exception on its way out is reported where, and as often as, the client asked for.
-/

namespace MonExc
open Exceptions

/-! ### Specification -/

/-- The traceback after the exception went through these frames (innermost first): the outermost frame comes first, and a
frame that raised the exception again has several entries. -/
def traceOf : List Fr → List TbEntry → List TbEntry
  | [], tb => tb
  | f :: fs, tb => traceOf fs ((f.line :: f.again).reverse.map (entry f) ++ tb)

/-- The exception is used for control flow, is an exit that is not shown, or comes out of the import machinery. -/
def NotShown (c : Cfg) (exc : Exc) (tb : List TbEntry) : Prop :=
  (exc.cls = c.env.systemExit ∧ exc.ignoredCode = true) ∨ exc.cls ∈ c.env.controlFlow ∨ ∃ e ∈ tb, e.importing = true

/-- The line where the exception is now, or the one where it was raised, carries the ignore comment. -/
def LineIgnored (c : Cfg) (tb : List TbEntry) : Prop :=
  (∃ e, tb.head? = some e ∧ c.ignoreLine e = true) ∨ (∃ e, tb.getLast? = some e ∧ c.ignoreLine e = true)

/-- The exception leaves the user's code here: this frame is the user's, its caller is not (or there is none), and a "user
unhandled" breakpoint applies. -/
def LeavesUser (c : Cfg) (exc : Exc) (tb : List TbEntry) (f : Fr) (outer : List Fr) : Prop :=
  f.skip = false ∧ ¬ NotShown c exc tb ∧
  c.env.filtered f.frame = false ∧ (∀ g, outer.head? = some g → c.env.filtered g.frame = true) ∧
  ∃ b, getBreakpoint c.env.sub c.env.fullName exc.cls c.env.tables.userUncaught = some b ∧
    ¬ Excluded c.env b f.frame ∧ (b.hasCondition = true → c.env.condition b f.frame = true)

/-- A "raised" breakpoint applies to the exception in this frame, with this traceback. -/
def RaisedHere (c : Cfg) (exc : Exc) (tb : List TbEntry) (f : Fr) : Prop :=
  f.skip = false ∧ ¬ NotShown c exc tb ∧
  ∃ b, getBreakpoint c.env.sub c.env.fullName exc.cls c.env.tables.caught = some b ∧
    ¬ Excluded c.env b f.frame ∧ (b.hasCondition = true → c.env.condition b f.frame = true) ∧
    LocationOk b.firstRaiseOnly c.env.skipSameContext (tb.length - 1)

/-- The frames shown for stops of one kind, in order. -/
def stops (k : Kind) (os : List Out) : List Frame :=
  os.filterMap fun o => match o with
    | .stop k' f _ => if k' = k then some f else none
    | _ => none

theorem stops_append (k : Kind) (a b : List Out) : stops k (a ++ b) = stops k a ++ stops k b := by
  simp [stops]

theorem stops_nil (k : Kind) : stops k [] = [] := rfl

/-! ### The decisions at one event -/

theorem shouldStop_frame (env : Env) (r : Raise) (prev : Option ExcInfo) (hp : r.plugin = none) :
    (shouldStop env r prev).frame = r.frame := by
  simp only [shouldStop, hp]
  repeat' split
  all_goals rfl

theorem notShown_iff (c : Cfg) (exc : Exc) (line : Nat) (tb : List TbEntry) (f : Fr) (outer : List Fr) :
    Ignored c.env (mkRaise c exc line tb f outer) ↔ NotShown c exc tb := Iff.rfl

theorem getBreakpoint_nil (sub : Class → Class → Bool) (fn : Class → Name) (e : Class) : getBreakpoint sub fn e [] = none := by
  simp [getBreakpoint, Py.Dict.get, search]

open Classical in
theorem unwind_info (c : Cfg) (exc : Exc) (line : Nat) (e : TbEntry) (tb : List TbEntry) (f : Fr) (outer : List Fr)
    (hp : c.plugin = none) (he : e.frame = f.frame) (hs : f.skip = false) :
    (shouldStop c.env (mkRaise c exc line (e :: tb) f outer) none).info =
      if LeavesUser c exc (e :: tb) f outer then some ⟨exc.cls, line, [line]⟩ else none := by
  rw [c24_user_uncaught c.env _ none (by exact hp)]
  have hiff : ((mkRaise c exc line (e :: tb) f outer).suspended = false ∧ (mkRaise c exc line (e :: tb) f outer).trace ≠ [] ∧
      ¬ Ignored c.env (mkRaise c exc line (e :: tb) f outer) ∧ Exceptions.LeavesUserCode c.env (mkRaise c exc line (e :: tb) f outer) ∧
      (∃ b, getBreakpoint c.env.sub c.env.fullName exc.cls c.env.tables.userUncaught = some b ∧
        excludeByFilter c.env b (e :: tb) = false ∧ (b.hasCondition = true → c.env.condition b f.frame = true))) ↔
      LeavesUser c exc (e :: tb) f outer := by
    unfold LeavesUser LeavesUserCode
    rw [notShown_iff]
    have hb : (∀ b, (mkRaise c exc line (e :: tb) f outer).back = some b → c.env.filtered b = true) ↔
        ∀ g, outer.head? = some g → c.env.filtered g.frame = true := by
      cases outer <;> simp [mkRaise]
    have hx : ∀ b, excludeByFilter c.env b (e :: tb) = false ↔ ¬ Excluded c.env b f.frame := by
      intro b
      rw [← he, ← excludeByFilter_iff c.env b e tb]
      simp
    rw [hb]
    simp only [hx, hs]
    simp [mkRaise, and_assoc]
  have h2 := hiff
  simp only [mkRaise] at h2 ⊢
  by_cases h : LeavesUser c exc (e :: tb) f outer
  · rw [if_pos h, if_pos (h2.2 h)]
  · rw [if_neg h, if_neg (fun hh => h (h2.1 hh))]

theorem lineIgnored_iff (c : Cfg) (tb : List TbEntry) :
    ((tb.head?.map c.ignoreLine).getD false || (tb.getLast?.map c.ignoreLine).getD false) = true ↔ LineIgnored c tb := by
  unfold LineIgnored
  rw [Bool.or_eq_true]
  refine or_congr ?_ ?_
  · cases tb.head? <;> simp
  · cases tb.getLast? <;> simp

theorem stops_effects (c : Cfg) (a : Answer) (k : Kind) : stops k (effects c a) = [] := by
  unfold effects
  split
  · cases a.bp with
    | none => rfl
    | some b =>
      simp only
      split <;> rfl
  · rfl

open Classical in
theorem stops_handle (c : Cfg) (exc : Exc) (tb : List TbEntry) (f : Frame) (k k' : Kind) :
    stops k' (handleException c exc tb f k) = if k = k' ∧ ¬ LineIgnored c tb then [f] else [] := by
  unfold handleException
  by_cases h : LineIgnored c tb
  · rw [if_pos ((lineIgnored_iff c tb).2 h), if_neg (fun x => x.2 h)]; rfl
  · rw [if_neg (fun x => h ((lineIgnored_iff c tb).1 x))]
    by_cases hk : k = k'
    · rw [if_pos ⟨hk, h⟩]; simp [stops, hk]
    · rw [if_neg (fun x => hk x.1)]; simp [stops, hk]

theorem stops_unhandledEffects (c : Cfg) (exc : Exc) (tb : List TbEntry) (k : Kind) :
    stops k (unhandledEffects c exc tb) =
      if k = .unhandled then (stopOnUnhandled c.env c.keyboardInterrupt exc.cls exc.ignoredCode tb).toList else [] := by
  unfold unhandledEffects
  cases hb : getBreakpoint c.env.sub c.env.fullName exc.cls c.env.tables.uncaught with
  | none =>
    have : stopOnUnhandled c.env c.keyboardInterrupt exc.cls exc.ignoredCode tb = none := by
      unfold stopOnUnhandled
      rw [hb]; split <;> simp_all
    rw [this]; cases k <;> rfl
  | some b =>
    simp only
    cases hs : stopOnUnhandled c.env c.keyboardInterrupt exc.cls exc.ignoredCode tb with
    | some g =>
      simp only
      by_cases he : c.hasExpr b = true <;> cases k <;> simp [stops, he]
    | none =>
      have h0 : ∀ x : Option Frame, stops k (x.toList.map Out.added) = [] := by
        intro x; cases x <;> rfl
      simp only
      split
      · cases k <;> rfl
      · rw [h0]; cases k <;> rfl

open Classical in
/-- The unwind handler, for a frame that is not skipped. -/
theorem unwind_stops (c : Cfg) (l : Local) (exc : Exc) (line : Nat) (e : TbEntry) (tb : List TbEntry) (f : Fr) (outer : List Fr)
    (k : Kind) (hp : c.plugin = none) (he : e.frame = f.frame) :
    stops k (unwindEvent c l exc line (e :: tb) f outer).2 =
      if f.skip = true then []
      else if LeavesUser c exc (e :: tb) f outer then
        (if k = .userUnhandled ∧ ¬ LineIgnored c (e :: tb) then [f.frame] else [])
      else if c.env.tables.uncaught.isEmpty = false ∧ f.frame = (getUnhandled c l exc f outer).2 ∧ k = .unhandled then
        (stopOnUnhandled c.env c.keyboardInterrupt exc.cls exc.ignoredCode (e :: tb)).toList
      else [] := by
  unfold unwindEvent
  cases hs : f.skip with
  | true => simp [stops]
  | false =>
    simp only [Bool.false_eq_true, if_false]
    generalize ha : (if hasCaught c = true then shouldStop c.env (mkRaise c exc line (e :: tb) f outer) none
      else ({ stop := false, frame := f.frame, info := none } : Answer)) = a
    have hfr : a.frame = f.frame := by
      rw [← ha]; split
      · exact shouldStop_frame _ _ _ hp
      · rfl
    have hinfo : a.info = if LeavesUser c exc (e :: tb) f outer then some ⟨exc.cls, line, [line]⟩ else none := by
      rw [← ha]; split
      · exact unwind_info c exc line e tb f outer hp he hs
      · rename_i hc
        have hu : c.env.tables.userUncaught = [] := by
          simp only [hasCaught, Bool.or_eq_true, not_or, Bool.not_eq_true, Bool.not_eq_false'] at hc
          exact List.isEmpty_iff.1 hc.1.2
        rw [if_neg]
        rintro ⟨_, _, _, _, b, hb, _⟩
        rw [hu, getBreakpoint_nil] at hb
        exact nomatch hb
    rw [hinfo]
    by_cases hl : LeavesUser c exc (e :: tb) f outer
    · simp only [if_pos hl]
      have hun : TryExcept.isUnhandled f.infos line line [line] = true := by simp [TryExcept.isUnhandled]
      simp only [hun, if_true]
      rw [stops_append, stops_effects, stops_handle, hfr, List.nil_append]
      by_cases hk : k = .userUnhandled
      · subst hk; simp
      · rw [if_neg (fun x => hk x.1.symm), if_neg (fun x => hk x.1)]
    · simp only [if_neg hl, Bool.false_eq_true, if_false]
      cases hem : c.env.tables.uncaught.isEmpty with
      | true => simp [stops_effects]
      | false =>
        simp only [Bool.false_eq_true, if_false, true_and]
        by_cases hf : f.frame = (getUnhandled c l exc f outer).2
        · rw [hfr, if_pos hf, stops_append, stops_effects, List.nil_append, stops_unhandledEffects]
          by_cases hk : k = .unhandled
          · rw [if_pos hk, if_pos ⟨hf, hk⟩]
          · rw [if_neg hk, if_neg (fun x => hk x.2)]
        · rw [hfr, if_neg hf, if_neg (fun x => hf x.1)]
          exact stops_effects _ _ _

open Classical in
/-- The raise handler. -/
theorem raise_stops (c : Cfg) (l : Local) (exc : Exc) (line : Nat) (e : TbEntry) (tb : List TbEntry) (f : Fr) (outer : List Fr)
    (k : Kind) (hp : c.plugin = none) (he : e.frame = f.frame) :
    stops k (raiseEvent c l exc line (e :: tb) f outer).2 =
      if k = .handled ∧ RaisedHere c exc (e :: tb) f ∧ ¬ LineIgnored c (e :: tb) then [f.frame] else [] := by
  unfold raiseEvent
  cases hs : f.skip with
  | true =>
    rw [if_pos rfl, if_neg]
    · rfl
    · rintro ⟨_, ⟨h, _⟩, _⟩
      exact nomatch (hs.symm.trans h)
  | false =>
    simp only [Bool.false_eq_true, if_false]
    have hfr := shouldStop_frame c.env (mkRaise c exc line (e :: tb) f outer) l.userInfo hp
    have hst : (shouldStop c.env (mkRaise c exc line (e :: tb) f outer) l.userInfo).stop = true ↔ RaisedHere c exc (e :: tb) f := by
      rw [c24_stop_iff c.env _ l.userInfo hp, notShown_iff]
      unfold RaisedHere
      constructor
      · rintro ⟨_, h1, e', tb', b, ht, hb, hx, hc, hl⟩
        have : e' = e := by simp only [mkRaise] at ht; cases ht; rfl
        subst this
        rw [he] at hx
        exact ⟨hs, h1, b, hb, hx, hc, hl⟩
      · rintro ⟨_, h1, b, hb, hx, hc, hl⟩
        rw [← he] at hx
        exact ⟨rfl, h1, e, tb, b, rfl, hb, hx, hc, hl⟩
    rw [stops_append, stops_effects, List.nil_append]
    by_cases h : RaisedHere c exc (e :: tb) f
    · rw [if_pos (hst.2 h), stops_handle, hfr]
      by_cases hk : k = .handled
      · subst hk
        by_cases hi : LineIgnored c (e :: tb)
        · rw [if_neg (fun x => x.2 hi), if_neg (fun x => x.2.2 hi)]
        · rw [if_pos ⟨rfl, hi⟩, if_pos ⟨rfl, h, hi⟩]; rfl
      · rw [if_neg (fun x => hk x.1.symm), if_neg (fun x => hk x.1)]
    · rw [if_neg (fun x => h (hst.1 x)), if_neg (fun x => h x.2.1)]; rfl

/-! ### Travelling -/

theorem raises_trace (on : Bool) (c : Cfg) (exc : Exc) (f : Fr) (outer : List Fr) (ns : List Nat) : ∀ (l : Local) (tb : List TbEntry),
    (raises on c exc f outer l tb ns).2.1 = ns.reverse.map (entry f) ++ tb := by
  induction ns with
  | nil => intro l tb; rfl
  | cons n ns ih => intro l tb; simp [raises, ih]

theorem raises_unhandled (on : Bool) (c : Cfg) (exc : Exc) (f : Fr) (outer : List Fr) (ns : List Nat) : ∀ (l : Local) (tb : List TbEntry),
    (raises on c exc f outer l tb ns).1.unhandled = l.unhandled := by
  induction ns with
  | nil => intro l tb; rfl
  | cons n ns ih =>
    intro l tb
    simp only [raises, ih]
    cases on with
    | false => rfl
    | true =>
      simp only [if_true, raiseEvent]
      split <;> rfl

theorem raises_stops (on : Bool) (c : Cfg) (exc : Exc) (f : Fr) (outer : List Fr) (k : Kind) (hp : c.plugin = none) (hk : k ≠ .handled)
    (ns : List Nat) : ∀ (l : Local) (tb : List TbEntry), stops k (raises on c exc f outer l tb ns).2.2 = [] := by
  induction ns with
  | nil => intro l tb; rfl
  | cons n ns ih =>
    intro l tb
    simp only [raises, stops_append, ih]
    cases on with
    | false => rfl
    | true =>
      simp only [if_true]
      rw [raise_stops c l exc n (entry f n) tb f outer k hp rfl, if_neg (fun x => hk x.1)]; rfl

theorem traceOf_append (a b : List Fr) : ∀ tb, traceOf (a ++ b) tb = traceOf b (traceOf a tb) := by
  induction a with
  | nil => intro tb; rfl
  | cons f a ih => intro tb; simp [traceOf, ih]

theorem lines_head (f : Fr) (tb : List TbEntry) :
    ∃ t, (f.line :: f.again).reverse.map (entry f) ++ tb = entry f (lastLine f) :: t := by
  have h := List.dropLast_concat_getLast (l := f.line :: f.again) (by simp)
  refine ⟨(f.line :: f.again).dropLast.reverse.map (entry f) ++ tb, ?_⟩
  unfold lastLine
  conv => lhs; rw [← h]
  simp

theorem getBreakpoint_some_ne (sub : Class → Class → Bool) (fn : Class → Name) (e : Class) (t : Table) (b : Ebp)
    (h : getBreakpoint sub fn e t = some b) : t.isEmpty = false := by
  cases t with
  | nil => rw [getBreakpoint_nil] at h; exact nomatch h
  | cons _ _ => rfl

theorem leaves_on (c : Cfg) (exc : Exc) (tb : List TbEntry) (f : Fr) (outer : List Fr) (h : LeavesUser c exc tb f outer) : unwindOn c = true := by
  obtain ⟨_, _, _, _, b, hb, _⟩ := h
  have := getBreakpoint_some_ne _ _ _ _ _ hb
  simp [unwindOn, hasCaught, this]

open Classical in
theorem travelWith_user (ro uo : Bool) (c : Cfg) (exc : Exc) (hp : c.plugin = none) (huo : uo = false → unwindOn c = false)
    (stack : List Fr) : ∀ (l : Local) (tb : List TbEntry) (n : Nat) (g : Frame),
    g ∈ stops .userUnhandled (travelWith ro uo c exc l tb n stack).2 ↔
      ∃ inner f outer, stack = inner ++ f :: outer ∧ inner.length < n ∧ f.frame = g ∧
        LeavesUser c exc (traceOf (inner ++ [f]) tb) f outer ∧ ¬ LineIgnored c (traceOf (inner ++ [f]) tb) := by
  induction stack with
  | nil => intro l tb n g; simp [travelWith, stops]
  | cons f outer ih =>
    intro l tb n g
    cases n with
    | zero =>
      simp only [travelWith]
      rw [raises_stops ro c exc f outer _ hp (by simp)]
      simp
    | succ n =>
      simp only [travelWith]
      rw [stops_append, stops_append, raises_stops ro c exc f outer _ hp (by simp), List.nil_append, List.mem_append]
      rw [ih]
      obtain ⟨t, ht⟩ := lines_head f tb
      have htr := raises_trace ro c exc f outer (f.line :: f.again) l tb
      rw [htr]
      have hun : ∀ l', g ∈ stops .userUnhandled (if uo = true then
            unwindEvent c l' exc (lastLine f) (List.map (entry f) (f.line :: f.again).reverse ++ tb) f outer else (l', [])).2 ↔
          f.frame = g ∧ LeavesUser c exc (traceOf [f] tb) f outer ∧ ¬ LineIgnored c (traceOf [f] tb) := by
        intro l'
        have h1 : traceOf [f] tb = entry f (lastLine f) :: t := by rw [← ht]; rfl
        rw [h1, ht]
        cases hu : uo with
        | false =>
          simp only [Bool.false_eq_true, if_false, stops_nil, List.not_mem_nil, false_iff]
          rintro ⟨_, h, _⟩
          have := leaves_on _ _ _ _ _ h
          rw [huo hu] at this; exact nomatch this
        | true =>
          simp only [if_true]
          rw [unwind_stops c l' exc (lastLine f) (entry f (lastLine f)) t f outer _ hp rfl]
          by_cases hs : f.skip = true
          · rw [if_pos hs]
            simp only [List.not_mem_nil, false_iff]
            rintro ⟨_, ⟨h, _⟩, _⟩
            exact nomatch (hs.symm.trans h)
          · rw [if_neg hs]
            by_cases hl : LeavesUser c exc (entry f (lastLine f) :: t) f outer
            · rw [if_pos hl]
              by_cases hi : LineIgnored c (entry f (lastLine f) :: t)
              · simp [hi]
              · simp [hi, hl, eq_comm]
            · rw [if_neg hl, if_neg (by rintro ⟨_, _, h⟩; exact nomatch h)]
              simp [hl]
      rw [hun]
      constructor
      · rintro (⟨h1, h2, h3⟩ | ⟨inner, f', outer', h1, h2, h3, h4, h5⟩)
        · exact ⟨[], f, outer, rfl, by simp, h1, h2, h3⟩
        · refine ⟨f :: inner, f', outer', by rw [h1]; rfl, by simp; omega, h3, ?_, ?_⟩
          · exact h4
          · exact h5
      · rintro ⟨inner, f', outer', h1, h2, h3, h4, h5⟩
        cases inner with
        | nil =>
          simp only [List.nil_append, List.cons.injEq] at h1
          obtain ⟨rfl, rfl⟩ := h1
          exact .inl ⟨h3, h4, h5⟩
        | cons f0 inner =>
          simp only [List.cons_append, List.cons.injEq] at h1
          obtain ⟨rfl, h1⟩ := h1
          refine .inr ⟨inner, f', outer', h1, by simp at h2; omega, h3, ?_, ?_⟩
          · exact h4
          · exact h5

/-- An exception is reported as leaving the user's code exactly in those frames that it really leaves and that are the user's
with a caller that is not — whatever `try` statements the frame contains. -/
theorem c66_user_unhandled (c : Cfg) (exc : Exc) (l : Local) (n : Nat) (stack : List Fr) (hp : c.plugin = none) (g : Frame) :
    g ∈ stops .userUnhandled (travel c exc l n stack).2 ↔
      ∃ inner f outer, stack = inner ++ f :: outer ∧ inner.length < n ∧ f.frame = g ∧
        LeavesUser c exc (traceOf (inner ++ [f]) []) f outer ∧ ¬ LineIgnored c (traceOf (inner ++ [f]) []) :=
  travelWith_user _ _ c exc hp id stack l [] n g

theorem travelWith_user_sublist (ro uo : Bool) (c : Cfg) (exc : Exc) (hp : c.plugin = none)
    (stack : List Fr) : ∀ (l : Local) (tb : List TbEntry) (n : Nat),
    (stops .userUnhandled (travelWith ro uo c exc l tb n stack).2).Sublist (stack.map (·.frame)) := by
  induction stack with
  | nil => intro l tb n; simp [travelWith, stops]
  | cons f outer ih =>
    intro l tb n
    cases n with
    | zero =>
      simp only [travelWith]
      rw [raises_stops ro c exc f outer _ hp (by simp)]
      exact List.nil_sublist _
    | succ n =>
      simp only [travelWith]
      rw [stops_append, stops_append, raises_stops ro c exc f outer _ hp (by simp), List.nil_append, List.map_cons]
      refine List.Sublist.append (l₂ := [f.frame]) ?_ (ih _ _ _)
      rw [raises_trace]
      obtain ⟨t, ht⟩ := lines_head f tb
      rw [ht]
      cases uo with
      | false => exact List.nil_sublist _
      | true =>
        simp only [if_true]
        rw [unwind_stops c _ exc (lastLine f) (entry f (lastLine f)) t f outer _ hp rfl]
        repeat' split
        all_goals first | exact List.Sublist.refl _ | exact List.nil_sublist _ | (rename_i h; exact nomatch h.2.2)

/-- … and at most once in each. -/
theorem c66_user_unhandled_once (c : Cfg) (exc : Exc) (l : Local) (n : Nat) (stack : List Fr) (hp : c.plugin = none)
    (hn : (stack.map (·.frame)).Nodup) : (stops .userUnhandled (travel c exc l n stack).2).Nodup :=
  (travelWith_user_sublist _ _ c exc hp stack l [] n).nodup hn

/-! ### Raised exceptions -/

open Classical in
theorem raises_handled (on : Bool) (c : Cfg) (exc : Exc) (f : Fr) (outer : List Fr) (hp : c.plugin = none)
    (hon : on = false → raiseOn c = false) (ns : List Nat) : ∀ (l : Local) (tb : List TbEntry) (g : Frame),
    g ∈ stops .handled (raises on c exc f outer l tb ns).2.2 ↔
      f.frame = g ∧ ∃ pre m post, ns = pre ++ m :: post ∧
        RaisedHere c exc ((pre ++ [m]).reverse.map (entry f) ++ tb) f ∧ ¬ LineIgnored c ((pre ++ [m]).reverse.map (entry f) ++ tb) := by
  induction ns with
  | nil => intro l tb g; simp [raises, stops]
  | cons m ns ih =>
    intro l tb g
    simp only [raises, stops_append, List.mem_append]
    rw [ih]
    have h1 : g ∈ stops .handled (if on = true then raiseEvent c l exc m (entry f m :: tb) f outer else (l, [])).2 ↔
        f.frame = g ∧ RaisedHere c exc (entry f m :: tb) f ∧ ¬ LineIgnored c (entry f m :: tb) := by
      cases hon' : on with
      | false =>
        simp only [Bool.false_eq_true, if_false, stops_nil, List.not_mem_nil, false_iff]
        rintro ⟨_, ⟨_, _, b, hb, _⟩, _⟩
        have h2 := getBreakpoint_some_ne _ _ _ _ _ hb
        have h3 := hon hon'
        simp [raiseOn, hasCaught, h2] at h3
      | true =>
        simp only [if_true]
        rw [raise_stops c l exc m (entry f m) tb f outer _ hp rfl]
        by_cases hh : RaisedHere c exc (entry f m :: tb) f ∧ ¬ LineIgnored c (entry f m :: tb)
        · rw [if_pos ⟨rfl, hh⟩]; simp [hh, eq_comm]
        · rw [if_neg (fun x => hh x.2)]
          simp only [List.not_mem_nil, false_iff]
          exact fun x => hh x.2
    rw [h1]
    constructor
    · rintro (⟨h1, h2, h3⟩ | ⟨h1, pre, m', post, h2, h3, h4⟩)
      · exact ⟨h1, [], m, ns, rfl, h2, h3⟩
      · refine ⟨h1, m :: pre, m', post, by rw [h2]; rfl, ?_, ?_⟩
        · simpa using h3
        · simpa using h4
    · rintro ⟨h1, pre, m', post, h2, h3, h4⟩
      cases pre with
      | nil =>
        simp only [List.nil_append, List.cons.injEq] at h2
        obtain ⟨rfl, rfl⟩ := h2
        exact .inl ⟨h1, h3, h4⟩
      | cons m0 pre =>
        simp only [List.cons_append, List.cons.injEq] at h2
        obtain ⟨rfl, h2⟩ := h2
        refine .inr ⟨h1, pre, m', post, h2, ?_, ?_⟩
        · simpa using h3
        · simpa using h4

open Classical in
theorem travelWith_handled (ro uo : Bool) (c : Cfg) (exc : Exc) (hp : c.plugin = none) (hon : ro = false → raiseOn c = false)
    (stack : List Fr) : ∀ (l : Local) (tb : List TbEntry) (n : Nat) (g : Frame),
    g ∈ stops .handled (travelWith ro uo c exc l tb n stack).2 ↔
      ∃ inner f outer pre m post, stack = inner ++ f :: outer ∧ inner.length ≤ n ∧ f.frame = g ∧
        f.line :: f.again = pre ++ m :: post ∧
        RaisedHere c exc ((pre ++ [m]).reverse.map (entry f) ++ traceOf inner tb) f ∧
        ¬ LineIgnored c ((pre ++ [m]).reverse.map (entry f) ++ traceOf inner tb) := by
  induction stack with
  | nil => intro l tb n g; simp [travelWith, stops]
  | cons f outer ih =>
    intro l tb n g
    cases n with
    | zero =>
      simp only [travelWith]
      rw [raises_handled ro c exc f outer hp hon]
      constructor
      · rintro ⟨h1, pre, m, post, h2, h3⟩
        exact ⟨[], f, outer, pre, m, post, rfl, Nat.le_refl _, h1, h2, h3⟩
      · rintro ⟨inner, f', outer', pre, m, post, h1, h2, h3, h4, h5⟩
        have : inner = [] := List.length_eq_zero_iff.1 (by omega)
        subst this
        simp only [List.nil_append, List.cons.injEq] at h1
        obtain ⟨rfl, rfl⟩ := h1
        exact ⟨h3, pre, m, post, h4, h5⟩
    | succ n =>
      simp only [travelWith]
      rw [stops_append, stops_append, List.mem_append, List.mem_append, raises_handled ro c exc f outer hp hon, ih]
      rw [raises_trace]
      have hun : ∀ l', g ∉ stops .handled (if uo = true then
            unwindEvent c l' exc (lastLine f) (List.map (entry f) (f.line :: f.again).reverse ++ tb) f outer else (l', [])).2 := by
        intro l'
        obtain ⟨t, ht⟩ := lines_head f tb
        rw [ht]
        cases uo with
        | false => simp [stops]
        | true =>
          simp only [if_true]
          rw [unwind_stops c l' exc (lastLine f) (entry f (lastLine f)) t f outer _ hp rfl]
          simp
      simp only [hun, or_false]
      constructor
      · rintro (⟨h1, pre, m, post, h2, h3⟩ | ⟨inner, f', outer', pre, m, post, h1, h2, h3, h4, h5⟩)
        · exact ⟨[], f, outer, pre, m, post, rfl, by simp, h1, h2, h3⟩
        · exact ⟨f :: inner, f', outer', pre, m, post, by rw [h1]; rfl, by simp; omega, h3, h4, h5⟩
      · rintro ⟨inner, f', outer', pre, m, post, h1, h2, h3, h4, h5⟩
        cases inner with
        | nil =>
          simp only [List.nil_append, List.cons.injEq] at h1
          obtain ⟨rfl, rfl⟩ := h1
          exact .inl ⟨h3, pre, m, post, h4, h5⟩
        | cons f0 inner =>
          simp only [List.cons_append, List.cons.injEq] at h1
          obtain ⟨rfl, h1⟩ := h1
          exact .inr ⟨inner, f', outer', pre, m, post, h1, by simp at h2; omega, h3, h4, h5⟩

/-- An exception is reported as raised exactly in those frames it reaches, at each time it is raised there, where a "raised"
breakpoint applies — nothing the thread saw earlier matters. -/
theorem c66_raised (c : Cfg) (exc : Exc) (l : Local) (n : Nat) (stack : List Fr) (hp : c.plugin = none) (g : Frame) :
    g ∈ stops .handled (travel c exc l n stack).2 ↔
      ∃ inner f outer pre m post, stack = inner ++ f :: outer ∧ inner.length ≤ n ∧ f.frame = g ∧
        f.line :: f.again = pre ++ m :: post ∧
        RaisedHere c exc ((pre ++ [m]).reverse.map (entry f) ++ traceOf inner []) f ∧
        ¬ LineIgnored c ((pre ++ [m]).reverse.map (entry f) ++ traceOf inner []) :=
  travelWith_handled _ _ c exc hp id stack l [] n g

/-! ### Unhandled exceptions -/

theorem walk_last (boot : List Fr) (hb : ∀ g, boot.head? = some g → bootstrap g = true) (init : List Fr) (bottom : Fr) : ∀ (f : Fr),
    (∀ g ∈ init, bootstrap g = false) → bootstrap bottom = false → walk f (init ++ bottom :: boot) = bottom.frame := by
  induction init with
  | nil =>
    intro f _ hbot
    simp only [List.nil_append, walk, hbot, Bool.false_eq_true, if_false]
    cases boot with
    | nil => rfl
    | cons g gs => simp [walk, hb g rfl]
  | cons g init ih =>
    intro f hi hbot
    simp only [List.cons_append, walk, hi g (by simp), Bool.false_eq_true, if_false]
    exact ih g (fun x hx => hi x (by simp [hx])) hbot

/-- The thread does not remember another frame for this exception. -/
def Fresh (l : Local) (exc : Exc) (bottom : Frame) : Prop := ∀ r, l.unhandled = some (exc.id, r) → r = bottom

theorem getUnhandled_fresh (c : Cfg) (l : Local) (exc : Exc) (f : Fr) (outer : List Fr) (bottom : Frame) (h : Fresh l exc bottom)
    (hw : walk f outer = bottom) (hw' : ∀ h, c.handlerFrame = some h → walk h (f :: outer) = bottom) :
    (getUnhandled c l exc f outer).2 = bottom ∧ Fresh (getUnhandled c l exc f outer).1 exc bottom := by
  obtain ⟨r, hr, hc⟩ : ∃ r, r = bottom ∧ startWalk c f outer = r := by
    unfold startWalk
    cases hh : c.handlerFrame with
    | none => exact ⟨_, hw, rfl⟩
    | some x => exact ⟨_, hw' x hh, rfl⟩
  have hfr : ∀ l' : Local, Fresh { l' with unhandled := some (exc.id, r) } exc bottom := by
    intro l' q hq
    simp only [Option.some.injEq, Prod.mk.injEq, true_and] at hq
    rw [← hq, hr]
  simp only [getUnhandled, hc]
  cases hl : l.unhandled with
  | none => exact ⟨hr, hfr l⟩
  | some x =>
    obtain ⟨e, q⟩ := x
    simp only
    split
    · rename_i heq
      subst heq
      exact ⟨h q hl, h⟩
    · exact ⟨hr, hfr l⟩

theorem unwind_fresh (c : Cfg) (l : Local) (exc : Exc) (line : Nat) (tb : List TbEntry) (f : Fr) (outer : List Fr) (bottom : Frame)
    (h : Fresh l exc bottom) (h2 : Fresh (getUnhandled c l exc f outer).1 exc bottom) :
    Fresh (unwindEvent c l exc line tb f outer).1 exc bottom := by
  unfold unwindEvent
  simp only
  repeat' split
  all_goals first | exact h | exact h2

/-- Once the frame is remembered, it is what the handlers use. -/
theorem unwind_cached (c : Cfg) (l : Local) (exc : Exc) (f : Fr) (outer : List Fr) (r : Frame)
    (h : l.unhandled = some (exc.id, r)) : getUnhandled c l exc f outer = (l, r) := by
  simp [getUnhandled, h]

/-- No unhandled stop in the bootstrap frames, once the frame is remembered (or nothing is delivered there). -/
theorem travelWith_boot (ro uo : Bool) (c : Cfg) (exc : Exc) (hp : c.plugin = none) (stack : List Fr) :
    ∀ (l : Local) (tb : List TbEntry) (n : Nat),
    (c.env.tables.uncaught.isEmpty = true ∨ (∀ f ∈ stack, f.skip = true) ∨
      ∃ r, l.unhandled = some (exc.id, r) ∧ ∀ f ∈ stack, f.frame ≠ r) →
    stops .unhandled (travelWith ro uo c exc l tb n stack).2 = [] := by
  induction stack with
  | nil => intro l tb n _; simp [travelWith, stops]
  | cons f outer ih =>
    intro l tb n h
    cases n with
    | zero =>
      simp only [travelWith]
      exact raises_stops ro c exc f outer _ hp (by simp) _ _ _
    | succ n =>
      simp only [travelWith]
      rw [stops_append, stops_append, raises_stops ro c exc f outer _ hp (by simp), List.nil_append, raises_trace]
      obtain ⟨t, ht⟩ := lines_head f tb
      rw [ht]
      have hu := raises_unhandled ro c exc f outer (f.line :: f.again) l tb
      generalize (raises ro c exc f outer l tb (f.line :: f.again)).1 = l1 at hu ⊢
      have h1 : stops .unhandled (if uo = true then unwindEvent c l1 exc (lastLine f) (entry f (lastLine f) :: t) f outer
          else (l1, [])).2 = [] := by
        cases uo with
        | false => rfl
        | true =>
          simp only [if_true]
          rw [unwind_stops c l1 exc (lastLine f) (entry f (lastLine f)) t f outer _ hp rfl]
          split
          · rfl
          rename_i hs
          split
          · rw [if_neg (by rintro ⟨hk, _⟩; exact nomatch hk)]
          · rw [if_neg]
            rintro ⟨g1, g2, _⟩
            rcases h with h | h | ⟨r, h, hr⟩
            · rw [h] at g1; exact nomatch g1
            · exact hs (h f (by simp))
            · rw [unwind_cached c l1 exc f outer r (hu.trans h)] at g2
              exact hr f (by simp) g2
      rw [h1, List.nil_append]
      apply ih
      rcases h with h | h | ⟨r, h, hr⟩
      · exact .inl h
      · exact .inr (.inl (fun g hg => h g (by simp [hg])))
      · refine .inr (.inr ⟨r, ?_, fun g hg => hr g (by simp [hg])⟩)
        cases uo with
        | false => exact hu.trans h
        | true =>
          simp only [if_true]
          unfold unwindEvent
          simp only
          rw [unwind_cached c l1 exc f outer r (hu.trans h)]
          repeat' split
          all_goals exact hu.trans h

open Classical in
theorem travelWith_unhandled (ro uo : Bool) (c : Cfg) (exc : Exc) (hp : c.plugin = none) (huo : uo = false → unwindOn c = false)
    (bottom : Fr) (boot : List Fr) (hbot : bootstrap bottom = false) (hbs : bottom.skip = false)
    (hboot : ∀ g, boot.head? = some g → bootstrap g = true) (hne : ∀ g ∈ boot, g.frame ≠ bottom.frame) (init : List Fr) :
    ∀ (l : Local) (tb : List TbEntry) (n : Nat), (∀ g ∈ init, bootstrap g = false ∧ g.frame ≠ bottom.frame) →
    Fresh l exc bottom.frame →
    (LeavesUser c exc (traceOf (init ++ [bottom]) tb) bottom boot → ∀ g ∈ boot, g.skip = true) →
    stops .unhandled (travelWith ro uo c exc l tb n (init ++ bottom :: boot)).2 =
      if init.length < n ∧ ¬ LeavesUser c exc (traceOf (init ++ [bottom]) tb) bottom boot then
        (stopOnUnhandled c.env c.keyboardInterrupt exc.cls exc.ignoredCode (traceOf (init ++ [bottom]) tb)).toList
      else [] := by
  induction init with
  | nil =>
    intro l tb n _ hf hsk
    cases n with
    | zero =>
      simp only [travelWith, List.nil_append]
      rw [raises_stops ro c exc bottom boot _ hp (by simp)]
      simp
    | succ n =>
      simp only [travelWith, List.nil_append]
      rw [stops_append, stops_append, raises_stops ro c exc bottom boot _ hp (by simp), List.nil_append, raises_trace]
      have htr : traceOf [bottom] tb = List.map (entry bottom) (bottom.line :: bottom.again).reverse ++ tb := rfl
      rw [List.nil_append, htr] at hsk
      rw [htr]
      obtain ⟨t, ht⟩ := lines_head bottom tb
      rw [ht] at hsk ⊢
      have hu := raises_unhandled ro c exc bottom boot (bottom.line :: bottom.again) l tb
      generalize (raises ro c exc bottom boot l tb (bottom.line :: bottom.again)).1 = l1 at hu ⊢
      have hf1 : Fresh l1 exc bottom.frame := fun r hr => hf r (by rw [← hu]; exact hr)
      have hw : walk bottom boot = bottom.frame := by
        cases boot with
        | nil => rfl
        | cons g gs => simp [walk, hboot g rfl]
      obtain ⟨hg, _⟩ := getUnhandled_fresh c l1 exc bottom boot bottom.frame hf1 hw
        (fun h _ => walk_last boot hboot [] bottom h (by simp) hbot)
      have hmem : (getUnhandled c l1 exc bottom boot).1.unhandled = some (exc.id, bottom.frame) := by
        have : startWalk c bottom boot = bottom.frame := by
          unfold startWalk
          cases c.handlerFrame with
          | none => exact hw
          | some h => exact walk_last boot hboot [] bottom h (by simp) hbot
        simp only [getUnhandled, this]
        cases hl : l1.unhandled with
        | none => rfl
        | some x =>
          obtain ⟨e, q⟩ := x
          simp only
          split
          · rename_i heq; subst heq; rw [hl, hf1 q hl]
          · rfl
      have hnil : c.env.tables.uncaught.isEmpty = true → ∀ tb', stopOnUnhandled c.env c.keyboardInterrupt exc.cls exc.ignoredCode tb' = none := by
        intro h tb'; simp [stopOnUnhandled, h]
      have hrest : stops .unhandled (travelWith ro uo c exc (if uo = true then
          unwindEvent c l1 exc (lastLine bottom) (entry bottom (lastLine bottom) :: t) bottom boot else (l1, [])).1
          (entry bottom (lastLine bottom) :: t) n boot).2 = [] := by
        apply travelWith_boot ro uo c exc hp boot
        cases he : c.env.tables.uncaught.isEmpty with
        | true => exact .inl rfl
        | false =>
          by_cases hl : LeavesUser c exc (entry bottom (lastLine bottom) :: t) bottom boot
          · exact .inr (.inl (hsk hl))
          · refine .inr (.inr ⟨bottom.frame, ?_, hne⟩)
            have huo' : uo = true := by
              cases hh : uo with
              | true => rfl
              | false => have := huo hh; simp [unwindOn, he] at this
            subst huo'
            simp only [if_true]
            unfold unwindEvent
            rw [hbs]
            simp only [Bool.false_eq_true, if_false, he]
            have hinfo : (if hasCaught c = true then shouldStop c.env (mkRaise c exc (lastLine bottom)
                (entry bottom (lastLine bottom) :: t) bottom boot) none
                else ({ stop := false, frame := bottom.frame, info := none } : Answer)).info = none := by
              split
              · rw [unwind_info c exc (lastLine bottom) (entry bottom (lastLine bottom)) t bottom boot hp rfl hbs, if_neg hl]
              · rfl
            rw [hinfo]
            simp only [Bool.false_eq_true, if_false]
            repeat' split
            all_goals exact hmem
      rw [hrest, List.append_nil]
      cases hh : uo with
      | false =>
        simp only [Bool.false_eq_true, if_false, stops_nil]
        have := huo hh
        simp only [unwindOn, Bool.or_eq_false_iff, Bool.not_eq_false'] at this
        rw [hnil this.2]
        simp
      | true =>
        simp only [if_true]
        rw [unwind_stops c l1 exc (lastLine bottom) (entry bottom (lastLine bottom)) t bottom boot _ hp rfl, hbs, hg]
        by_cases hl : LeavesUser c exc (entry bottom (lastLine bottom) :: t) bottom boot
        · simp [hl]
        · cases he : c.env.tables.uncaught.isEmpty with
          | true => simp [hl, hnil he]
          | false => simp [hl]
  | cons f init ih =>
    intro l tb n hi hf hsk
    cases n with
    | zero =>
      simp only [travelWith, List.cons_append]
      rw [raises_stops ro c exc f _ _ hp (by simp)]
      simp
    | succ n =>
      simp only [travelWith, List.cons_append]
      rw [stops_append, stops_append, raises_stops ro c exc f _ _ hp (by simp), List.nil_append, raises_trace]
      have htr : traceOf (f :: (init ++ [bottom])) tb = traceOf (init ++ [bottom]) (List.map (entry f) (f.line :: f.again).reverse ++ tb) := rfl
      rw [htr]
      rw [List.cons_append, htr] at hsk
      obtain ⟨t, ht⟩ := lines_head f tb
      rw [ht] at hsk ⊢
      have hu := raises_unhandled ro c exc f (init ++ bottom :: boot) (f.line :: f.again) l tb
      generalize (raises ro c exc f (init ++ bottom :: boot) l tb (f.line :: f.again)).1 = l1 at hu ⊢
      have hf1 : Fresh l1 exc bottom.frame := fun r hr => hf r (by rw [← hu]; exact hr)
      have hib : ∀ g ∈ init, bootstrap g = false := fun g hg => (hi g (by simp [hg])).1
      obtain ⟨hg, hfr⟩ := getUnhandled_fresh c l1 exc f (init ++ bottom :: boot) bottom.frame hf1
        (walk_last boot hboot init bottom f hib hbot)
        (fun h _ => walk_last boot hboot (f :: init) bottom h (fun g hg => (hi g hg).1) hbot)
      have h1 : stops .unhandled (if uo = true then unwindEvent c l1 exc (lastLine f) (entry f (lastLine f) :: t) f (init ++ bottom :: boot)
          else (l1, [])).2 = [] := by
        cases uo with
        | false => rfl
        | true =>
          simp only [if_true]
          rw [unwind_stops c l1 exc (lastLine f) (entry f (lastLine f)) t f _ _ hp rfl]
          split
          · rfl
          split
          · rw [if_neg (by rintro ⟨hk, _⟩; exact nomatch hk)]
          · rw [if_neg]
            rintro ⟨_, g2, _⟩
            rw [hg] at g2
            exact (hi f (by simp)).2 g2
      rw [h1, List.nil_append, ih _ _ _ (fun g hg => hi g (by simp [hg])) ?_ hsk]
      · simp [Nat.succ_lt_succ_iff]
      · cases uo with
        | false => exact hf1
        | true => exact unwind_fresh c l1 exc _ _ f _ _ hf1 hfr

/-- A function that starts programs or threads: of `threading`, of the debugger, or one of `runpy` whose name starts with `run`
or `_run`. -/
def Starter (f : Fr) : Prop :=
  (f.file = "threading" ∧ f.func ∈ ["__bootstrap", "_bootstrap", "__bootstrap_inner", "_bootstrap_inner", "run"]) ∨
  (f.file = "pydev_monkey" ∧ f.func = "__call__") ∨
  (f.file = "pydevd" ∧ f.func ∈ ["_exec", "run", "main"]) ∨
  (f.file ∈ ["pydevd_runpy", "<frozen runpy>", "runpy"] ∧ ("run".toList <+: f.func.toList ∨ "_run".toList <+: f.func.toList))

theorem bootstrap_iff (f : Fr) : bootstrap f = true ↔ Starter f := by
  unfold bootstrap Starter
  have n1 : "pydev_monkey" ≠ "threading" := by decide
  have n2 : "pydevd" ≠ "threading" := by decide
  have n3 : "pydevd" ≠ "pydev_monkey" := by decide
  simp only [← List.isPrefixOf_iff_prefix]
  by_cases h1 : f.file = "threading"
  · simp [h1]
  · by_cases h2 : f.file = "pydev_monkey"
    · simp [h2]
    · by_cases h3 : f.file = "pydevd"
      · simp [h3]
      · by_cases h4 : f.file = "pydevd_runpy" <;> by_cases h5 : f.file = "<frozen runpy>" <;> by_cases h6 : f.file = "runpy" <;>
          simp [h1, h2, h3, h4, h5, h6]

instance (f : Fr) : Decidable (Starter f) := decidable_of_iff _ (bootstrap_iff f)

/-- A thread's stack, as the debugger sees it: the program's frames, of which `bottom` is the outermost, and then the frames
that started the program or the thread. No frame of the program looks like one that starts programs. -/
structure Stack (init : List Fr) (bottom : Fr) (boot : List Fr) : Prop where
  program : ∀ g ∈ init ++ [bottom], ¬ Starter g
  starts : ∀ g, boot.head? = some g → Starter g
  distinct : ((init ++ bottom :: boot).map (·.frame)).Nodup
  traced : bottom.skip = false

open Classical in
/-- An exception the program does not handle is reported once, when it leaves the outermost frame, unless it was just reported
there as leaving the user's code; an exception that is handled somewhere is not reported as unhandled. -/
theorem c66_unhandled (c : Cfg) (exc : Exc) (l : Local) (n : Nat) (init : List Fr) (bottom : Fr) (boot : List Fr)
    (hp : c.plugin = none) (hs : Stack init bottom boot) (hf : Fresh l exc bottom.frame)
    (hsk : LeavesUser c exc (traceOf (init ++ [bottom]) []) bottom boot → ∀ g ∈ boot, g.skip = true) :
    stops .unhandled (travel c exc l n (init ++ bottom :: boot)).2 =
      if init.length < n ∧ ¬ LeavesUser c exc (traceOf (init ++ [bottom]) []) bottom boot then
        (stopOnUnhandled c.env c.keyboardInterrupt exc.cls exc.ignoredCode (traceOf (init ++ [bottom]) [])).toList
      else [] := by
  have hd := hs.distinct
  rw [List.map_append, List.map_cons, List.nodup_append] at hd
  obtain ⟨_, hd1, hd2⟩ := hd
  refine travelWith_unhandled _ _ c exc hp id bottom boot
    (by rw [← Bool.not_eq_true, bootstrap_iff]; exact hs.program bottom (by simp)) hs.traced
    (fun g hg => (bootstrap_iff g).2 (hs.starts g hg)) ?_ init l [] n ?_ hf hsk
  · intro g hg he
    exact (List.nodup_cons.1 hd1).1 (he ▸ List.mem_map_of_mem hg)
  · intro g hg
    exact ⟨by rw [← Bool.not_eq_true, bootstrap_iff]; exact hs.program g (by simp [hg]), hd2 g.frame (List.mem_map_of_mem hg) bottom.frame (by simp)⟩

/-- The same with the conditions written out (C52): when it is reported, and in which frame it is shown. -/
theorem c66_unhandled_iff (c : Cfg) (exc : Exc) (l : Local) (n : Nat) (init : List Fr) (bottom : Fr) (boot : List Fr)
    (hp : c.plugin = none) (hs : Stack init bottom boot) (hf : Fresh l exc bottom.frame)
    (hsk : LeavesUser c exc (traceOf (init ++ [bottom]) []) bottom boot → ∀ g ∈ boot, g.skip = true) (g : Frame) :
    stops .unhandled (travel c exc l n (init ++ bottom :: boot)).2 = [g] ↔
      init.length < n ∧ ¬ LeavesUser c exc (traceOf (init ++ [bottom]) []) bottom boot ∧
      exc.cls ≠ c.keyboardInterrupt ∧ ¬ (exc.cls = c.env.systemExit ∧ exc.ignoredCode = true) ∧
      ∃ b, getBreakpoint c.env.sub c.env.fullName exc.cls c.env.tables.uncaught = some b ∧
        (∃ pre e post, traceOf (init ++ [bottom]) [] = pre ++ e :: post ∧ e.frame = g ∧ ¬ Excluded c.env b e.frame ∧
          ∀ x ∈ post, Excluded c.env b x.frame) ∧
        (b.hasCondition = true → c.env.condition b g = true) := by
  rw [c66_unhandled c exc l n init bottom boot hp hs hf hsk, ← c52_unhandled]
  constructor
  · intro h
    split at h
    · rename_i hc
      refine ⟨hc.1, hc.2, ?_⟩
      revert h
      cases stopOnUnhandled c.env c.keyboardInterrupt exc.cls exc.ignoredCode (traceOf (init ++ [bottom]) []) <;> simp
    · exact nomatch h
  · rintro ⟨h1, h2, h3⟩
    rw [if_pos ⟨h1, h2⟩, h3]; rfl

/-! ### The events asked for are enough -/

theorem shouldStop_nothing (c : Cfg) (h : hasCaught c = false) (exc : Exc) (line : Nat) (tb : List TbEntry) (f : Fr) (outer : List Fr)
    (prev : Option ExcInfo) : shouldStop c.env (mkRaise c exc line tb f outer) prev = ⟨false, f.frame, prev, none⟩ := by
  simp only [hasCaught, Bool.or_eq_false_iff, Bool.not_eq_false', List.isEmpty_iff, Option.isSome_eq_false_iff, Option.isNone_iff_eq_none] at h
  obtain ⟨⟨h1, h2⟩, h3⟩ := h
  simp only [shouldStop, mkRaise, h1, h2, h3, getBreakpoint_nil]
  repeat' split
  all_goals simp_all [checkLoop]

theorem raises_on (c : Cfg) (exc : Exc) (f : Fr) (outer : List Fr) (ns : List Nat) : ∀ (l : Local) (tb : List TbEntry),
    raises (raiseOn c) c exc f outer l tb ns = raises true c exc f outer l tb ns := by
  cases h : raiseOn c with
  | true => intros; rfl
  | false =>
    induction ns with
    | nil => intros; rfl
    | cons n ns ih =>
      intro l tb
      have : raiseEvent c l exc n (entry f n :: tb) f outer = (l, []) := by
        unfold raiseEvent
        split
        · rfl
        · simp only [shouldStop_nothing c h]
          simp [effects]
      simp only [raises, this, ih]
      rfl

/-- Asking only for these events loses nothing: with every raise and unwind delivered the debugger would do exactly the
same. -/
theorem c66_events_enough (c : Cfg) (exc : Exc) (l : Local) (n : Nat) (stack : List Fr) :
    travel c exc l n stack = travelWith true true c exc l [] n stack := by
  unfold travel
  generalize [] = tb
  induction stack generalizing l tb n with
  | nil => simp [travelWith]
  | cons f outer ih =>
    cases n with
    | zero => simp only [travelWith, raises_on]
    | succ n =>
      simp only [travelWith, raises_on, ih]
      cases h : unwindOn c with
      | true => rfl
      | false =>
        simp only [unwindOn, Bool.or_eq_false_iff, Bool.not_eq_false'] at h
        have : ∀ l' tb', unwindEvent c l' exc (lastLine f) tb' f outer = (l', []) := by
          intro l' tb'
          unfold unwindEvent
          split
          · rfl
          · simp [h.1, h.2, effects]
        simp [this]

/-! ### What the debugger leaves behind -/

/-- Is `__exception__` among the variables of the frame afterwards? -/
def present (f : Frame) : List Out → Bool → Bool
  | [], b => b
  | .added g :: os, b => present f os (if g = f then true else b)
  | .removed g :: os, b => present f os (if g = f then false else b)
  | _ :: os, b => present f os b

theorem present_append (f : Frame) (a b : List Out) : ∀ x, present f (a ++ b) x = present f b (present f a x) := by
  induction a with
  | nil => intro x; rfl
  | cons o a ih => intro x; cases o <;> simp [present, ih]

theorem present_clean (f : Frame) (os : List Out) (h : .added f ∉ os) : present f os false = false := by
  induction os with
  | nil => rfl
  | cons o os ih =>
    have h2 : .added f ∉ os := fun hh => h (List.mem_cons_of_mem _ hh)
    cases o with
    | added g =>
      have : g ≠ f := fun hh => h (hh ▸ List.mem_cons_self)
      simp [present, this, ih h2]
    | removed g => simp [present, ih h2]
    | stop => simp [present, ih h2]
    | expr => simp [present, ih h2]

theorem raises_clean (on : Bool) (c : Cfg) (exc : Exc) (f : Fr) (outer : List Fr) (g : Frame) (hp : c.plugin = none) (ns : List Nat) :
    ∀ (l : Local) (tb : List TbEntry), present g (raises on c exc f outer l tb ns).2.2 false = false := by
  induction ns with
  | nil => intro l tb; rfl
  | cons n ns ih =>
    intro l tb
    simp only [raises, present_append]
    have : present g (if on = true then raiseEvent c l exc n (entry f n :: tb) f outer else (l, [])).2 false = false := by
      cases on with
      | false => rfl
      | true =>
        simp only [if_true]
        unfold raiseEvent
        split
        · rfl
        · simp only
          have hfr := shouldStop_frame c.env (mkRaise c exc n (entry f n :: tb) f outer) l.userInfo hp
          generalize shouldStop c.env (mkRaise c exc n (entry f n :: tb) f outer) l.userInfo = a at hfr ⊢
          cases hs : a.stop with
          | false => simp [effects, hs, present]
          | true =>
            have hh : ∀ b, present g (handleException c exc (entry f n :: tb) a.frame .handled) b = if a.frame = g then false else b := by
              intro b
              unfold handleException
              split <;> simp [present]
            rw [present_append]
            simp only [if_true, hh]
            split
            · rfl
            · rename_i hne
              apply present_clean
              unfold effects
              rw [hs]
              cases a.bp with
              | none => simp; exact fun h => hne h.symm
              | some b =>
                simp only [if_true]
                split <;> simp <;> exact fun h => hne h.symm
    rw [this]
    exact ih _ _

theorem userFrame_mem (env : Env) (b : Ebp) (tb : List TbEntry) (g : Frame) (h : userFrame env b tb none = some g) :
    ∃ e ∈ tb, e.frame = g := by
  rw [userFrame_spec] at h
  simp only [Option.or_none, Option.map_eq_some_iff] at h
  obtain ⟨e, he, rfl⟩ := h
  exact ⟨e, (List.mem_filter.1 (List.mem_of_getLast? he)).1, rfl⟩

theorem unwind_added (c : Cfg) (l : Local) (exc : Exc) (line : Nat) (tb : List TbEntry) (f : Fr) (outer : List Fr) (g : Frame)
    (hp : c.plugin = none) (hf : f.frame ≠ g) (htb : ∀ e ∈ tb, e.frame ≠ g) : .added g ∉ (unwindEvent c l exc line tb f outer).2 := by
  have h1 : ∀ a : Answer, a.frame = f.frame → .added g ∉ effects c a := by
    intro a ha
    unfold effects
    rw [ha]
    split
    · have : Out.added g ≠ .added f.frame := fun h => hf (by cases h; rfl)
      cases a.bp with
      | none => simp [this]
      | some b =>
        simp only
        split <;> simp <;> exact fun h => hf h.symm
    · simp
  have h2 : ∀ x, .added g ∉ handleException c exc tb x .userUnhandled := by
    intro x; unfold handleException; split <;> simp
  have h3 : .added g ∉ unhandledEffects c exc tb := by
    unfold unhandledEffects
    cases hb : getBreakpoint c.env.sub c.env.fullName exc.cls c.env.tables.uncaught with
    | none => simp
    | some b =>
      simp only
      cases hs : stopOnUnhandled c.env c.keyboardInterrupt exc.cls exc.ignoredCode tb with
      | some q =>
        obtain ⟨_, _, b', _, ⟨pre, e, post, ht, he, _⟩, _⟩ := (c52_unhandled _ _ _ _ _ _).1 hs
        have : q ≠ g := by rw [← he]; exact htb e (by rw [ht]; simp)
        simp only
        split <;> simp <;> exact fun h => this h.symm
      | none =>
        simp only
        split
        · simp
        · cases hu : userFrame c.env b tb none with
          | none => simp
          | some q =>
            obtain ⟨e, he, rfl⟩ := userFrame_mem _ _ _ _ hu
            simp; exact fun h => htb e he h.symm
  unfold unwindEvent
  split
  · simp
  · simp only
    have hfr : (if hasCaught c = true then shouldStop c.env (mkRaise c exc line tb f outer) none
        else ({ stop := false, frame := f.frame, info := none } : Answer)).frame = f.frame := by
      split
      · exact shouldStop_frame _ _ _ hp
      · rfl
    generalize (if hasCaught c = true then shouldStop c.env (mkRaise c exc line tb f outer) none
        else ({ stop := false, frame := f.frame, info := none } : Answer)) = a at hfr ⊢
    have h1a := h1 a hfr
    repeat' split
    all_goals simp only [List.mem_append, not_or]
    all_goals first | exact ⟨h1a, h2 _⟩ | exact ⟨h1a, h3⟩ | exact h1a

/-- The frame that handles the exception goes on without the `__exception__` variable the debugger showed in it. -/
theorem c66_entry_removed (c : Cfg) (exc : Exc) (l : Local) (inner : List Fr) (h : Fr) (outer : List Fr) (hp : c.plugin = none)
    (hn : ∀ f ∈ inner, f.frame ≠ h.frame) :
    present h.frame (travel c exc l inner.length (inner ++ h :: outer)).2 false = false := by
  unfold travel
  have htb : ∀ e ∈ ([] : List TbEntry), e.frame ≠ h.frame := by simp
  generalize ([] : List TbEntry) = tb at htb ⊢
  induction inner generalizing l tb with
  | nil =>
    simp only [List.nil_append, List.length_nil, travelWith]
    exact raises_clean _ c exc h outer _ hp _ _ _
  | cons f inner ih =>
    simp only [List.cons_append, List.length_cons, travelWith]
    have hf : f.frame ≠ h.frame := hn f (by simp)
    have htb' : ∀ e ∈ List.map (entry f) (f.line :: f.again).reverse ++ tb, e.frame ≠ h.frame := by
      intro e he
      rcases List.mem_append.1 he with he | he
      · obtain ⟨m, _, rfl⟩ := List.mem_map.1 he
        exact hf
      · exact htb e he
    rw [raises_trace, present_append, present_append, raises_clean _ c exc f _ _ hp]
    have : ∀ l', present h.frame (if unwindOn c = true then unwindEvent c l' exc (lastLine f)
        (List.map (entry f) (f.line :: f.again).reverse ++ tb) f (inner ++ h :: outer) else (l', [])).2 false = false := by
      intro l'
      split
      · exact present_clean _ _ (unwind_added c l' exc _ _ f _ _ hp hf htb')
      · rfl
    rw [this]
    exact ih _ (fun g hg => hn g (by simp [hg])) _ htb'

/-! ### Examples and what goes wrong -/

namespace Ex

/-- Class 1 is an exception; frames below 10 are the user's, the others are not. -/
def env (caught user uncaught : Bool) : Env where
  sub a b := a = b
  fullName e := e
  tables :=
    { caught := if caught then [(1, { qname := 1, type := some 1 })] else []
      userUncaught := if user then [(1, { qname := 1, type := some 1 })] else []
      uncaught := if uncaught then [(1, { qname := 1, type := some 1 })] else [] }
  systemExit := 100
  controlFlow := [101]
  excludeFilters := true
  inProjectScope f := f < 10
  excludedByFilter f := 10 ≤ f
  filtered f := 10 ≤ f
  condition _ _ := true
  skipSameContext := false

def cfg (caught user uncaught : Bool) : Cfg where
  env := env caught user uncaught
  keyboardInterrupt := 102
  ignoreLine _ := false
  hasExpr _ := true

def main_ : Fr := { frame := 0, file := "prog", func := "<module>", line := 3 }
def lib : Fr := { frame := 10, file := "lib", func := "call", line := 7 }
def callback : Fr := { frame := 2, file := "prog", func := "cb", line := 9, again := [11] }
def runpy : Fr := { frame := 20, file := "runpy", func := "_run_code", line := 1 }
def runpy2 : Fr := { frame := 21, file := "runpy", func := "_run_module_as_main", line := 1 }

/-- The program runs until the end of the stack: `main_` calls a library, which calls back. -/
def stack : List Fr := [callback, lib, main_, runpy, runpy2]

theorem c66_example : Stack [callback, lib] main_ [runpy, runpy2] ∧ Fresh {} ⟨1, 1, false⟩ main_.frame := by
  refine ⟨⟨by decide +kernel, ?_, by decide +kernel, rfl⟩, fun r h => nomatch h⟩
  intro g hg
  cases hg; decide +kernel

/-- Not handled: reported as leaving the user's code in the callback, and as unhandled (shown in the callback). -/
theorem c66_example_unhandled :
    stops .unhandled (travel (cfg false false true) ⟨1, 1, false⟩ {} 5 stack).2 = [2] ∧
    stops .userUnhandled (travel (cfg false true false) ⟨1, 1, false⟩ {} 5 stack).2 = [2, 0] ∧
    stops .handled (travel (cfg true false false) ⟨1, 1, false⟩ {} 5 stack).2 = [2, 2, 0] := by decide +kernel

/-- Handled by the library: only the callback is left. -/
theorem c66_example_handled :
    stops .unhandled (travel (cfg true true true) ⟨1, 1, false⟩ {} 1 stack).2 = [] ∧
    stops .userUnhandled (travel (cfg true true true) ⟨1, 1, false⟩ {} 1 stack).2 = [2] ∧
    stops .userUnhandled (travel (cfg true true true) ⟨1, 1, false⟩ {} 0 stack).2 = [] := by decide +kernel

/-- A program that runs another one with `runpy` and handles its exceptions: the exception is reported as unhandled
although it is handled. (`program` in `Stack` does not hold here.) -/
theorem c66_runpy_witness :
    let inner : Fr := { frame := 1, file := "other", func := "<module>", line := 5 }
    stops .unhandled (travel (cfg false false true) ⟨1, 1, false⟩ {} 2 [inner, runpy, main_]).2 = [1] := by decide +kernel

/-- The user's own script is called `runpy.py` and the exception leaves a function `run_all` of it. In the pure Python build
the exception is not reported at all; in the compiled build it is. -/
theorem c66_pure_build_witness :
    let run : Fr := { frame := 1, file := "runpy", func := "run_all", line := 5 }
    let handler : Fr := { frame := 99, file := "_pydevd_sys_monitoring", func := "_unwind_event", line := 1 }
    let mod : Fr := { frame := 0, file := "runpy", func := "<module>", line := 9 }
    stops .unhandled (travel { cfg false false true with handlerFrame := some handler } ⟨1, 1, false⟩ {} 2 [run, mod]).2 = [] ∧
    stops .unhandled (travel (cfg false false true) ⟨1, 1, false⟩ {} 2 [run, mod]).2 = [1] := by decide +kernel

/-- Both "user unhandled" and "unhandled" are on and the exception is raised in the module itself, run by the `runpy` module:
it is reported twice (compiled build), since the frame is not remembered when the first report is made. -/
theorem c66_twice_witness :
    stops .userUnhandled (travel (cfg false true true) ⟨1, 1, false⟩ {} 3 [main_, runpy, runpy2]).2 = [0] ∧
    stops .unhandled (travel (cfg false true true) ⟨1, 1, false⟩ {} 3 [main_, runpy, runpy2]).2 = [0] := by decide +kernel

/-- The same exception object is raised again in a callback that has no caller (a thread not made by Python), after the frame
of an earlier callback was remembered: not reported. (`Fresh` does not hold here.) -/
theorem c66_stale_witness :
    let cb1 : Fr := { frame := 1, file := "prog", func := "cb", line := 5 }
    let cb2 : Fr := { frame := 2, file := "prog", func := "cb", line := 5 }
    let l := (travel (cfg false false true) ⟨1, 1, false⟩ {} 1 [cb1]).1
    stops .unhandled (travel (cfg false false true) ⟨1, 1, false⟩ {} 1 [cb1]).2 = [1] ∧
    stops .unhandled (travel (cfg false false true) ⟨1, 1, false⟩ l 1 [cb2]).2 = [] := by decide +kernel

/-- While an exception leaves a frame, a "raised" breakpoint's expression is evaluated again although nothing stops, and
`__exception__` stays in the variables of the frame (for a module: in its globals). -/
theorem c66_expression_again_witness :
    let os := (travel (cfg true false false) ⟨1, 1, false⟩ {} 1 [main_]).2
    os.count (.expr 0) = 2 ∧ stops .handled os = [0] ∧ present 0 os false = true := by decide +kernel

end Ex

end MonExc
