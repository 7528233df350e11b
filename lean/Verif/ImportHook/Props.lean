import Verif.ImportHook.Spec
/-!
C131: functions for modules are called once, right after the module is imported.
-/

namespace ImportHook

open Spec

/-- the state as it is waited for -/
def waitOf (s : St) : Wait := ⟨fun n => Py.Dict.get s.toPatch n, none⟩

structure Inv (s : St) : Prop where
  steps : Steps start s.log (waitOf s)
  hook : s.hooked = false → s.toPatch = []
  rem : s.hooked = false ↔ Ev.removed ∈ s.log
  ok : Py.Dict.Ok s.toPatch

theorem late_mono {a b : List Ev} (h : a <+: b) (hl : Late a) : Late b := by
  obtain ⟨x, n, f, hx, hr⟩ := hl
  exact ⟨x, n, f, hx.trans h, hr⟩

theorem restore_log (s : St) : s.log <+: (restore s).log := by
  unfold restore
  split
  · split
    · exact List.prefix_append _ _
    · exact List.prefix_refl _
  · exact List.prefix_refl _

mutual
theorem run_log (s : St) : (a : Act) → s.log <+: (run s a).log
  | .add n f => by rw [run]; exact List.prefix_append _ _
  | .imp n during ok onActivate => by
    have h1 := runs_log s during
    rw [run]
    dsimp only
    split
    · split
      · split
        · rename_i f _
          refine List.IsPrefix.trans ?_ (restore_log _)
          refine List.IsPrefix.trans ?_ (runs_log _ onActivate)
          exact h1.trans ((List.prefix_append _ _).trans (List.prefix_append _ _))
        · refine List.IsPrefix.trans ?_ (restore_log _)
          exact h1.trans (List.prefix_append _ _)
      · exact h1.trans (List.prefix_append _ _)
    · exact h1
theorem runs_log (s : St) : (as : List Act) → s.log <+: (runs s as).log
  | [] => by rw [runs]; exact List.prefix_refl _
  | a :: as => by rw [runs]; exact (run_log s a).trans (runs_log _ as)
end

theorem inv_restore {s : St} (h : Inv s) : Inv (restore s) := by
  unfold restore
  split
  · rename_i he
    split
    · refine ⟨.snoc h.steps (.removed _ rfl ?_), fun _ => he, ?_, h.ok⟩
      · intro n
        simp only [waitOf, he]
        rfl
      · simp
    · exact h
  · exact h

mutual
theorem inv_run (s : St) (h : Inv s) : (a : Act) → ¬ Late (run s a).log → Inv (run s a)
  | .add n f, hl => by
    rw [run] at hl ⊢
    have hh : s.hooked = true := by
      cases hs : s.hooked with
      | true => rfl
      | false => exact absurd ⟨s.log, n, f, List.prefix_refl _, h.rem.mp hs⟩ hl
    refine ⟨?_, ?_, ?_, Py.Dict.ok_set h.ok n f⟩
    · refine .snoc h.steps ?_
      have e : waitOf { s with toPatch := Py.Dict.set s.toPatch n f, log := s.log ++ [.added n f] } =
          ⟨fun m => if m = n then some f else (waitOf s).fns m, none⟩ := by
        simp only [waitOf, Py.Dict.get_set]
      rw [e]
      exact .added _ n f rfl
    · intro hf
      rw [hh] at hf
      cases hf
    · have : Ev.removed ∉ s.log := by
        intro hr
        rw [h.rem.mpr hr] at hh
        cases hh
      simp [hh, this]
  | .imp n during ok onActivate, hl => by
    rw [run] at hl ⊢
    dsimp only at hl ⊢
    cases ok with
    | false =>
      rw [if_neg (by decide)] at hl ⊢
      exact inv_runs s h during hl
    | true =>
      rw [if_pos rfl] at hl ⊢
      have plain : ∀ s1 : St, Inv s1 → Py.Dict.get s1.toPatch n = none → Inv { s1 with log := s1.log ++ [.imported n] } := by
        intro s1 h1 hg
        exact ⟨.snoc h1.steps (.plain _ n rfl hg), h1.hook, by simpa using h1.rem, h1.ok⟩
      by_cases hh : s.hooked = true
      · rw [if_pos hh] at hl ⊢
        cases hg : Py.Dict.get (runs s during).toPatch n with
        | none =>
          simp only [hg] at hl ⊢
          have h1 := inv_runs s h during (fun hx => hl (late_mono
            (List.IsPrefix.trans (by exact List.prefix_append _ _) (restore_log _)) hx))
          exact inv_restore (plain _ h1 hg)
        | some f =>
          simp only [hg] at hl ⊢
          have h1 := inv_runs s h during (fun hx => hl (late_mono
            (List.IsPrefix.trans (by exact (List.prefix_append _ _).trans (List.prefix_append _ _))
              ((runs_log _ onActivate).trans (restore_log _))) hx))
          refine inv_restore (inv_runs _ ?_ onActivate (fun hx => hl (late_mono (restore_log _) hx)))
          refine ⟨?_, ?_, ?_, Py.Dict.ok_erase h1.ok n⟩
          · refine .snoc (.snoc h1.steps (.first _ n f rfl hg)) ?_
            have e : waitOf ⟨(runs s during).hooked, Py.Dict.erase (runs s during).toPatch n,
                (runs s during).log ++ [.imported n] ++ [.called n f]⟩ =
                ⟨fun m => if m = n then none else (waitOf (runs s during)).fns m, none⟩ := by
              simp only [waitOf]
              congr 1
              funext m
              rw [Py.Dict.get_erase]
            rw [e]
            exact .called _ n f rfl
          · intro hf
            have := h1.hook hf
            rw [this] at hg
            cases hg
          · simpa using h1.rem
      · rw [if_neg hh] at hl ⊢
        have h1 := inv_runs s h during (fun hx => hl (late_mono (List.prefix_append _ _) hx))
        refine plain _ h1 ?_
        have hf : s.hooked = false := by cases hs : s.hooked with
          | true => exact absurd hs hh
          | false => rfl
        have hf1 : (runs s during).hooked = false := h1.rem.mpr ((runs_log s during).subset (h.rem.mp hf))
        rw [h1.hook hf1]
        rfl
theorem inv_runs (s : St) (h : Inv s) : (as : List Act) → ¬ Late (runs s as).log → Inv (runs s as)
  | [], _ => by rw [runs]; exact h
  | a :: as, hl => by
    rw [runs] at hl ⊢
    exact inv_runs _ (inv_run s h a (fun hx => hl (late_mono (runs_log _ as) hx))) as hl
end

theorem inv_start : Inv {} := ⟨.nil _, fun h => (by cases h), ⟨fun h => (by cases h), fun h => (by cases h)⟩, Py.Dict.ok_nil⟩

/-- C131. Whatever is imported and registered, with imports within imports: if modules are registered only while the hook is installed, what is
seen is as specified: the function of a module is called right after the first time the module is imported, and no other calls are made;
the hook is removed only if no module is waited for. -/
theorem c131_called (as : List Act) (h : ¬ Late (runs {} as).log) : ∃ w, Steps start (runs {} as).log w ∧ w.next = none :=
  ⟨_, (inv_runs {} inv_start as h).steps, rfl⟩

/-- the number of times something is seen -/
def count (l : List Ev) (p : Ev → Bool) : Nat := (l.filter p).length

theorem count_snoc (l : List Ev) (e : Ev) (p : Ev → Bool) : count (l ++ [e]) p = count l p + (if p e then 1 else 0) := by
  unfold count
  rw [List.filter_append, List.length_append]
  by_cases hp : p e
  · simp [hp]
  · simp [hp]

def isCall (n : Nat) : Ev → Bool | .called m _ => m == n | _ => false
def isAdd (n : Nat) : Ev → Bool | .added m _ => m == n | _ => false
def isImport (n : Nat) : Ev → Bool | .imported m => m == n | _ => false

/-- C131. Nothing is called more often than it was registered, nor than it was imported. -/
theorem c131_once {l : List Ev} {w : Wait} (h : Steps start l w) (n : Nat) :
    count l (isCall n) + (if (w.fns n).isSome then 1 else 0) + (if w.next.map (·.1) = some n then 1 else 0) ≤ count l (isAdd n) ∧
    count l (isCall n) + (if w.next.map (·.1) = some n then 1 else 0) ≤ count l (isImport n) := by
  induction h with
  | nil => simp [count, start]
  | snoc h hst ih =>
    rw [count_snoc, count_snoc, count_snoc]
    cases hst <;> simp only [isCall, isAdd, isImport, beq_iff_eq] at ih ⊢ <;> grind

/-- C131. A module that was registered and is then imported has had its function called: after a successful import nothing is waited for. -/
theorem c131_no_loss {w w' : Wait} {e : Ev} (n : Nat) (hst : Step w e w') (he : e = .imported n) : w'.fns n = none := by
  cases hst with
  | plain _ _ hf => cases he; exact hf
  | first _ _ _ _ => cases he; simp
  | _ => cases he

/-- C131. A successful import statement is seen as an import of its module before it returns, and a failing one only as what was done meanwhile. -/
theorem c131_statement (s : St) (n : Nat) (during on : List Act) :
    (∃ t, (run s (.imp n during true on)).log = (runs s during).log ++ Ev.imported n :: t) ∧
    (run s (.imp n during false on)) = runs s during := by
  constructor
  · rw [run]
    dsimp only
    rw [if_pos rfl]
    have key : ∀ s' : St, (runs s during).log ++ [Ev.imported n] <+: s'.log →
        ∃ t, s'.log = (runs s during).log ++ Ev.imported n :: t := by
      rintro s' ⟨t, ht⟩
      exact ⟨t, by rw [← ht]; simp⟩
    apply key
    split
    · split
      · refine List.IsPrefix.trans ?_ ((runs_log _ on).trans (restore_log _))
        exact List.prefix_append _ _
      · refine List.IsPrefix.trans ?_ (restore_log _)
        exact List.prefix_refl _
    · exact List.prefix_refl _
  · rw [run]
    rfl

mutual
/-- nothing is registered -/
def NoAdd : Act → Prop
  | .add _ _ => False
  | .imp _ during _ on => NoAdds during ∧ NoAdds on
def NoAdds : List Act → Prop
  | [] => True
  | a :: as => NoAdd a ∧ NoAdds as
end

/-- what is seen grows, by no registration -/
def Grows (s s' : St) : Prop := ∃ t, s'.log = s.log ++ t ∧ ∀ n f, Ev.added n f ∉ t

theorem Grows.refl (s : St) : Grows s s := ⟨[], by simp, by simp⟩

theorem Grows.trans {a b c : St} (h1 : Grows a b) (h2 : Grows b c) : Grows a c := by
  obtain ⟨t, ht, hn⟩ := h1
  obtain ⟨u, hu, hm⟩ := h2
  refine ⟨t ++ u, by rw [hu, ht]; simp, fun n f => ?_⟩
  rw [List.mem_append, not_or]
  exact ⟨hn n f, hm n f⟩

theorem grows_restore (s : St) : Grows s (restore s) := by
  unfold restore
  split
  · split
    · exact ⟨[.removed], rfl, by simp⟩
    · exact .refl s
  · exact .refl s

mutual
theorem grows_run (s : St) : (a : Act) → NoAdd a → Grows s (run s a)
  | .add n f, h => by rw [NoAdd] at h; exact h.elim
  | .imp n during ok on, h => by
    rw [NoAdd] at h
    have h1 := grows_runs s during h.1
    rw [run]
    dsimp only
    split
    · split
      · split
        · refine .trans h1 (.trans ?_ (.trans (grows_runs _ on h.2) (grows_restore _)))
          exact ⟨[.imported n, _], by simp; rfl, by simp⟩
        · refine .trans h1 (.trans ?_ (grows_restore _))
          exact ⟨[.imported n], rfl, by simp⟩
      · exact .trans h1 ⟨[.imported n], rfl, by simp⟩
    · exact h1
theorem grows_runs (s : St) : (as : List Act) → NoAdds as → Grows s (runs s as)
  | [], _ => by rw [runs]; exact .refl s
  | a :: as, h => by
    rw [NoAdds] at h
    rw [runs]
    exact .trans (grows_run s a h.1) (grows_runs _ as h.2)
end

theorem runs_append (s : St) (as bs : List Act) : runs s (as ++ bs) = runs (runs s as) bs := by
  induction as generalizing s with
  | nil => rw [List.nil_append, runs]
  | cons a as ih => rw [List.cons_append, runs, runs, ih]

theorem runs_adds (adds : List (Nat × Nat)) (s : St) :
    (runs s (adds.map fun x => .add x.1 x.2)).log = s.log ++ adds.map (fun x => Ev.added x.1 x.2) := by
  induction adds generalizing s with
  | nil => simp [runs]
  | cons x xs ih => rw [List.map_cons, runs, ih, run]; simp

/-- C131. The proviso is met if all modules are registered first, as the consoles do. -/
theorem c131_registered_first (adds : List (Nat × Nat)) (as : List Act) (h : NoAdds as) :
    ¬ Late (runs {} (adds.map (fun x => .add x.1 x.2) ++ as)).log := by
  rw [runs_append]
  obtain ⟨t, ht, hn⟩ := grows_runs (runs {} (adds.map fun x => .add x.1 x.2)) as h
  rw [ht, runs_adds]
  rintro ⟨a, n, f, ⟨u, hu⟩, hr⟩
  simp only [List.nil_append] at hu
  have hadd : Ev.removed ∉ adds.map (fun x => Ev.added x.1 x.2) := by simp
  rw [List.append_assoc, List.append_eq_append_iff] at hu
  rcases hu with ⟨c, hc, hc2⟩ | ⟨c, hc, hc2⟩
  · apply hadd
    rw [hc]
    exact List.mem_append_left _ hr
  · apply hn n f
    cases c with
    | nil =>
      rw [List.nil_append] at hc2
      rw [hc, List.append_nil] at hr
      exact absurd hr hadd
    | cons y c =>
      rw [hc2]
      simp

/-- C131. A module registered after an import statement that found nothing to wait for is never noticed: the hook is gone. -/
theorem c131_late_witness : (runs {} [.imp 1 [] true [], .add 2 7, .imp 2 [] true []]).log =
    [.imported 1, .removed, .added 2 7, .imported 2] := by
  simp [runs, run, restore, Py.Dict.get, Py.Dict.set]

/-! ### Examples -/

/-- matplotlib.pyplot (2) imports matplotlib (1) -/
example : (runs {} [.add 1 10, .add 2 20, .imp 2 [.imp 1 [.imp 5 [] true []] true [.imp 6 [] true []]] true [], .imp 1 [] true []]).log =
    [.added 1 10, .added 2 20, .imported 5, .imported 1, .called 1 10, .imported 6, .imported 2, .called 2 20, .removed, .imported 1] := by
  simp [runs, run, restore, Py.Dict.get, Py.Dict.set, Py.Dict.erase]

/-- an import that fails does not call the function; the next does -/
example : (runs {} [.add 1 10, .imp 1 [] false [], .imp 1 [] true []]).log = [.added 1 10, .imported 1, .called 1 10, .removed] := by
  simp [runs, run, restore, Py.Dict.get, Py.Dict.set, Py.Dict.erase]

end ImportHook
