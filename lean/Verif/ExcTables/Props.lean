import Verif.ExcTables.Model
/-!
C119: after any exception breakpoint commands, exceptions break as the commands say, and the events for it are on.
-/

namespace ExcTables
open Exceptions Py

/-! ### Specification -/

/-- A breakpoint on an exception for a setting of all exceptions: it breaks when the exception is handled, unhandled, or unhandled by the user's code, as asked,
and only where the exception is raised. -/
def asked (n : Name) (handled unhandled user noLibraries : Bool) (cls : Option Class) : Ebp :=
  ⟨n, cls, false, handled, unhandled, user, true, noLibraries⟩

/-- What the commands (newest first) ask for a Python exception. -/
def want (imp : Import) (n : Name) : List Cmd → Option Ebp
  | [] => none
  | .add b :: rest => if b.qname = n ∧ imp n ≠ none then some b else want imp n rest
  | .remove m :: rest => if m = n then none else want imp n rest
  | .removeAll :: _ => none
  | .setJson r :: _ => if n ∈ r.names then (imp n).map (asked n r.caught r.uncaught r.user r.ignoreLibs) else none
  | .setText r :: _ => if n ∈ r.names then (imp n).map (asked n r.caught r.uncaught false r.ignoreLibs) else none
  | .addPlugin _ _ :: rest | .removePlugin _ _ :: rest | .addLine _ :: rest | .run :: rest => want imp n rest

/-- What they ask for an exception in templates. -/
def wantPlugin (p : Plugin) (n : Name) : List Cmd → Bool
  | [] => false
  | .addPlugin q m :: rest => if q = p ∧ m = n then true else wantPlugin p n rest
  | .removePlugin q m :: rest => if q = p ∧ m = n then false else wantPlugin p n rest
  | .removeAll :: _ => false
  | .add _ :: rest | .remove _ :: rest | .setJson _ :: rest | .setText _ :: rest | .addLine _ :: rest | .run :: rest => wantPlugin p n rest

/-- No exception is added again before it was removed. -/
def Once (imp : Import) : List Cmd → Prop
  | [] => True
  | .add b :: rest => want imp b.qname rest = none ∧ Once imp rest
  | _ :: rest => Once imp rest

/-! ### The tables -/

theorem addBreak_get (t : Tables) (b : Ebp) (n : Name) :
    Dict.get (addBreak t b).caught n = (if n = b.qname ∧ b.handled = true then some b else Dict.get t.caught n) ∧
    Dict.get (addBreak t b).uncaught n = (if n = b.qname ∧ b.unhandled = true then some b else Dict.get t.uncaught n) ∧
    Dict.get (addBreak t b).userUncaught n = (if n = b.qname ∧ b.userUnhandled = true then some b else Dict.get t.userUncaught n) := by
  unfold addBreak
  cases b.handled <;> cases b.unhandled <;> cases b.userUnhandled <;> simp [Dict.get_set]

/-- What a table should have, of what is asked. -/
def Exact (t : Tables) (n : Name) (w : Option Ebp) : Prop :=
  Dict.get t.caught n = w.filter (·.handled) ∧ Dict.get t.uncaught n = w.filter (·.unhandled) ∧ Dict.get t.userUncaught n = w.filter (·.userUnhandled)

/-- What it has at least, and nothing where nothing is asked. -/
def AtLeast (t : Tables) (n : Name) (w : Option Ebp) : Prop :=
  (∀ b, w = some b → (b.handled = true → Dict.get t.caught n = some b) ∧ (b.unhandled = true → Dict.get t.uncaught n = some b) ∧
    (b.userUnhandled = true → Dict.get t.userUncaught n = some b)) ∧
  (w = none → Dict.get t.caught n = none ∧ Dict.get t.uncaught n = none ∧ Dict.get t.userUncaught n = none)

theorem update_tables (s : St) : s.update.tables = s.tables := by
  unfold St.update
  split
  · rfl
  · split <;> rfl

theorem changed_tables (s : St) (r : Bool) : (s.changed r).tables = s.tables := by
  unfold St.changed
  split
  · rfl
  · split
    · rfl
    · exact update_tables s

theorem changed_true (s : St) : s.changed true = s := by
  unfold St.changed
  split <;> rfl

theorem exact_atLeast {t : Tables} {n : Name} {w : Option Ebp} (h : Exact t n w) : AtLeast t n w := by
  obtain ⟨h1, h2, h3⟩ := h
  refine ⟨?_, ?_⟩
  · rintro b rfl
    rw [h1, h2, h3]
    simp [Option.filter]
  · rintro rfl
    exact ⟨h1, h2, h3⟩

theorem addBreak_exact {t : Tables} {b : Ebp} (h : Exact t b.qname none ∨ Exact t b.qname (some b)) : Exact (addBreak t b) b.qname (some b) := by
  obtain ⟨g1, g2, g3⟩ := addBreak_get t b b.qname
  unfold Exact
  rw [g1, g2, g3]
  rcases h with ⟨h1, h2, h3⟩ | ⟨h1, h2, h3⟩
  · rw [h1, h2, h3]
    refine ⟨?_, ?_, ?_⟩ <;> simp only [true_and, Option.filter] <;> split <;> rfl
  · rw [h1, h2, h3]
    refine ⟨?_, ?_, ?_⟩ <;> simp only [true_and, Option.filter] <;> split <;> rfl

theorem addBreak_other {t : Tables} {b : Ebp} {n : Name} (hn : n ≠ b.qname) {w : Option Ebp} (h : Exact t n w) : Exact (addBreak t b) n w := by
  obtain ⟨g1, g2, g3⟩ := addBreak_get t b n
  unfold Exact
  rw [g1, g2, g3, if_neg (fun h => hn h.1), if_neg (fun h => hn h.1), if_neg (fun h => hn h.1)]
  exact h

/-- The loop of either form, for a name. -/
theorem loop_exact (imp : Import) (mk : Name → Option Class → Ebp) (hmk : ∀ n t, (mk n t).qname = n) (next : St → St)
    (hnext : ∀ s, (next s).tables = s.tables) (f : St → List Name → St) (hnil : ∀ s, f s [] = s)
    (hcons : ∀ s n rest, f s (n :: rest) = f (next (match imp n with | none => s | some t => { s with tables := addBreak s.tables (mk n t) })) rest)
    (names : List Name) (s : St) (n : Name) (done : Prop) [Decidable done]
    (h : Exact s.tables n none ∨ Exact s.tables n ((imp n).map (mk n))) (hd : done → Exact s.tables n ((imp n).map (mk n)))
    (hnd : ¬ done → Exact s.tables n none) :
    Exact (f s names).tables n (if done ∨ n ∈ names then (imp n).map (mk n) else none) := by
  induction names generalizing s done with
  | nil =>
    rw [hnil]
    split
    · rename_i hh
      rcases hh with hh | hh
      · exact hd hh
      · cases hh
    · rename_i hh
      exact hnd fun h => hh (.inl h)
  | cons m rest ih =>
    rw [hcons]
    by_cases hm : m = n
    · subst hm
      have hnew : Exact (next (match imp m with | none => s | some t => { s with tables := addBreak s.tables (mk m t) })).tables m ((imp m).map (mk m)) := by
        rw [hnext]
        cases hi : imp m with
        | none =>
          dsimp only
          rw [hi] at h
          rcases h with h | h <;> exact h
        | some t =>
          dsimp only
          rw [hi] at h
          have := @addBreak_exact s.tables (mk m t)
          rw [hmk] at this
          exact this h
      have := ih _ True (.inr hnew) (fun _ => hnew) (fun h => absurd trivial h)
      rw [if_pos (.inl trivial)] at this
      rw [if_pos (.inr (List.mem_cons_self ..))]
      exact this
    · have hkeep : ∀ w, Exact s.tables n w →
          Exact (next (match imp m with | none => s | some t => { s with tables := addBreak s.tables (mk m t) })).tables n w := by
        intro w hw
        rw [hnext]
        cases imp m with
        | none => exact hw
        | some t => exact addBreak_other (by rw [hmk]; exact Ne.symm hm) hw
      have := ih _ done (h.imp (hkeep _) (hkeep _)) (fun d => hkeep _ (hd d)) (fun d => hkeep _ (hnd d))
      have hiff : (done ∨ n ∈ m :: rest) ↔ (done ∨ n ∈ rest) := by
        rw [List.mem_cons]
        constructor
        · rintro (h | h | h)
          · exact .inl h
          · exact absurd h.symm hm
          · exact .inr h
        · rintro (h | h)
          · exact .inl h
          · exact .inr (.inr h)
      rw [show (if done ∨ n ∈ m :: rest then (imp n).map (mk n) else none) = (if done ∨ n ∈ rest then (imp n).map (mk n) else none) by
        by_cases hh : done ∨ n ∈ rest
        · rw [if_pos hh, if_pos (hiff.mpr hh)]
        · rw [if_neg hh, if_neg (fun h => hh (hiff.mp h))]]
      exact this

theorem exact_empty (n : Name) : Exact {} n none := ⟨rfl, rfl, rfl⟩

theorem setJson_exact (imp : Import) (s : St) (r : SetAll) (n : Name) :
    Exact (step imp s (.setJson r)).tables n (if n ∈ r.names then (imp n).map (mkAll r r.user n) else none) := by
  have := loop_exact imp (mkAll r r.user) (fun _ _ => rfl) (fun s => s.changed false) (fun s => changed_tables s false) (setJsonLoop imp r)
    (fun _ => rfl) (fun _ _ _ => rfl) r.names { s with tables := {} } n False (.inl (exact_empty n)) (fun h => h.elim) (fun _ => exact_empty n)
  rw [show (if False ∨ n ∈ r.names then (imp n).map (mkAll r r.user n) else none) = if n ∈ r.names then (imp n).map (mkAll r r.user n) else none by
    simp only [false_or]] at this
  exact this

theorem setText_exact (imp : Import) (s : St) (r : SetAll) (n : Name) :
    Exact (step imp s (.setText r)).tables n (if n ∈ r.names then (imp n).map (mkAll r false n) else none) := by
  have := loop_exact imp (mkAll r false) (fun _ _ => rfl) (fun s => s) (fun _ => rfl) (setTextLoop imp r)
    (fun _ => rfl) (fun _ _ _ => rfl) r.names { s with tables := {} } n False (.inl (exact_empty n)) (fun h => h.elim) (fun _ => exact_empty n)
  rw [show (if False ∨ n ∈ r.names then (imp n).map (mkAll r false n) else none) = if n ∈ r.names then (imp n).map (mkAll r false n) else none by
    simp only [false_or]] at this
  exact this

theorem run_snoc (imp : Import) (cmds : List Cmd) (c : Cmd) : run imp (cmds ++ [c]) = step imp (run imp cmds) c := by
  unfold run
  rw [List.foldl_append]
  rfl

/-- The commands in the order given, seen from the newest. -/
theorem run_rev (imp : Import) (c : Cmd) (rest : List Cmd) : run imp (c :: rest).reverse = step imp (run imp rest.reverse) c := by
  rw [List.reverse_cons, run_snoc]

theorem tables_add (imp : Import) (s : St) (b : Ebp) :
    (step imp s (.add b)).tables = match imp b.qname with | none => s.tables | some _ => addBreak s.tables b := by
  simp only [step]
  cases imp b.qname with
  | none => rfl
  | some _ => exact changed_tables _ _

theorem tables_remove (imp : Import) (s : St) (n : Name) : (step imp s (.remove n)).tables = removeBreak s.tables n := changed_tables _ _

theorem tables_removeAll (imp : Import) (s : St) : (step imp s .removeAll).tables = {} := by
  simp only [step]
  rw [changed_tables]
  split <;> rfl

theorem tables_addPlugin (imp : Import) (s : St) (p : Plugin) (n : Name) : (step imp s (.addPlugin p n)).tables = s.tables := changed_tables _ _

theorem tables_removePlugin (imp : Import) (s : St) (p : Plugin) (n : Name) : (step imp s (.removePlugin p n)).tables = s.tables := by
  simp only [step]
  split
  · rfl
  · rw [changed_tables]; split <;> rfl

theorem tables_run (imp : Import) (s : St) : (step imp s .run).tables = s.tables := update_tables _

/-- **C119**: whatever commands were given, an exception asked for is in the table of each kind it was last asked for, as it was asked for, and one that
was removed (or never asked for) is in none. -/
theorem c119_asked (imp : Import) (rcmds : List Cmd) (n : Name) : AtLeast (run imp rcmds.reverse).tables n (want imp n rcmds) := by
  induction rcmds with
  | nil => exact exact_atLeast ⟨rfl, rfl, rfl⟩
  | cons c rest ih =>
    rw [run_rev]
    cases c with
    | add b =>
      rw [tables_add, want]
      by_cases hn : b.qname = n
      · subst hn
        cases hi : imp b.qname with
        | none => simpa using ih
        | some t =>
          obtain ⟨g1, g2, g3⟩ := addBreak_get (run imp rest.reverse).tables b b.qname
          rw [if_pos ⟨rfl, by simp⟩]
          refine ⟨?_, fun h => (by cases h)⟩
          rintro _ ⟨⟩
          dsimp only
          rw [g1, g2, g3]
          refine ⟨fun h => ?_, fun h => ?_, fun h => ?_⟩ <;> rw [if_pos ⟨rfl, h⟩]
      · rw [if_neg (fun h => hn h.1)]
        cases hi : imp b.qname with
        | none => exact ih
        | some t =>
          obtain ⟨g1, g2, g3⟩ := addBreak_get (run imp rest.reverse).tables b n
          dsimp only
          unfold AtLeast
          rw [g1, g2, g3, if_neg (fun h => hn h.1.symm), if_neg (fun h => hn h.1.symm), if_neg (fun h => hn h.1.symm)]
          exact ih
    | remove m =>
      rw [tables_remove, want]
      by_cases hm : m = n
      · subst hm
        rw [if_pos rfl]
        refine exact_atLeast ⟨?_, ?_, ?_⟩ <;> simp [removeBreak, Dict.get_erase]
      · rw [if_neg hm]
        unfold AtLeast removeBreak
        dsimp only
        rw [Dict.get_erase, Dict.get_erase, Dict.get_erase, if_neg (Ne.symm hm), if_neg (Ne.symm hm), if_neg (Ne.symm hm)]
        exact ih
    | addPlugin p m => rw [tables_addPlugin]; exact ih
    | removePlugin p m => rw [tables_removePlugin]; exact ih
    | addLine p => exact ih
    | removeAll => rw [tables_removeAll]; exact exact_atLeast (exact_empty n)
    | setJson r => exact exact_atLeast (setJson_exact imp _ r n)
    | setText r => exact exact_atLeast (setText_exact imp _ r n)
    | run => rw [tables_run]; exact ih

/-- **C119**: (proviso: no exception is added again before it was removed) the tables have exactly what is asked for. -/
theorem c119_exact (imp : Import) (rcmds : List Cmd) (once : Once imp rcmds) (n : Name) :
    Exact (run imp rcmds.reverse).tables n (want imp n rcmds) := by
  induction rcmds with
  | nil => exact ⟨rfl, rfl, rfl⟩
  | cons c rest ih =>
    rw [run_rev]
    cases c with
    | add b =>
      obtain ⟨hnone, once⟩ := once
      rw [tables_add, want]
      by_cases hn : b.qname = n
      · subst hn
        cases hi : imp b.qname with
        | none => simpa using ih once
        | some t =>
          rw [if_pos ⟨rfl, by simp⟩]
          have := ih once
          rw [hnone] at this
          exact addBreak_exact (.inl this)
      · rw [if_neg (fun h => hn h.1)]
        cases hi : imp b.qname with
        | none => exact ih once
        | some t => exact addBreak_other (Ne.symm hn) (ih once)
    | remove m =>
      rw [tables_remove, want]
      by_cases hm : m = n
      · subst hm
        rw [if_pos rfl]
        refine ⟨?_, ?_, ?_⟩ <;> simp [removeBreak, Dict.get_erase]
      · rw [if_neg hm]
        unfold Exact removeBreak
        dsimp only
        rw [Dict.get_erase, Dict.get_erase, Dict.get_erase, if_neg (Ne.symm hm), if_neg (Ne.symm hm), if_neg (Ne.symm hm)]
        exact ih once
    | addPlugin p m => rw [tables_addPlugin]; exact ih once
    | removePlugin p m => rw [tables_removePlugin]; exact ih once
    | addLine p => exact ih once
    | removeAll => rw [tables_removeAll]; exact exact_empty n
    | setJson r => exact setJson_exact imp _ r n
    | setText r => exact setText_exact imp _ r n
    | run => rw [tables_run]; exact ih once

/-! ### Templates -/

structure Same (s t : St) : Prop where
  plugin : s.plugin = t.plugin
  active : s.active = t.active
  breaks : s.breaks = t.breaks
  flag : s.flag = t.flag

theorem same_refl (s : St) : Same s s := ⟨rfl, rfl, rfl, rfl⟩

theorem same_update (s : St) : Same s.update s := by
  unfold St.update
  split
  · exact ⟨rfl, rfl, rfl, rfl⟩
  · split <;> exact ⟨rfl, rfl, rfl, rfl⟩

theorem same_changed (s : St) (r : Bool) : Same (s.changed r) s := by
  unfold St.changed
  split
  · exact same_refl s
  · split
    · exact same_refl s
    · exact same_update s

theorem same_trans {a b c : St} (h : Same a b) (g : Same b c) : Same a c :=
  ⟨h.1.trans g.1, h.2.trans g.2, h.3.trans g.3, h.4.trans g.4⟩

theorem same_json (imp : Import) (r : SetAll) (names : List Name) (s : St) : Same (setJsonLoop imp r s names) s := by
  induction names generalizing s with
  | nil => exact same_refl s
  | cons n rest ih =>
    rw [setJsonLoop]
    refine same_trans (ih _) (same_trans (same_changed _ _) ?_)
    cases imp n <;> exact ⟨rfl, rfl, rfl, rfl⟩

theorem same_text (imp : Import) (r : SetAll) (names : List Name) (s : St) : Same (setTextLoop imp r s names) s := by
  induction names generalizing s with
  | nil => exact same_refl s
  | cons n rest ih =>
    rw [setTextLoop]
    refine same_trans (ih _) ?_
    cases imp n <;> exact ⟨rfl, rfl, rfl, rfl⟩

/-- The commands that are not about templates. -/
theorem same_step (imp : Import) (s : St) (c : Cmd) (h : match c with | .addPlugin .. | .removePlugin .. | .addLine _ | .removeAll => False | _ => True) :
    Same (step imp s c) s := by
  cases c with
  | add b =>
    simp only [step]
    cases imp b.qname with
    | none => exact same_refl s
    | some _ => exact same_trans (same_changed _ _) ⟨rfl, rfl, rfl, rfl⟩
  | remove n => exact same_trans (same_changed _ _) ⟨rfl, rfl, rfl, rfl⟩
  | setJson r => exact same_trans (same_json _ _ _ _) ⟨rfl, rfl, rfl, rfl⟩
  | setText r => exact same_trans (same_text _ _ _ _) ⟨rfl, rfl, rfl, rfl⟩
  | run => exact same_trans (same_update _) ⟨rfl, rfl, rfl, rfl⟩
  | addPlugin _ _ => exact h.elim
  | removePlugin _ _ => exact h.elim
  | addLine _ => exact h.elim
  | removeAll => exact h.elim

/-- A plugin with breakpoints is active, plugins are only active where they were made, and the flag is on while there is a breakpoint. -/
structure PInv (s : St) : Prop where
  active : ∀ p, s.breaks p ≠ [] → p ∈ s.active
  made : ∀ p, p ∈ s.active → s.plugin = true
  flag : ∀ p, s.breaks p ≠ [] → s.flag = true

theorem same_inv {s t : St} (h : Same s t) (i : PInv t) : PInv s := by
  obtain ⟨h1, h2, h3, h4⟩ := h
  refine ⟨?_, ?_, ?_⟩
  · rw [h2, h3]; exact i.active
  · rw [h1, h2]; exact i.made
  · rw [h3, h4]; exact i.flag

theorem mem_activate (l : List Plugin) (p q : Plugin) : q ∈ activate l p ↔ q ∈ l ∨ q = p := by
  unfold activate
  split
  · rename_i h
    have h : p ∈ l := by simpa using h
    constructor
    · exact .inl
    · rintro (h' | rfl)
      · exact h'
      · exact h
  · rw [List.mem_append, List.mem_singleton]

theorem hasBreaks_of {active : List Plugin} {breaks : Plugin → List Name} {p : Plugin} (h : p ∈ active) (hb : breaks p ≠ []) :
    hasBreaks active breaks = true := by
  unfold hasBreaks
  rw [List.any_eq_true]
  refine ⟨p, h, ?_⟩
  cases hh : breaks p with
  | nil => exact absurd hh hb
  | cons _ _ => rfl

theorem pinv_step (imp : Import) {s : St} (i : PInv s) (c : Cmd) : PInv (step imp s c) := by
  cases c with
  | addPlugin p n =>
    refine same_inv (same_changed _ _) ⟨?_, fun _ _ => rfl, ?_⟩
    · intro q hq
      dsimp only at hq ⊢
      rw [mem_activate]
      by_cases h : q = p
      · exact .inr h
      · rw [if_neg h] at hq; exact .inl (i.active q hq)
    · intro q hq
      dsimp only at hq ⊢
      refine hasBreaks_of (p := q) ?_ hq
      rw [mem_activate]
      by_cases h : q = p
      · exact .inr h
      · rw [if_neg h] at hq; exact .inl (i.active q hq)
  | removePlugin p n =>
    simp only [step]
    split
    · exact i
    · refine same_inv (same_changed _ _) ?_
      split
      · have hsub : ∀ q, (if q = p then (s.breaks p).filter (· ≠ n) else s.breaks q) ≠ [] → s.breaks q ≠ [] := by
          intro q hq h0
          split at hq
          · rename_i h; subst h; rw [h0] at hq; exact hq rfl
          · exact hq h0
        refine ⟨fun q hq => i.active q (hsub q hq), i.made, fun q hq => ?_⟩
        exact hasBreaks_of (i.active q (hsub q hq)) hq
      · exact i
  | addLine p =>
    refine ⟨fun q hq => ?_, fun _ _ => rfl, i.flag⟩
    simp only [step]
    rw [mem_activate]
    exact .inl (i.active q hq)
  | removeAll =>
    simp only [step]
    refine same_inv (same_changed _ _) ?_
    split
    · refine ⟨fun q hq => ?_, fun q hq => ?_, fun q hq => ?_⟩
      · dsimp only at hq
        split at hq
        · exact absurd rfl hq
        · exact i.active q hq
      · exact i.made q hq
      · dsimp only at hq
        split at hq
        · exact absurd rfl hq
        · exact i.flag q hq
    · exact ⟨i.active, i.made, i.flag⟩
  | add b => exact same_inv (same_step imp s _ trivial) i
  | remove n => exact same_inv (same_step imp s _ trivial) i
  | setJson r => exact same_inv (same_step imp s _ trivial) i
  | setText r => exact same_inv (same_step imp s _ trivial) i
  | run => exact same_inv (same_step imp s _ trivial) i

theorem pinv_run (imp : Import) (rcmds : List Cmd) : PInv (run imp rcmds.reverse) := by
  induction rcmds with
  | nil => exact ⟨fun p h => absurd rfl h, fun p h => (by cases h), fun p h => absurd rfl h⟩
  | cons c rest ih => rw [run_rev]; exact pinv_step imp ih c

/-- **C119**: the exceptions in templates that break are those last asked for, and the flag that has them looked at is on while there is one. -/
theorem c119_templates (imp : Import) (rcmds : List Cmd) (p : Plugin) (n : Name) :
    (n ∈ (run imp rcmds.reverse).breaks p ↔ wantPlugin p n rcmds = true) ∧
    (wantPlugin p n rcmds = true → (run imp rcmds.reverse).flag = true) := by
  have key : n ∈ (run imp rcmds.reverse).breaks p ↔ wantPlugin p n rcmds = true := by
    induction rcmds with
    | nil => simp [run, wantPlugin]
    | cons c rest ih =>
      have inv := pinv_run imp rest
      rw [run_rev]
      cases c with
      | addPlugin q m =>
        have hs : (step imp (run imp rest.reverse) (.addPlugin q m)).breaks p =
            if p = q then (if ((run imp rest.reverse).breaks q).contains m then (run imp rest.reverse).breaks q else (run imp rest.reverse).breaks q ++ [m])
            else (run imp rest.reverse).breaks p := by
          simp only [step]
          rw [(same_changed _ _).breaks]
        rw [hs, wantPlugin]
        clear hs
        by_cases hq : q = p
        · subst hq
          simp only [if_true]
          by_cases hm : m = n
          · subst hm
            simp only [and_self, if_true]
            split
            · rename_i h
              have h : m ∈ (run imp rest.reverse).breaks q := by simpa using h
              simp [h]
            · simp
          · simp only [hm, and_false, if_false]
            rw [← ih]
            split
            · exact Iff.rfl
            · rw [List.mem_append, List.mem_singleton]
              constructor
              · rintro (h | h)
                · exact h
                · exact absurd h.symm hm
              · exact .inl
        · rw [if_neg (Ne.symm hq), if_neg (fun h => hq h.1), ih]
      | removePlugin q m =>
        rw [wantPlugin]
        have hs : n ∈ (step imp (run imp rest.reverse) (.removePlugin q m)).breaks p ↔
            n ∈ (run imp rest.reverse).breaks p ∧ ¬ (q = p ∧ m = n) := by
          simp only [step]
          split
          · rename_i hpl
            constructor
            · intro h
              refine ⟨h, ?_⟩
              have := inv.made p (inv.active p (List.ne_nil_of_mem h))
              rw [this] at hpl
              cases hpl
            · exact fun h => h.1
          · rw [(same_changed _ _).breaks]
            split
            · dsimp only
              by_cases hq : p = q
              · rw [if_pos hq, List.mem_filter]
                subst hq
                simp only [decide_eq_true_eq, true_and]
                exact and_congr_right fun _ => ⟨Ne.symm, Ne.symm⟩
              · rw [if_neg hq]
                constructor
                · exact fun h => ⟨h, fun h' => hq h'.1.symm⟩
                · exact fun h => h.1
            · rename_i hc
              constructor
              · intro h
                refine ⟨h, ?_⟩
                rintro ⟨rfl, rfl⟩
                apply hc
                have h1 := inv.active q (List.ne_nil_of_mem h)
                simp [h, h1]
              · exact fun h => h.1
        rw [hs, ih]
        by_cases h : q = p ∧ m = n
        · rw [if_pos h]; simp [h]
        · rw [if_neg h]; simp [h]
      | addLine q => exact ih
      | removeAll =>
        have hs : (step imp (run imp rest.reverse) .removeAll).breaks p = [] := by
          simp only [step]
          rw [(same_changed _ _).breaks]
          by_cases hb : (run imp rest.reverse).breaks p = []
          · split
            · dsimp only; split
              · rfl
              · exact hb
            · exact hb
          · have h1 := inv.active p hb
            have h2 := inv.made p h1
            rw [if_pos h2]
            dsimp only
            rw [if_pos (by simpa using h1)]
        rw [hs, wantPlugin]
        simp
      | add b => rw [(same_step imp _ (.add b) trivial).breaks]; exact ih
      | remove m => rw [(same_step imp _ (.remove m) trivial).breaks]; exact ih
      | setJson r => rw [(same_step imp _ (.setJson r) trivial).breaks]; exact ih
      | setText r => rw [(same_step imp _ (.setText r) trivial).breaks]; exact ih
      | run => rw [(same_step imp _ .run trivial).breaks]; exact ih
  exact ⟨key, fun h => (pinv_run imp rcmds).flag p (List.ne_nil_of_mem (key.mpr h))⟩

/-! ### Events -/

/-- The events for the breakpoints there are: those of raised exceptions for breakpoints on handled ones, those of functions left for all. -/
def Armed (s : St) : Prop :=
  s.ready = true → ((s.tables.caught ≠ [] ∨ s.tables.userUncaught ≠ [] ∨ s.flag = true) → s.raiseOn = true ∧ s.unwindOn = true) ∧
    (s.tables.uncaught ≠ [] → s.unwindOn = true)

theorem armed_update (s : St) : Armed s.update := by
  intro _
  unfold St.update
  split
  · exact ⟨fun _ => ⟨rfl, rfl⟩, fun _ => rfl⟩
  · rename_i h
    simp only [Bool.or_eq_true, Bool.not_eq_true', not_or, Bool.not_eq_true, Bool.not_eq_false, List.isEmpty_iff] at h
    split
    · refine ⟨?_, fun _ => rfl⟩
      rintro (h' | h' | h')
      · exact absurd h.1.1 h'
      · exact absurd h.1.2 h'
      · dsimp only at h'; rw [h.2] at h'; cases h'
    · rename_i h2
      refine ⟨?_, ?_⟩
      · rintro (h' | h' | h')
        · exact absurd h.1.1 h'
        · exact absurd h.1.2 h'
        · dsimp only at h'; rw [h.2] at h'; cases h'
      · intro h'
        simp at h2
        exact absurd h2 h'

theorem armed_changed (s : St) : Armed (s.changed false) := by
  unfold St.changed
  split
  · rename_i h; intro h'; rw [h'] at h; cases h
  · exact armed_update s

theorem erase_ne {t : Table} {n : Name} (h : Dict.erase t n ≠ []) : t ≠ [] := by
  rintro rfl; exact h rfl

/-- Where there is less to break on, the events are still those needed. -/
theorem armed_less {s t : St} (h : Armed s) (hr : t.ready = s.ready) (h1 : t.tables.caught ≠ [] → s.tables.caught ≠ [])
    (h2 : t.tables.userUncaught ≠ [] → s.tables.userUncaught ≠ []) (h3 : t.tables.uncaught ≠ [] → s.tables.uncaught ≠ [])
    (h4 : t.flag = true → s.flag = true) (h5 : t.raiseOn = s.raiseOn) (h6 : t.unwindOn = s.unwindOn) : Armed t := by
  intro hready
  have ⟨a, b⟩ := h (hr ▸ hready)
  rw [h5, h6]
  exact ⟨fun hh => a (hh.imp h1 (Or.imp h2 h4)), fun hh => b (h3 hh)⟩

theorem armed_json (imp : Import) (r : SetAll) (names : List Name) (s : St) (h : Armed s) : Armed (setJsonLoop imp r s names) := by
  induction names generalizing s with
  | nil => exact h
  | cons n rest ih => rw [setJsonLoop]; exact ih _ (armed_changed _)

theorem armed_step (imp : Import) {s : St} (i : PInv s) (h : Armed s) (c : Cmd) (hc : ∀ r, c ≠ .setText r) : Armed (step imp s c) := by
  cases c with
  | add b =>
    simp only [step]
    cases imp b.qname with
    | none => exact h
    | some _ => exact armed_changed _
  | remove n =>
    have : Armed { s with tables := removeBreak s.tables n } :=
      armed_less h rfl (fun h => erase_ne h) (fun h => erase_ne h) (fun h => erase_ne h) id rfl rfl
    simp only [step]
    rw [changed_true]
    exact this
  | addPlugin p n => exact armed_changed _
  | removePlugin p n =>
    simp only [step]
    split
    · exact h
    · have : Armed (if s.active.contains p && (s.breaks p).contains n then
          { s with breaks := fun q => if q = p then (s.breaks p).filter (· ≠ n) else s.breaks q,
                   flag := hasBreaks s.active fun q => if q = p then (s.breaks p).filter (· ≠ n) else s.breaks q }
        else s) := by
        split
        · rename_i hb
          refine armed_less h rfl id id id (fun _ => ?_) rfl rfl
          simp only [Bool.and_eq_true, List.contains_iff_mem] at hb
          exact i.flag p (List.ne_nil_of_mem hb.2)
        · exact h
      rw [changed_true]
      exact this
  | addLine p => exact armed_less h rfl id id id id rfl rfl
  | removeAll =>
    have : Armed (if s.plugin then { s with tables := {}, breaks := fun q => if s.active.contains q then [] else s.breaks q }
        else { s with tables := {} }) := by
      split
      · exact armed_less h rfl (fun h => absurd rfl h) (fun h => absurd rfl h) (fun h => absurd rfl h) id rfl rfl
      · exact armed_less h rfl (fun h => absurd rfl h) (fun h => absurd rfl h) (fun h => absurd rfl h) id rfl rfl
    simp only [step]
    rw [changed_true]
    exact this
  | setJson r =>
    exact armed_json imp r r.names _
      (armed_less h rfl (fun h => absurd rfl h) (fun h => absurd rfl h) (fun h => absurd rfl h) id rfl rfl)
  | setText r => exact absurd rfl (hc r)
  | run => exact armed_update _

/-- **C119**: while the program runs, an exception on which a thread is to break is told to the debugger: the events for it are on. (Proviso: the command
`CMD_SET_PY_EXCEPTION` in its form that is not JSON was not used.) -/
theorem c119_armed (imp : Import) (rcmds : List Cmd) (hno : ∀ r, Cmd.setText r ∉ rcmds) (hrun : (run imp rcmds.reverse).ready = true) :
    (∀ n b, want imp n rcmds = some b → (b.handled = true ∨ b.userUnhandled = true) → (run imp rcmds.reverse).raiseOn = true) ∧
    (∀ n b, want imp n rcmds = some b → b.unhandled = true → (run imp rcmds.reverse).unwindOn = true) ∧
    (∀ p n, wantPlugin p n rcmds = true → (run imp rcmds.reverse).raiseOn = true) := by
  have arm : Armed (run imp rcmds.reverse) := by
    clear hrun
    induction rcmds with
    | nil => intro h; cases h
    | cons c rest ih =>
      rw [run_rev]
      refine armed_step imp (pinv_run imp rest) (ih fun r h => hno r (List.mem_cons_of_mem _ h)) c ?_
      rintro r rfl
      exact hno r (List.mem_cons_self ..)
  obtain ⟨a, b⟩ := arm hrun
  have hne : ∀ {t : Table} {n : Name} {e : Ebp}, Dict.get t n = some e → t ≠ [] := by
    rintro t n e h rfl
    cases h
  refine ⟨?_, ?_, ?_⟩
  · intro n e hw hh
    obtain ⟨h1, _⟩ := c119_asked imp rcmds n
    obtain ⟨h1, _, h3⟩ := h1 e hw
    rcases hh with hh | hh
    · exact (a (.inl (hne (h1 hh)))).1
    · exact (a (.inr (.inl (hne (h3 hh))))).1
  · intro n e hw hh
    obtain ⟨h1, _⟩ := c119_asked imp rcmds n
    exact b (hne ((h1 e hw).2.1 hh))
  · intro p n hw
    exact (a (.inr (.inr ((c119_templates imp rcmds p n).2 hw)))).1

/-! ### Examples and witnesses -/

def imp1 : Import := fun n => if n = 9 then none else some (some n)
def bp (n : Name) (h u : Bool) : Ebp := { qname := n, type := some n, handled := h, unhandled := u }

/-- A history with all kinds of commands. -/
def hist : List Cmd :=
  [.removePlugin .jinja2 6, .add (bp 3 true true), .remove 3, .addPlugin .jinja2 6, .addPlugin .django 5, .add (bp 9 true false), .add (bp 3 true false), .run,
    .setJson ⟨true, false, false, false, [1, 2]⟩, .addLine .jinja2]

example : Once imp1 hist ∧ (run imp1 hist.reverse).ready = true ∧ want imp1 3 hist = some (bp 3 true true) ∧ want imp1 9 hist = none ∧
    (want imp1 2 hist).isSome = true ∧ wantPlugin .jinja2 6 hist = false ∧ wantPlugin .django 5 hist = true ∧ ∀ r, Cmd.setText r ∉ hist := by
  refine ⟨?_, by decide, by decide, by decide, by decide, by decide, by decide, ?_⟩
  · simp only [hist, Once]
    decide
  · intro r h
    simp [hist] at h

theorem c119_example : Exact (run imp1 hist.reverse).tables 3 (some (bp 3 true true)) ∧ (run imp1 hist.reverse).raiseOn = true :=
  ⟨by unfold Exact; decide, by decide⟩

/-- An exception asked for on being handled, then (again, with another setting) only on being unhandled, still breaks when it is handled. -/
theorem c119_again_witness : (Dict.get (run imp1 [.add (bp 3 true false), .add (bp 3 false true)]).tables.caught 3).isSome = true := by decide

/-- With `CMD_SET_PY_EXCEPTION` in its form that is not JSON, in a program that runs, the exceptions are in the tables and the events are not on. -/
theorem c119_text_witness : (Dict.get (run imp1 [.run, .setText ⟨true, true, false, false, [3]⟩]).tables.caught 3).isSome = true ∧
    (run imp1 [.run, .setText ⟨true, true, false, false, [3]⟩]).raiseOn = false ∧ (run imp1 [.run, .setText ⟨true, true, false, false, [3]⟩]).unwindOn = false := by
  decide

/-- After all exception breakpoints were removed, the flag for those of templates stays on. -/
theorem c119_flag_witness : (run imp1 [.addPlugin .django 5, .removeAll]).flag = true := by decide

end ExcTables
