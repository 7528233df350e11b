import Verif.CmdLine.Spec
/-!
C37 (command line).
-/

namespace CmdLine
open Spec

theorem names_nodup : (handlers.map (·.name)).Nodup := by decide

theorem find_name {h : Handler} (hm : h ∈ handlers) : handlers.find? (fun x => x.name == h.name) = some h := by
  revert h; decide

theorem handlerOf_rep {h : Handler} (hm : h ∈ handlers) : handlerOf h.rep = some h := by
  revert h; decide

theorem handlerOf_some {a : Str} {h : Handler} (he : handlerOf a = some h) : h ∈ handlers ∧ a = c!"--" ++ h.name := by
  unfold handlerOf at he
  refine ⟨List.mem_of_find?_eq_some he, ?_⟩
  have := List.find?_some he
  simp only [beq_iff_eq] at this
  rw [← this]; rfl

theorem handlerOf_qt (m : Str) : handlerOf (c!"--qt-support" ++ m) = none := by
  unfold handlerOf
  rw [List.find?_eq_none]
  intro h hm
  simp only [beq_iff_eq]
  intro he
  have h0 : ∀ h ∈ handlers, h.rep.take 4 ≠ c!"--qt" := by decide
  have h1 := h0 h hm
  rw [he] at h1
  exact h1 rfl

theorem handlerOf_file : handlerOf c!"--file" = none := by decide
theorem handlerOf_debug : handlerOf c!"--DEBUG" = none := by decide

theorem loop_cons (pid : Int) (fuel : Nat) (a : Str) (argv : List Str) (s : Setup) : loop pid (fuel + 1) (a :: argv) s =
    match handlerOf a with
    | some h =>
      match h.conv with
      | none => loop pid fuel argv (s.put h.name (.bool true))
      | some c =>
        match argv with
        | [] => .error
        | v :: argv =>
          match c.apply pid v with
          | none => .error
          | some v => loop pid fuel argv (s.put h.name v)
    | none =>
      if Py.startsWith a c!"--qt-support" then
        match qtValue a with
        | none => .error
        | some v => loop pid fuel argv (s.put c!"qt-support" (.str v))
      else if a = c!"--file" then
        match argv with
        | [] => .error
        | f :: argv => .ok (s.put c!"file" (.str f)) (f :: argv)
      else if a = c!"--DEBUG" then loop pid fuel (a :: argv) s
      else .error := by
  rw [loop.eq_def]
  rfl

/-! The table of handlers is the table of the specification. -/

theorem flag_iff : ∀ h ∈ handlers, (h.conv = none ↔ h.name ∈ flags) := by decide
theorem text_iff : ∀ h ∈ handlers, (h.conv = some .text ↔ h.name ∈ texts) := by decide
theorem int_iff : ∀ h ∈ handlers, (h.conv = some .int ↔ h.name ∈ numbers ∧ h.name ≠ c!"ppid") := by decide
theorem ppid_iff : ∀ h ∈ handlers, (h.conv = some .ppid ↔ h.name = c!"ppid") := by decide
theorem dflt_eq : ∀ h ∈ handlers, h.dflt = Spec.default h.name := by decide
theorem table : ∀ n ∈ flags ++ texts ++ numbers, ∃ h, handlers.find? (fun h => h.name == n) = some h := by
  have : ∀ n ∈ flags ++ texts ++ numbers, (handlers.find? (fun h => h.name == n)).isSome := by decide
  intro n hn; exact Option.isSome_iff_exists.1 (this n hn)
theorem disjoint : ∀ n ∈ texts, n ∉ numbers ∧ n ≠ c!"ppid" := by decide
theorem mem_numbers_ppid : c!"ppid" ∈ numbers := by decide

/-- the setting of an option through the handlers -/
def settingOf (pid : Int) : Opt → Option (Str × Val)
  | .flag n => if handlers.any (fun h => h.name == n && h.conv == none) then some (n, .bool true) else none
  | .param n v =>
    match handlers.find? fun h => h.name == n with
    | some h => match h.conv with
      | none => none
      | some .text => some (n, .str v)
      | some .int => (Py.parseInt v).map fun i => (n, .int i)
      | some .ppid => match Py.parseInt v with
        | none => none
        | some i => if i = pid ∧ i ≠ 0 then none else some (n, .int i)
    | none => none
  | .qt none => some (c!"qt-support", .str c!"auto")
  | .qt (some m) => if m ∈ [c!"none", c!"auto", c!"pyqt5", c!"pyqt4", c!"pyside", c!"pyside2"] then
      some (c!"qt-support", .str (if m = c!"none" then [] else m)) else none

theorem setting_eq (pid : Int) (o : Opt) : o.setting pid = settingOf pid o := by
  cases o with
  | qt m => cases m <;> rfl
  | flag n =>
    simp only [Opt.setting, settingOf]
    by_cases h : n ∈ flags
    · rw [if_pos h, if_pos]
      obtain ⟨x, hx⟩ := table n (by simp [h])
      have hm := List.mem_of_find?_eq_some hx
      have hn := List.find?_some hx
      simp only [beq_iff_eq] at hn
      simp only [List.any_eq_true, Bool.and_eq_true, beq_iff_eq]
      exact ⟨x, hm, hn, (flag_iff x hm).2 (hn ▸ h)⟩
    · rw [if_neg h, if_neg]
      simp only [List.any_eq_true, Bool.and_eq_true, beq_iff_eq]
      rintro ⟨x, hm, hn, hc⟩
      exact h (hn ▸ (flag_iff x hm).1 hc)
  | param n v =>
    simp only [Opt.setting, settingOf]
    cases hx : handlers.find? fun h => h.name == n with
    | none =>
      have hno : n ∉ flags ++ texts ++ numbers := by
        intro h
        obtain ⟨x, hx'⟩ := table n h
        rw [hx] at hx'; cases hx'
      simp only [List.mem_append, not_or] at hno
      rw [if_neg hno.1.2, if_neg hno.2]
    | some x =>
      have hm := List.mem_of_find?_eq_some hx
      have hn := List.find?_some hx
      simp only [beq_iff_eq] at hn
      subst hn
      simp only
      cases hc : x.conv with
      | none =>
        have h1 : x.name ∉ texts := fun h => by have := (text_iff x hm).2 h; rw [hc] at this; cases this
        have h2 : x.name ∉ numbers := by
          intro h
          by_cases hp : x.name = c!"ppid"
          · have := (ppid_iff x hm).2 hp; rw [hc] at this; cases this
          · have := (int_iff x hm).2 ⟨h, hp⟩; rw [hc] at this; cases this
        simp only [if_neg h1, if_neg h2]
      | some c =>
        cases c with
        | text => simp only [if_pos ((text_iff x hm).1 hc)]
        | int =>
          have h2 := (int_iff x hm).1 hc
          have h1 : x.name ∉ texts := fun h => (disjoint _ h).1 h2.1
          simp only [if_neg h1, if_pos h2.1]
          cases Py.parseInt v with
          | none => rfl
          | some i => simp only [Option.map_some]; rw [if_neg fun hx => h2.2 hx.1]
        | ppid =>
          have h2 := (ppid_iff x hm).1 hc
          have h1 : x.name ∉ texts := fun h => (disjoint _ h).2 h2
          have h3 : x.name ∈ numbers := h2 ▸ mem_numbers_ppid
          simp only [if_neg h1, if_pos h3]
          cases Py.parseInt v with
          | none => rfl
          | some i => simp only [h2, true_and]

/-- one option is handled by one round -/
theorem loop_opt (pid : Int) (fuel : Nat) (o : Opt) (rest : List Str) (s : Setup) {n : Str} {v : Val}
    (h : o.setting pid = some (n, v)) : loop pid (fuel + 1) (o.args ++ rest) s = loop pid fuel rest (s.put n v) := by
  rw [setting_eq] at h
  cases o with
  | flag m =>
    simp only [settingOf] at h
    split at h
    · rename_i hany
      simp only [Option.some.injEq, Prod.mk.injEq] at h
      obtain ⟨rfl, rfl⟩ := h
      simp only [List.any_eq_true, Bool.and_eq_true, beq_iff_eq] at hany
      obtain ⟨x, hx, rfl, hc⟩ := hany
      show loop pid (fuel + 1) (x.rep :: rest) s = _
      rw [loop_cons, handlerOf_rep hx]
      simp only [hc]
    · cases h
  | param m t =>
    simp only [settingOf] at h
    split at h
    · rename_i x hx
      have hm := List.mem_of_find?_eq_some hx
      have hn := List.find?_some hx
      simp only [beq_iff_eq] at hn
      subst hn
      show loop pid (fuel + 1) (x.rep :: t :: rest) s = _
      rw [loop_cons, handlerOf_rep hm]
      split at h
      · cases h
      · rename_i hc
        simp only [hc, Conv.apply]
        cases h; rfl
      · rename_i hc
        simp only [hc, Conv.apply]
        cases hp : Py.parseInt t with
        | none => simp [hp] at h
        | some i => simp only [hp, Option.map_some, Option.some.injEq, Prod.mk.injEq] at h ⊢; rw [← h.1, ← h.2]
      · rename_i hc
        simp only [hc, Conv.apply]
        cases hp : Py.parseInt t with
        | none => simp [hp] at h
        | some i =>
          simp only [hp] at h ⊢
          split at h
          · cases h
          · rename_i hne
            rw [if_neg fun hx => hne ⟨hx.2, hx.1⟩]
            simp only [Option.some.injEq, Prod.mk.injEq] at h
            rw [← h.1, ← h.2]
    · cases h
  | qt m =>
    cases m with
    | none =>
      simp only [settingOf, Option.some.injEq, Prod.mk.injEq] at h
      show loop pid (fuel + 1) (c!"--qt-support" :: rest) s = _
      rw [loop_cons, show handlerOf c!"--qt-support" = none by decide]
      simp only
      rw [if_pos (by decide), show qtValue c!"--qt-support" = some c!"auto" by decide, ← h.1, ← h.2]
    | some m =>
      simp only [settingOf] at h
      split at h
      · rename_i hm
        simp only [Option.some.injEq, Prod.mk.injEq] at h
        show loop pid (fuel + 1) ((c!"--qt-support=" ++ m) :: rest) s = _
        have e : c!"--qt-support=" ++ m = c!"--qt-support" ++ ('=' :: m) := rfl
        have hq : qtValue (c!"--qt-support=" ++ m) = some (if m = c!"none" then [] else m) := by
          simp only [List.mem_cons, List.not_mem_nil, or_false] at hm
          rcases hm with rfl | rfl | rfl | rfl | rfl | rfl <;> decide
        rw [loop_cons, show handlerOf (c!"--qt-support=" ++ m) = none by rw [e]; exact handlerOf_qt _]
        simp only
        rw [if_pos (by rw [Py.startsWith_iff]; exact ⟨'=' :: m, rfl⟩), hq, ← h.1, ← h.2]
      · cases h

theorem loop_opts (pid : Int) (os : List Opt) : ∀ (fuel : Nat) (rest : List Str) (s s' : Setup), settings pid os s = some s' →
    loop pid (fuel + os.length) (os.flatMap Opt.args ++ rest) s = loop pid fuel rest s' := by
  induction os with
  | nil => intro fuel rest s s' h; cases h; rfl
  | cons o os ih =>
    intro fuel rest s s' h
    simp only [settings] at h
    split at h
    · cases h
    · rename_i n v hs
      rw [List.flatMap_cons, List.append_assoc, List.length_cons, ← Nat.add_assoc, loop_opt pid _ o _ s hs]
      exact ih fuel rest _ s' h

theorem loop_tail (pid : Int) (fuel : Nat) (left : List Str) (s : Setup) : loop pid (fuel + 1) (tail left) s = .ok (withFile s left) left := by
  cases left with
  | nil => rfl
  | cons f args =>
    simp only [tail]
    rw [loop_cons, handlerOf_file]
    simp only
    rw [if_neg (by decide)]
    rfl

/-- more fuel does not change a result -/
theorem loop_mono (pid : Int) : ∀ (fuel k : Nat) (argv : List Str) (s : Setup), loop pid fuel argv s ≠ .running →
    loop pid (fuel + k) argv s = loop pid fuel argv s := by
  intro fuel
  induction fuel with
  | zero =>
    intro k argv s h
    cases argv with
    | nil => cases k <;> rfl
    | cons a argv => exact absurd rfl h
  | succ fuel ih =>
    intro k argv s h
    cases argv with
    | nil => rw [show fuel + 1 + k = (fuel + k) + 1 by omega]; rfl
    | cons a argv =>
      rw [show fuel + 1 + k = (fuel + k) + 1 by omega, loop_cons]
      rw [loop_cons] at h ⊢
      split
      · rename_i x hx
        simp only [hx] at h
        split
        · rename_i hc; simp only [hc] at h; exact ih k _ _ h
        · rename_i c hc
          simp only [hc] at h
          cases argv with
          | nil => rfl
          | cons v argv =>
            simp only at h ⊢
            cases hv : c.apply pid v with
            | none => rfl
            | some v => simp only [hv] at h ⊢; exact ih k _ _ h
      · rename_i hx
        simp only [hx] at h
        split
        · rename_i hq
          simp only [hq, if_true] at h
          cases hv : qtValue a with
          | none => rfl
          | some v => simp only [hv] at h ⊢; exact ih k _ _ h
        · rename_i hq
          simp only [hq] at h
          split
          · rfl
          · rename_i hf
            simp only [hf, if_false] at h
            split
            · rename_i hd; rw [if_neg (by simp), if_pos hd] at h; exact ih k _ _ h
            · rfl

/-- a successful run read options and then possibly a program -/
theorem loop_ok (pid : Int) : ∀ (fuel : Nat) (argv : List Str) (s s' : Setup) (left : List Str), loop pid fuel argv s = .ok s' left →
    ∃ os s1, argv = os.flatMap Opt.args ++ tail left ∧ settings pid os s = some s1 ∧ s' = withFile s1 left := by
  intro fuel
  induction fuel with
  | zero =>
    intro argv s s' left h
    cases argv with
    | nil => cases h; exact ⟨[], s, rfl, rfl, rfl⟩
    | cons a argv => cases h
  | succ fuel ih =>
    intro argv s s' left h
    cases argv with
    | nil => cases h; exact ⟨[], s, rfl, rfl, rfl⟩
    | cons a argv =>
      rw [loop_cons] at h
      split at h
      · rename_i x hx
        obtain ⟨hm, rfl⟩ := handlerOf_some hx
        split at h
        · rename_i hc
          obtain ⟨os, s1, rfl, h1, h2⟩ := ih _ _ _ _ h
          refine ⟨.flag x.name :: os, s1, by simp [Opt.args], ?_, h2⟩
          simp only [settings, setting_eq, settingOf]
          rw [if_pos (by simp only [List.any_eq_true, Bool.and_eq_true, beq_iff_eq]; exact ⟨x, hm, rfl, hc⟩)]
          exact h1
        · rename_i c hc
          cases argv with
          | nil => cases h
          | cons t argv =>
            simp only at h
            split at h
            · cases h
            · rename_i v hv
              obtain ⟨os, s1, rfl, h1, h2⟩ := ih _ _ _ _ h
              refine ⟨.param x.name t :: os, s1, by simp [Opt.args], ?_, h2⟩
              have hset : (Opt.param x.name t).setting pid = some (x.name, v) := by
                rw [setting_eq]
                simp only [settingOf, find_name hm, hc]
                cases c with
                | text => simp only [Conv.apply, Option.some.injEq] at hv; rw [hv]
                | int =>
                  simp only [Conv.apply] at hv
                  cases hp : Py.parseInt t with
                  | none => simp [hp] at hv
                  | some i => simp only [hp, Option.map_some, Option.some.injEq] at hv ⊢; rw [hv]
                | ppid =>
                  simp only [Conv.apply] at hv
                  cases hp : Py.parseInt t with
                  | none => simp [hp] at hv
                  | some i =>
                    simp only [hp] at hv ⊢
                    split at hv
                    · cases hv
                    · rename_i hne; rw [if_neg fun hx => hne ⟨hx.2, hx.1⟩]; simp only [Option.some.injEq] at hv; rw [hv]
              simp only [settings, hset]
              exact h1
      · split at h
        · rename_i hq
          split at h
          · cases h
          · rename_i v hv
            obtain ⟨os, s1, rfl, h1, h2⟩ := ih _ _ _ _ h
            unfold qtValue at hv
            split at hv
            · rename_i ha
              subst ha
              cases hv
              exact ⟨.qt none :: os, s1, by simp [Opt.args], h1, h2⟩
            · split at hv
              · rename_i hst
                rw [Py.startsWith_iff] at hst
                obtain ⟨m, rfl⟩ := hst
                simp only [List.drop_left] at hv
                split at hv
                · cases hv
                · rename_i hmem
                  simp only [Decidable.not_not] at hmem
                  refine ⟨.qt (some m) :: os, s1, by simp [Opt.args], ?_, h2⟩
                  simp only [settings, setting_eq, settingOf]
                  rw [if_pos (show m ∈ [c!"none", c!"auto", c!"pyqt5", c!"pyqt4", c!"pyside", c!"pyside2"] from hmem)]
                  split at hv
                  · rename_i hn; cases hv; simp only [hn, if_true]; exact h1
                  · rename_i hn; cases hv; simp only [hn, if_false]; exact h1
              · cases hv
        · split at h
          · rename_i ha
            subst ha
            cases argv with
            | nil => cases h
            | cons f argv => cases h; exact ⟨[], s, rfl, rfl, rfl⟩
          · split at h
            · rename_i hd
              subst hd
              exact ih _ _ _ _ h
            · cases h

/-- Parsing succeeds exactly on command lines made of valid options, then possibly `--file`, the program and its
arguments; the setup has exactly the settings of the options, and exactly the program and its arguments are left. -/
theorem c37_parse (pid : Int) (p : Str) (argv : List Str) (s : Setup) (left : List Str) :
    (∃ fuel, process pid fuel (p :: argv) = .ok s left) ↔
    ∃ os s1, argv = os.flatMap Opt.args ++ tail left ∧ settings pid os initial = some s1 ∧ s = withFile s1 left := by
  constructor
  · rintro ⟨fuel, h⟩
    exact loop_ok pid fuel argv _ s left h
  · rintro ⟨os, s1, rfl, h1, rfl⟩
    refine ⟨1 + os.length, ?_⟩
    show loop pid (1 + os.length) _ _ = _
    rw [loop_opts pid os 1 _ _ _ h1, loop_tail]

theorem loop_terminates (pid : Int) : ∀ (fuel : Nat) (argv : List Str) (s : Setup), argv.length ≤ fuel → c!"--DEBUG" ∉ argv →
    loop pid fuel argv s ≠ .running := by
  intro fuel
  induction fuel with
  | zero =>
    intro argv s h _
    cases argv with
    | nil => intro h; cases h
    | cons a argv => simp at h
  | succ fuel ih =>
    intro argv s h hd
    cases argv with
    | nil => intro h; cases h
    | cons a argv =>
      simp only [List.length_cons, Nat.add_le_add_iff_right] at h
      simp only [List.mem_cons, not_or] at hd
      rw [loop_cons]
      split
      · split
        · exact ih _ _ h hd.2
        · cases argv with
          | nil => intro h; cases h
          | cons v argv =>
            simp only [List.length_cons] at h
            simp only [List.mem_cons, not_or] at hd
            simp only
            split
            · intro h; cases h
            · exact ih _ _ (by omega) hd.2.2
      · split
        · split
          · intro h; cases h
          · exact ih _ _ h hd.2
        · split
          · cases argv <;> intro h <;> cases h
          · split
            · rename_i ha; exact absurd ha.symm hd.1
            · intro h; cases h

/-- Parsing terminates on every command line without `--DEBUG`, after at most as many rounds as there are arguments. -/
theorem c37_terminates (pid : Int) (argv : List Str) (h : c!"--DEBUG" ∉ argv) (fuel : Nat) (hf : argv.length ≤ fuel) :
    process pid fuel argv ≠ .running := by
  cases argv with
  | nil => intro h; cases h
  | cons p argv =>
    simp only [List.mem_cons, not_or] at h
    exact loop_terminates pid fuel argv _ (by simp at hf; omega) h.2

/-- With `--DEBUG` where an option is expected parsing never ends. -/
theorem c37_debug_never_ends (pid : Int) (p : Str) (os : List Opt) (s1 : Setup) (h : settings pid os initial = some s1) (rest : List Str) (fuel : Nat) :
    process pid fuel (p :: (os.flatMap Opt.args ++ c!"--DEBUG" :: rest)) = .running := by
  have h1 : ∀ fuel s, loop pid fuel (c!"--DEBUG" :: rest) s = .running := by
    intro fuel
    induction fuel with
    | zero => intro s; rfl
    | succ fuel ih =>
      intro s
      rw [loop_cons, handlerOf_debug]
      simp only
      rw [if_neg (by decide), if_neg (by decide), if_pos trivial]
      exact ih s
  show loop pid fuel _ _ = _
  apply Classical.byContradiction
  intro hne
  have := loop_mono pid fuel os.length _ _ hne
  rw [loop_opts pid os fuel _ _ _ h, h1] at this
  exact hne this.symm

/-! ### Round trip -/

/-- the value of a name in a setup is of the right kind -/
def Fits (pid : Int) (h : Handler) (v : Val) : Prop :=
  match h.conv with
  | none => ∃ b, v = .bool b
  | some .text => v = .none ∨ ∃ s, v = .str s
  | some .int => v = h.dflt ∨ ∃ i, v = .int i
  | some .ppid => ∃ i, v = .int i ∧ (i = pid → i = 0)

theorem fits {pid : Int} {s : Setup} (hw : WellTyped pid s) : ∀ h ∈ handlers, ∃ v, s h.name = some v ∧ Fits pid h v := by
  intro h hm
  unfold Fits
  cases hc : h.conv with
  | none =>
    obtain ⟨b, hb⟩ := hw.flag _ ((flag_iff h hm).1 hc)
    exact ⟨_, hb, b, rfl⟩
  | some c =>
    cases c with
    | text =>
      rcases hw.text _ ((text_iff h hm).1 hc) with h1 | ⟨t, h1⟩
      · exact ⟨_, h1, Or.inl rfl⟩
      · exact ⟨_, h1, Or.inr ⟨t, rfl⟩⟩
    | int =>
      obtain ⟨h1, h2⟩ := (int_iff h hm).1 hc
      simp only [numbers, List.mem_cons, List.not_mem_nil, or_false] at h1
      rcases h1 with h1 | h1 | h1
      · obtain ⟨i, hi⟩ := hw.port; rw [h1]; exact ⟨_, hi, Or.inr ⟨i, rfl⟩⟩
      · exact absurd h1 h2
      · have hd : h.dflt = .none := by rw [dflt_eq h hm, h1]; decide
        rw [h1, hd]
        rcases hw.level with h3 | ⟨i, h3⟩
        · exact ⟨_, h3, Or.inl rfl⟩
        · exact ⟨_, h3, Or.inr ⟨i, rfl⟩⟩
    | ppid =>
      obtain ⟨i, h1, h2⟩ := hw.ppid
      rw [(ppid_iff h hm).1 hc]
      exact ⟨_, h1, i, rfl, h2⟩

/-- the options `setup_to_argv` writes -/
def optsOf (setup : Setup) (skip : List Str) (hs : List Handler) : List Opt :=
  hs.flatMap fun h =>
    if h.name ∈ skip then []
    else
      let v := (setup h.name).getD .none
      match h.conv with
      | some _ => if v ≠ .none ∧ v ≠ h.dflt then [.param h.name v.text] else []
      | none => if v.truthy then [.flag h.name] else []

theorem optsOf_args (setup : Setup) (skip : List Str) (hs : List Handler) (hw : ∀ h ∈ hs, (setup h.name).isSome) :
    (optsOf setup skip hs).flatMap Opt.args =
      hs.flatMap fun h => if (setup h.name).isSome ∧ h.name ∉ skip then h.toArgv setup else [] := by
  induction hs with
  | nil => rfl
  | cons h hs ih =>
    have ih := ih fun x hx => hw x (by simp [hx])
    simp only [optsOf, List.flatMap_cons, List.flatMap_append] at ih ⊢
    rw [← ih]
    congr 1
    by_cases hsk : h.name ∈ skip
    · simp [hsk]
    · have h1 : (setup h.name).isSome = true ∧ h.name ∉ skip := ⟨hw h (by simp), hsk⟩
      simp only [if_neg hsk, if_pos h1]
      unfold Handler.toArgv Handler.rep
      cases h.conv with
      | none => simp only; split <;> simp [Opt.args]
      | some c => simp only; split <;> simp [Opt.args]

theorem initial_handler {h : Handler} (hm : h ∈ handlers) : initial h.name = some h.dflt := by
  revert h; decide

theorem settings_append (pid : Int) (a b : List Opt) (s : Setup) :
    settings pid (a ++ b) s = (settings pid a s).bind fun s => settings pid b s := by
  induction a generalizing s with
  | nil => rfl
  | cons o a ih =>
    simp only [List.cons_append, settings]
    split
    · rfl
    · exact ih _

/-- the settings of a handler that is written -/
theorem setting_of (pid : Int) (setup : Setup) {h : Handler} (hm : h ∈ handlers) {v : Val} (hv : setup h.name = some v) (hf : Fits pid h v) (s : Setup) :
    ∃ s1, settings pid (optsOf setup [] [h]) s = some s1 ∧ (∀ k, k ≠ h.name → s1 k = s k) ∧ (s h.name = some h.dflt → s1 h.name = some v) := by
  have hd : ∀ h ∈ handlers, h.conv = none → h.dflt = .bool false := by decide
  simp only [optsOf, List.flatMap_cons, List.flatMap_nil, List.append_nil, List.not_mem_nil, if_false, hv, Option.getD_some]
  unfold Fits at hf
  cases hc : h.conv with
  | none =>
    simp only [hc] at hf ⊢
    obtain ⟨b, rfl⟩ := hf
    cases b with
    | false =>
      refine ⟨s, by simp [Val.truthy, settings], fun _ _ => rfl, ?_⟩
      intro h1; rw [h1, hd h hm hc]
    | true =>
      have hs : (Opt.flag h.name).setting pid = some (h.name, .bool true) := by
        simp only [setting_eq, settingOf]
        rw [if_pos (by simp only [List.any_eq_true, Bool.and_eq_true, beq_iff_eq]; exact ⟨h, hm, rfl, hc⟩)]
      refine ⟨s.put h.name (.bool true), by simp [Val.truthy, settings, hs], ?_, ?_⟩
      · intro k hk; simp [Setup.put, hk]
      · intro _; simp [Setup.put]
  | some c =>
    simp only [hc] at hf ⊢
    by_cases hw : v ≠ .none ∧ v ≠ h.dflt
    · rw [if_pos hw]
      have hs : (Opt.param h.name v.text).setting pid = some (h.name, v) := by
        simp only [setting_eq, settingOf, find_name hm, hc]
        cases c with
        | text =>
          rcases hf with rfl | ⟨t, rfl⟩
          · exact absurd rfl hw.1
          · rfl
        | int =>
          rcases hf with rfl | ⟨i, rfl⟩
          · exact absurd rfl hw.2
          · simp [Val.text, Py.parseInt_intStr]
        | ppid =>
          obtain ⟨i, rfl, hi⟩ := hf
          simp only [Val.text, Py.parseInt_intStr]
          rw [if_neg (fun hx => hx.2 (hi hx.1))]
      refine ⟨s.put h.name v, by simp [settings, hs], ?_, ?_⟩
      · intro k hk; simp [Setup.put, hk]
      · intro _; simp [Setup.put]
    · rw [if_neg hw]
      refine ⟨s, rfl, fun _ _ => rfl, ?_⟩
      intro h1
      rw [h1]
      -- the value is the default
      have hnone : ∀ h ∈ handlers, h.conv = some .text → h.dflt = .none := by decide
      have hint : ∀ h ∈ handlers, h.conv = some .int → h.dflt = .none ∨ ∃ i, h.dflt = .int i := by
        have : ∀ h ∈ handlers, h.conv = some .int → h.dflt = .none ∨ h.dflt = .int 0 := by decide
        intro h hm hc; rcases this h hm hc with h1 | h1
        · exact Or.inl h1
        · exact Or.inr ⟨_, h1⟩
      cases c with
      | text =>
        rcases hf with rfl | ⟨t, rfl⟩
        · rw [hnone h hm hc]
        · simp only [ne_eq, reduceCtorEq, not_false_eq_true, true_and, Decidable.not_not] at hw; rw [hw]
      | int =>
        rcases hf with rfl | ⟨i, rfl⟩
        · rfl
        · simp only [ne_eq, reduceCtorEq, not_false_eq_true, true_and, Decidable.not_not] at hw; rw [hw]
      | ppid =>
        obtain ⟨i, rfl, _⟩ := hf
        simp only [ne_eq, reduceCtorEq, not_false_eq_true, true_and, Decidable.not_not] at hw; rw [hw]

theorem settings_optsOf (pid : Int) (setup : Setup) (hw : WellTyped pid setup) (skip : List Str) (hs : List Handler) (hsub : ∀ h ∈ hs, h ∈ handlers)
    (hnd : (hs.map (·.name)).Nodup) : ∀ s, (∀ h ∈ hs, s h.name = some h.dflt) →
    ∃ s1, settings pid (optsOf setup skip hs) s = some s1 ∧ (∀ k, k ∉ hs.map (·.name) → s1 k = s k) ∧
      ∀ h ∈ hs, s1 h.name = if h.name ∈ skip then some h.dflt else setup h.name := by
  induction hs with
  | nil => intro s _; exact ⟨s, rfl, fun _ _ => rfl, by simp⟩
  | cons h hs ih =>
    intro s hini
    simp only [List.map_cons, List.nodup_cons] at hnd
    have e : optsOf setup skip (h :: hs) = optsOf setup skip [h] ++ optsOf setup skip hs := by simp [optsOf]
    obtain ⟨v, hv, hf⟩ := fits hw h (hsub h (by simp))
    have step : ∃ s0, settings pid (optsOf setup skip [h]) s = some s0 ∧ (∀ k, k ≠ h.name → s0 k = s k) ∧
        s0 h.name = if h.name ∈ skip then some h.dflt else setup h.name := by
      by_cases hsk : h.name ∈ skip
      · refine ⟨s, by simp [optsOf, hsk, settings], fun _ _ => rfl, ?_⟩
        rw [if_pos hsk]; exact hini h (by simp)
      · obtain ⟨s0, h1, h2, h3⟩ := setting_of pid setup (hsub h (by simp)) hv hf s
        refine ⟨s0, ?_, h2, ?_⟩
        · rw [← h1]; simp [optsOf, hsk]
        · rw [if_neg hsk, hv]; exact h3 (hini h (by simp))
    obtain ⟨s0, h1, h2, h3⟩ := step
    obtain ⟨s1, h4, h5, h6⟩ := ih (fun x hx => hsub x (by simp [hx])) hnd.2 s0 (by
      intro x hx
      rw [h2 x.name (by rintro he; exact hnd.1 (he ▸ List.mem_map_of_mem hx))]
      exact hini x (by simp [hx]))
    refine ⟨s1, ?_, ?_, ?_⟩
    · rw [e, settings_append, h1]; exact h4
    · intro k hk
      simp only [List.map_cons, List.mem_cons, not_or] at hk
      rw [h5 k hk.2, h2 k hk.1]
    · intro x hx
      rcases List.mem_cons.1 hx with rfl | hx
      · rw [h5 _ hnd.1]; exact h3
      · exact h6 x hx

/-- The command line written for a setup, followed by the user's program (or none), is parsed to the same setup:
every name written has its value, the names left out have their defaults, and exactly the program and its arguments
remain. -/
theorem c37_round_trip (pid : Int) (pydevd : Str) (setup : Setup) (hw : WellTyped pid setup) (skip : List Str) (program : List Str) :
    ∃ fuel s, process pid fuel (setupToArgv pydevd setup skip ++ tail program) = .ok s program ∧
      (∀ n ∈ flags ++ texts ++ numbers, s n = if n ∈ skip then some (Spec.default n) else setup n) ∧
      s c!"file" = some (.str (program.head?.getD [])) ∧ s c!"qt-support" = some (.str []) := by
  obtain ⟨s1, h1, h2, h3⟩ := settings_optsOf pid setup hw skip handlers (fun _ h => h) names_nodup initial (fun h hm => initial_handler hm)
  have hargs := optsOf_args setup skip handlers (fun h hm => by obtain ⟨v, hv, _⟩ := fits hw h hm; simp [hv])
  refine ⟨1 + (optsOf setup skip handlers).length, withFile s1 program, ?_, ?_, ?_, ?_⟩
  · show loop pid _ (_ ++ tail program) initial = _
    rw [← hargs, loop_opts pid _ 1 _ _ _ h1, loop_tail]
  all_goals
    have hfile : ∀ h ∈ handlers, h.name ≠ c!"file" := by decide
    have hwf : ∀ k, k ≠ c!"file" → withFile s1 program k = s1 k := by
      intro k hk; cases program <;> simp [withFile, Setup.put, hk]
  · intro n hn
    obtain ⟨h, hx⟩ := table n hn
    have hm := List.mem_of_find?_eq_some hx
    have hn := List.find?_some hx
    simp only [beq_iff_eq] at hn
    subst hn
    rw [hwf _ (hfile h hm), h3 h hm, dflt_eq h hm]
  · cases program with
    | nil => simp only [withFile]; rw [h2 _ (by decide)]; decide
    | cons f args => simp [withFile, Setup.put]
  · rw [hwf _ (by decide), h2 _ (by decide)]; decide

/-- the default setup with a few values -/
def sample : Setup := ((initial.put c!"port" (.int 5678)).put c!"client" (.str c!"--server")).put c!"multiprocess" (.bool true)

example : WellTyped 100 sample where
  flag := by
    have : ∀ n ∈ flags, sample n = some (.bool true) ∨ sample n = some (.bool false) := by decide
    intro n hn; rcases this n hn with h | h <;> exact ⟨_, h⟩
  text := by
    have : ∀ n ∈ texts, sample n = some .none ∨ sample n = some (.str c!"--server") := by decide
    intro n hn; rcases this n hn with h | h
    · exact Or.inl h
    · exact Or.inr ⟨_, h⟩
  port := ⟨5678, by decide⟩
  ppid := ⟨0, by decide, by decide⟩
  level := Or.inl (by decide)

/-- A value equal to `--server` after an option that takes a value is that option's value, not a flag. -/
example : settings 1 [.param c!"client" c!"--server"] initial = some (initial.put c!"client" (.str c!"--server")) := rfl

end CmdLine
