import Verif.GuiLoop.Spec
/-!
C139: the event loop asked for is activated, once, in the main thread.
-/

namespace GuiLoop

open Spec

theorem attrs_iff (w : World) (o : Nat) (as : List Str) (v : Nat) : attrs w o as = some v ↔ Chain w o as v := by
  induction as generalizing o with
  | nil =>
    rw [attrs]
    constructor
    · intro h; cases h; exact .here
    · intro h; cases h; rfl
  | cons a as ih =>
    rw [attrs]
    constructor
    · intro h
      obtain ⟨o', h1, h2⟩ := Option.bind_eq_some_iff.mp h
      exact .attr h1 ((ih o').mp h2)
    · intro h
      cases h with
      | attr h1 h2 => rw [h1, Option.bind_some]; exact (ih _).mpr h2

theorem rsplit_none {x : Str} (h : '.' ∉ x) : rsplit x = none := by
  unfold rsplit
  rw [if_neg h]

theorem rsplit_dot (a x : Str) (h : '.' ∉ x) : rsplit (a ++ '.' :: x) = some (a, x) := by
  unfold rsplit
  rw [if_pos (by simp)]
  have e : (a ++ '.' :: x).reverse = x.reverse ++ '.' :: a.reverse := by simp
  have h1 : ∀ c ∈ x.reverse, (c != '.') = true := by
    intro c hc
    simp only [bne_iff_ne, ne_eq]
    rintro rfl
    exact h (by simpa using hc)
  rw [e, List.dropWhile_append_of_pos h1, List.takeWhile_append_of_pos h1]
  simp

theorem join_snoc (ps : List Str) (x : Str) (h : ps ≠ []) : Py.join1 '.' (ps ++ [x]) = Py.join1 '.' ps ++ '.' :: x := by
  induction ps with
  | nil => exact absurd rfl h
  | cons p ps ih =>
    cases ps with
    | nil => rfl
    | cons q ps =>
      have e : Py.join1 '.' (p :: q :: ps) = p ++ '.' :: Py.join1 '.' (q :: ps) := Py.join1_cons _ _ _ (by simp)
      rw [e, List.cons_append, Py.join1_cons _ _ _ (by simp), ih (by simp)]
      simp

theorem loop_spec (w : World) (parts : List Str) (hd : ∀ p ∈ parts, '.' ∉ p) (n : Nat) (h0 : 0 < n) (hn : n < parts.length) (v : Nat) :
    importLoop w (Py.join1 '.' (parts.take n)) (Py.join1 '.' (parts.drop n)) = some v ↔
      ∃ j m, 0 < j ∧ j ≤ n ∧ w.imp (Py.join1 '.' (parts.take j)) = some m ∧
        (∀ k, j < k → k ≤ n → w.imp (Py.join1 '.' (parts.take k)) = none) ∧ Chain w m (parts.drop j) v := by
  induction n with
  | zero => omega
  | succ n ih =>
    rw [importLoop.eq_def]
    have hsplit : Py.split1 '.' (Py.join1 '.' (parts.drop (n + 1))) = parts.drop (n + 1) :=
      Py.split1_join1 _ _ (by simp; omega) (fun p hp => hd p (List.mem_of_mem_drop hp))
    cases hm : w.imp (Py.join1 '.' (parts.take (n + 1))) with
    | some m =>
      simp only
      rw [hsplit, attrs_iff]
      constructor
      · intro h
        exact ⟨n + 1, m, by omega, by omega, hm, fun k h1 h2 => by omega, h⟩
      · rintro ⟨j, m', h1, h2, h3, h4, h5⟩
        by_cases hj : j = n + 1
        · subst hj
          rw [hm] at h3
          cases h3
          exact h5
        · have := h4 (n + 1) (by omega) (by omega)
          rw [hm] at this
          exact absurd this (by simp)
    | none =>
      simp only
      have ht : parts.take (n + 1) = parts.take n ++ [parts[n]] := by rw [List.take_append_getElem]
      have hx : '.' ∉ parts[n] := hd _ (List.getElem_mem _)
      by_cases hn0 : n = 0
      · subst hn0
        have hr : rsplit (Py.join1 '.' (parts.take (0 + 1))) = none := by
          rw [ht]
          exact rsplit_none (show '.' ∉ parts[0] from hx)
        constructor
        · intro h
          split at h
          · exact absurd h (by simp)
          · rename_i a b he
            rw [hr] at he
            exact absurd he (by simp)
        · rintro ⟨j, m', h1, h2, h3, _⟩
          have : j = 0 + 1 := by omega
          subst this
          rw [hm] at h3
          exact absurd h3 (by simp)
      · have hr : rsplit (Py.join1 '.' (parts.take (n + 1))) = some (Py.join1 '.' (parts.take n), parts[n]) := by
          have hne : parts.take n ≠ [] := by
            intro e
            have h9 := congrArg List.length e
            rw [List.length_take, List.length_nil] at h9
            omega
          rw [ht, join_snoc _ _ hne]
          exact rsplit_dot _ _ hx
        have hdrop : parts[n] ++ c!"." ++ Py.join1 '.' (parts.drop (n + 1)) = Py.join1 '.' (parts.drop n) := by
          rw [List.drop_eq_getElem_cons (i := n) (by omega), Py.join1_cons _ _ _ (by simp; omega)]
          simp
        have hi := ih (by omega) (by omega)
        rw [← hdrop] at hi
        split
        · rename_i he
          rw [hr] at he
          exact absurd he (by simp)
        rename_i a b he
        rw [hr] at he
        cases he
        rw [hi]
        constructor
        · rintro ⟨j, m', h1, h2, h3, h4, h5⟩
          refine ⟨j, m', h1, by omega, h3, ?_, h5⟩
          intro k hk1 hk2
          by_cases hk : k = n + 1
          · rw [hk]; exact hm
          · exact h4 k hk1 (by omega)
        · rintro ⟨j, m', h1, h2, h3, h4, h5⟩
          have hj : j ≠ n + 1 := by
            rintro rfl
            rw [hm] at h3
            exact absurd h3 (by simp)
          exact ⟨j, m', h1, by omega, h3, fun k hk1 hk2 => h4 k hk1 (by omega), h5⟩

/-- C139. A dotted name gives the object it stands for: an attribute of the longest part of it that is a module. -/
theorem c139_attr (w : World) (parts : List Str) (hd : ∀ p ∈ parts, '.' ∉ p) (hl : 2 ≤ parts.length) (v : Nat) :
    importAttr w (Py.join1 '.' parts) = some v ↔ Means w parts v := by
  obtain ⟨n, hn⟩ : ∃ n, parts.length = n + 1 := ⟨parts.length - 1, by omega⟩
  have ht : parts = parts.take n ++ [parts[n]] := by
    conv => lhs; rw [← List.take_length (l := parts), hn]
    rw [List.take_append_getElem]
  have hr : rsplit (Py.join1 '.' parts) = some (Py.join1 '.' (parts.take n), parts[n]) := by
    conv => lhs; rw [ht]
    have hne : parts.take n ≠ [] := by
      intro e
      have h9 := congrArg List.length e
      rw [List.length_take, List.length_nil] at h9
      omega
    rw [join_snoc _ _ hne]
    exact rsplit_dot _ _ (hd _ (List.getElem_mem _))
  have hlast : parts[n] = Py.join1 '.' (parts.drop n) := by
    rw [List.drop_eq_getElem_cons (i := n) (by omega), List.drop_of_length_le (by omega)]
    rfl
  unfold importAttr
  rw [hr, Option.bind_some]
  simp only
  rw [hlast, loop_spec w parts hd n (by omega) (by omega)]
  unfold Means
  constructor
  · rintro ⟨j, m, h1, h2, h3, h4, h5⟩
    exact ⟨j, m, h1, by omega, h3, fun k a b => h4 k a (by omega), h5⟩
  · rintro ⟨j, m, h1, h2, h3, h4, h5⟩
    exact ⟨j, m, h1, by omega, h3, fun k a b => h4 k a (by omega), h5⟩

/-- C139. A name without a dot is an error. -/
theorem c139_no_dot (w : World) (name : Str) (h : '.' ∉ name) : importAttr w name = none := by
  unfold importAttr
  rw [rsplit_none h]
  rfl

/-! ### Activation -/

theorem patchLoop_log (loaded : List Str) (ms : List Str) (s : St) (hms : ms.Nodup) (h1 : ∀ m ∈ ms, m ∈ s.mpl) :
    (patchLoop loaded s ms).log = s.log ++ (ms.filter (fun m => decide (m ∈ loaded))).map Ev.module ∧
    (patchLoop loaded s ms).fn = s.fn ∧ ((patchLoop loaded s ms).inUse = (s.inUse || ms.any fun m => decide (m ∈ loaded))) ∧
    (∀ m, m ∈ (patchLoop loaded s ms).mpl ↔ m ∈ s.mpl ∧ ¬ (m ∈ ms ∧ m ∈ loaded)) := by
  induction ms generalizing s with
  | nil => simp [patchLoop]
  | cons m ms ih =>
    obtain ⟨hm1, hm2⟩ := List.nodup_cons.mp hms
    rw [patchLoop]
    by_cases hl : m ∈ loaded
    · rw [if_pos hl, if_pos (h1 m (by simp))]
      obtain ⟨a, b, c, d⟩ := ih { s with mpl := s.mpl.filter (· != m), inUse := true, log := s.log ++ [.module m] } hm2 (by
        intro x hx
        refine List.mem_filter.mpr ⟨h1 x (by simp [hx]), ?_⟩
        simp only [bne_iff_ne, ne_eq]
        rintro rfl
        exact hm1 hx)
      refine ⟨?_, b, ?_, ?_⟩
      · rw [a]; simp [hl]
      · rw [c]; simp [hl]
      · intro x
        rw [d]
        simp only [List.mem_filter, bne_iff_ne, ne_eq, List.mem_cons]
        by_cases hx : x = m
        · subst hx; simp [hl]
        · simp [hx]
    · rw [if_neg hl]
      obtain ⟨a, b, c, d⟩ := ih s hm2 (fun x hx => h1 x (by simp [hx]))
      refine ⟨?_, b, ?_, ?_⟩
      · rw [a]; simp [hl]
      · rw [c]; simp [hl]
      · intro x
        rw [d]
        simp only [List.mem_cons]
        by_cases hx : x = m
        · subst hx; simp [hl]
        · simp [hx]

/-- C139. Only the main thread activates anything. -/
theorem c139_main (s : St) (c : Call) (h : c.main = false) : activate s c = s := by
  unfold activate
  split
  · rfl
  · simp [h]

theorem run_inUse (s : St) (h : s.inUse = true) (cs : List Call) : run s cs = s := by
  induction cs with
  | nil => rfl
  | cons c cs ih =>
    show run (activate s c) cs = s
    have : activate s c = s := by unfold activate; rw [if_pos h]
    rw [this, ih]

theorem activate_eq (c : Call) (hm : c.main = true) : activate (initial true) c =
    (let s := patchLoop c.loaded (initial true) [c!"matplotlib", c!"matplotlib.pyplot", c!"pylab"]
    if s.fn = true then
      match c.enabled with
      | .ok => { s with fn := false, inUse := true, log := s.log ++ [.builtin] }
      | .fails => s
      | .unknown =>
        match c.custom with
        | some f => { s with fn := false, inUse := true, log := s.log ++ [.hook f] }
        | none => { s with fn := false }
    else s) := by
  have h : (if (initial true).mpl ≠ [] ∧ c.main = true then patchLoop c.loaded (initial true) (initial true).mpl else initial true) =
      patchLoop c.loaded (initial true) [c!"matplotlib", c!"matplotlib.pyplot", c!"pylab"] := if_pos ⟨by decide, hm⟩
  unfold activate
  rw [if_neg (by decide)]
  simp only [h]
  simp only [hm, and_true]
  rfl

theorem activate_mpl (c : Call) (hm : c.main = true) :
    (activate (initial true) c).log = ([c!"matplotlib", c!"matplotlib.pyplot", c!"pylab"].filter fun m => decide (m ∈ c.loaded)).map Ev.module ∧
    (activate (initial true) c).inUse = ([c!"matplotlib", c!"matplotlib.pyplot", c!"pylab"].any fun m => decide (m ∈ c.loaded)) ∧
    (activate (initial true) c).fn = false := by
  obtain ⟨a, b, d, _⟩ := patchLoop_log c.loaded [c!"matplotlib", c!"matplotlib.pyplot", c!"pylab"] (initial true) (by decide) (fun m hm => hm)
  have e : activate (initial true) c = patchLoop c.loaded (initial true) [c!"matplotlib", c!"matplotlib.pyplot", c!"pylab"] := by
    rw [activate_eq c hm, if_neg (by rw [b]; decide)]
  rw [e]
  exact ⟨by rw [a]; rfl, by rw [d]; rfl, b.trans rfl⟩

/-- C139. With matplotlib: what is activated, in all the calls together, are those of its modules that are imported when the main thread first finds
one, each once. -/
theorem c139_matplotlib (pre post : List Call) (c : Call) (hm : c.main = true)
    (hpre : ∀ d ∈ pre, d.main = true → ∀ m ∈ [c!"matplotlib", c!"matplotlib.pyplot", c!"pylab"], m ∉ d.loaded)
    (hc : ∃ m ∈ [c!"matplotlib", c!"matplotlib.pyplot", c!"pylab"], m ∈ c.loaded) :
    (run (initial true) (pre ++ c :: post)).log =
      ([c!"matplotlib", c!"matplotlib.pyplot", c!"pylab"].filter fun m => decide (m ∈ c.loaded)).map Ev.module := by
  have hp : run (initial true) pre = initial true := by
    induction pre with
    | nil => rfl
    | cons d pre ih =>
      show run (activate (initial true) d) pre = _
      have : activate (initial true) d = initial true := by
        by_cases hd : d.main = true
        · have hl := hpre d (by simp) hd
          have h1 := hl c!"matplotlib" (by simp)
          have h2 := hl c!"matplotlib.pyplot" (by simp)
          have h3 := hl c!"pylab" (by simp)
          have e : patchLoop d.loaded (initial true) [c!"matplotlib", c!"matplotlib.pyplot", c!"pylab"] = initial true := by
            rw [patchLoop, if_neg h1, patchLoop, if_neg h2, patchLoop, if_neg h3, patchLoop]
          rw [activate_eq d hd, e]
          rfl
        · exact c139_main _ _ (by simpa using hd)
      rw [this]
      exact ih (fun x hx => hpre x (by simp [hx]))
  unfold run at hp ⊢
  rw [List.foldl_append, hp, List.foldl_cons]
  obtain ⟨a, b, _⟩ := activate_mpl c hm
  have hin : (activate (initial true) c).inUse = true := by
    rw [b, List.any_eq_true]
    obtain ⟨m, h1, h2⟩ := hc
    exact ⟨m, h1, by simpa using h2⟩
  have := run_inUse _ hin post
  unfold run at this
  rw [this, a]

/-- C139. Without matplotlib: the first call of the main thread whose `enable_gui` does not fail decides: the known event loop is activated, or else the
user's own function, and nothing ever after. -/
theorem c139_loop (pre post : List Call) (c : Call) (hm : c.main = true) (hpre : ∀ d ∈ pre, d.main = true → d.enabled = .fails) (hc : c.enabled ≠ .fails) :
    (run (initial false) (pre ++ c :: post)).log =
      (if c.enabled = .ok then [.builtin] else match c.custom with
        | some f => [.hook f]
        | none => []) := by
  have hp : run (initial false) pre = initial false := by
    induction pre with
    | nil => rfl
    | cons d pre ih =>
      show run (activate (initial false) d) pre = _
      have : activate (initial false) d = initial false := by
        by_cases hd : d.main = true
        · have := hpre d (by simp) hd
          unfold activate
          rw [if_neg (by decide)]
          simp only [hd, and_true, this]
          rfl
        · exact c139_main _ _ (by simpa using hd)
      rw [this]
      exact ih (fun x hx => hpre x (by simp [hx]))
  have hdead : ∀ (s : St), s.mpl = [] → s.fn = false → run s post = s := by
    intro s h1 h2
    induction post with
    | nil => rfl
    | cons d post ih =>
      show run (activate s d) post = s
      have : activate s d = s := by
        unfold activate
        split
        · rfl
        · simp [h1, h2]
      rw [this, ih]
  unfold run at hp
  show (List.foldl activate (initial false) (pre ++ c :: post)).log = _
  rw [List.foldl_append, hp, List.foldl_cons]
  show (run (activate (initial false) c) post).log = _
  cases he : c.enabled with
  | fails => exact absurd he hc
  | ok =>
    have e : activate (initial false) c = { fn := false, inUse := true, log := [.builtin] } := by
      unfold activate
      rw [if_neg (by decide)]
      simp only [hm, and_true, he]
      rfl
    rw [e, hdead _ rfl rfl]
    rfl
  | unknown =>
    cases hcu : c.custom with
    | some f =>
      have e : activate (initial false) c = { fn := false, inUse := true, log := [.hook f] } := by
        unfold activate
        rw [if_neg (by decide)]
        simp only [hm, and_true, he, hcu]
        rfl
      rw [e, hdead _ rfl rfl]
      rfl
    | none =>
      have e : activate (initial false) c = { fn := false } := by
        unfold activate
        rw [if_neg (by decide)]
        simp only [hm, and_true, he, hcu]
        rfl
      rw [e, hdead _ rfl rfl]
      rfl

/-- C139. A loop Python does not know is the user's function: the one its dotted name stands for is installed, and only that. -/
theorem c139_custom (w : World) (parts : List Str) (hd : ∀ p ∈ parts, '.' ∉ p) (hl : 2 ≤ parts.length) (pre post : List Call)
    (hpre : ∀ d ∈ pre, d.main = true → d.enabled = .fails) (f : Nat) :
    (run (initial false) (pre ++ { main := true, enabled := .unknown, custom := importAttr w (Py.join1 '.' parts) } :: post)).log = [.hook f] ↔
      Means w parts f := by
  rw [c139_loop pre post _ rfl hpre (by simp), if_neg (by simp), ← c139_attr w parts hd hl]
  cases importAttr w (Py.join1 '.' parts) <;> simp

/-! ### Cases, and what is wrong -/

def world : World :=
  { imp := fun n => if n = c!"a" then some 1 else if n = c!"a.b" then some 2 else none
    attr := fun o n => if o = 1 ∧ n = c!"b" then some 5 else if o = 2 ∧ n = c!"c" then some 3 else if o = 3 ∧ n = c!"run" then some 4 else none }

/-- A function in a class of a module in a package. -/
theorem c139_example : importAttr world c!"a.b.c.run" = some 4 ∧
    (run (initial false) [{ main := false }, { main := true, custom := importAttr world c!"a.b.c.run" }, { main := true }]).log = [.hook 4] := by
  constructor <;> decide +kernel

/-- Its name stands for it, so that the theorems above apply. -/
example : Means world [c!"a", c!"b", c!"c", c!"run"] 4 :=
  (c139_attr world _ (by decide) (by decide) 4).mp c139_example.1

/-- A shorter module is not tried if the longest has no such attribute, although there Python's own `a.b` is another object. -/
theorem c139_longest_witness : importAttr { world with attr := fun o n => if o = 1 ∧ n = c!"b" then some 5 else if o = 5 ∧ n = c!"f" then some 6 else none }
    c!"a.b.f" = none := by decide +kernel

/-- If the program pauses when `matplotlib` is imported and `matplotlib.pyplot` not yet, the latter is never activated. -/
theorem c139_pyplot_witness :
    (run (initial true) [{ main := true, loaded := [c!"matplotlib"] }, { main := true, loaded := [c!"matplotlib", c!"matplotlib.pyplot"] }]).log =
      [.module c!"matplotlib"] := by decide +kernel

end GuiLoop
