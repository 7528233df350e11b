import Verif.Greenlets.Spec
/-! C102: paused greenlets are shown while their thread is stopped. -/

namespace Greenlets
open Spec

theorem run_snoc (acts : List Act) (a : Act) : run (acts ++ [a]) = step (run acts) a := by simp [run]
theorem world_snoc (acts : List Act) (a : Act) : world (acts ++ [a]) = next (world acts) a := by simp [world]

/-- The dictionaries fit together and hold the paused greenlets. -/
structure Core (owner : Nat → Nat) (s : St) (w : World) : Prop where
  okC : Py.Dict.Ok s.custom
  saved : ∀ g id, Py.Dict.get s.saved g = some id → Py.Dict.get s.custom id = some ⟨.ident (owner g), g⟩
  custom : ∀ id f, Py.Dict.get s.custom id = some f →
    f.who = .ident (owner f.greenlet) ∧ Py.Dict.get s.saved f.greenlet = some id ∧ id ≤ s.next
  paused : ∀ g, w.paused g = true ↔ ∃ id, Py.Dict.get s.saved g = some id
  stopped : ∀ t, w.stopped t = true ↔ ∃ l, Py.Dict.get s.stops t = some l
  from_ : ∀ t l g id, Py.Dict.get s.stops t = some l → owner g = t → Py.Dict.get s.saved g = some id → id ∈ l
  names : ∀ id g, Py.Dict.get s.names id = some g →
    Py.Dict.get s.saved g = some id ∧ w.stopped (owner g) = true

/-- A running greenlet is not among the saved ones. -/
structure Run (owner : Nat → Nat) (s : St) (w : World) : Prop where
  running : ∀ t g, w.running t = some g → owner g = t ∧ Py.Dict.get s.saved g = none
  quiet : ∀ t g, w.running t = none → owner g = t → Py.Dict.get s.saved g = none

theorem get_drop (s : St) (g x : Nat) :
    Py.Dict.get (drop s g).saved x = if x = g then none else Py.Dict.get s.saved x := by
  unfold drop
  split
  · rw [Py.Dict.get_erase]
  · split
    · rename_i h e; rw [e]; exact h
    · rfl

theorem core_drop {owner : Nat → Nat} {s : St} {w w' : World} (h : Core owner s w) (g : Nat)
    (hs : w.stopped (owner g) = false) (hp : w'.paused = upd w.paused g false) (hst : w'.stopped = w.stopped) :
    Core owner (drop s g) w' := by
  obtain ⟨h1, h2, h3, h4, h5, h6, h7⟩ := h
  have hx : ∀ x id, Py.Dict.get (drop s g).saved x = some id → x ≠ g ∧ Py.Dict.get s.saved x = some id := by
    intro x id hh
    rw [get_drop] at hh
    grind
  have hy : ∀ x, x ≠ g → Py.Dict.get (drop s g).saved x = Py.Dict.get s.saved x := by
    intro x hne
    rw [get_drop, if_neg hne]
  have hc : ∀ id, Py.Dict.get (drop s g).custom id =
      if Py.Dict.get s.saved g = some id then none else Py.Dict.get s.custom id := by
    intro id
    unfold drop
    split
    · rename_i k hk
      rw [Py.Dict.get_erase, hk]
      grind
    · rename_i hk
      rw [hk]
      simp
  have hn : (drop s g).next = s.next := by unfold drop; split <;> rfl
  have hm : (drop s g).names = s.names := by unfold drop; split <;> rfl
  have ht : (drop s g).stops = s.stops := by unfold drop; split <;> rfl
  constructor
  · unfold drop
    split
    · exact Py.Dict.ok_erase h1 _
    · exact h1
  · intro x id hh
    obtain ⟨hne, hg⟩ := hx x id hh
    rw [hc]
    have := h2 x id hg
    grind
  · intro id f hh
    rw [hc] at hh
    rw [hn]
    grind
  · intro x
    rw [hp]
    by_cases e : x = g
    · subst e; simp [upd, get_drop]
    · rw [hy x e, ← h4]; simp [upd, e]
  · intro t; rw [hst, ht]; exact h5 t
  · intro t l x id e1 e2 e3
    rw [ht] at e1
    exact h6 t l x id e1 e2 (hx x id e3).2
  · intro id x hh
    rw [hm] at hh
    rw [hst]
    have := h7 id x hh
    grind

theorem core_add {owner : Nat → Nat} {s : St} {w w' : World} (h : Core owner s w) (g : Nat)
    (hg : Py.Dict.get s.saved g = none) (hs : w.stopped (owner g) = false) (hp : w'.paused = upd w.paused g true)
    (hst : w'.stopped = w.stopped) : Core owner (add s (owner g) g) w' := by
  obtain ⟨h1, h2, h3, h4, h5, h6, h7⟩ := h
  unfold add
  have hfresh : Py.Dict.get s.custom (s.next + 1) = none := by
    cases e : Py.Dict.get s.custom (s.next + 1)
    · rfl
    · have := (h3 _ _ e).2.2
      omega
  constructor
  · exact Py.Dict.ok_set h1 _ _
  · intro x id hh
    simp only [Py.Dict.get_set] at hh ⊢
    grind
  · intro id f hh
    simp only [Py.Dict.get_set] at hh ⊢
    grind
  · intro x
    rw [hp]
    simp only [Py.Dict.get_set]
    by_cases e : x = g
    · simp [e, upd]
    · simp only [e, if_false, upd]; exact h4 x
  · intro t; rw [hst]; exact h5 t
  · intro t l x id e1 e2 e3
    simp only [Py.Dict.get_set] at e3
    dsimp only at e1
    split at e3
    · rename_i e
      subst e e2
      have := (h5 (owner x)).mpr ⟨l, e1⟩
      simp [hs] at this
    · exact h6 t l x id e1 e2 e3
  · intro id x hh
    rw [hst]
    simp only [Py.Dict.get_set]
    have := h7 id x hh
    grind

theorem get_switch_other {owner : Nat → Nat} {s : St} {o g x : Nat} (hx : x ≠ o) (hg : x ≠ g) (fr : Bool) (t : Nat) :
    Py.Dict.get (switch s t o g fr).saved x = Py.Dict.get s.saved x := by
  unfold switch
  dsimp only
  rw [get_drop, if_neg hg]
  split
  · split
    · simp [add, Py.Dict.get_set, hx]
    · unfold update; split <;> rfl
  · rw [get_drop, if_neg hx]

theorem inv_switch {owner : Nat → Nat} {s : St} {w : World} (h : Core owner s w) (hr : Run owner s w) {t o g : Nat}
    {fr : Bool} (hp : Possible owner w (.switch t o g fr)) :
    Core owner (step s (.switch t o g fr)) (next w (.switch t o g fr)) ∧
      Run owner (step s (.switch t o g fr)) (next w (.switch t o g fr)) := by
  obtain ⟨ho, hg, hrun, hne, hst⟩ := hp
  have hsaved : Py.Dict.get s.saved o = none := by
    rcases hrun with e | e
    · exact hr.quiet t o e ho
    · exact (hr.running t o e).2
  constructor
  · simp only [step, switch]
    refine core_drop (w := { w with paused := upd w.paused o fr }) ?_ g (by rw [hg]; exact hst) rfl rfl
    split
    · rename_i e
      subst e
      rw [hsaved]
      dsimp only
      rw [← ho]
      exact core_add h o hsaved (by rw [ho]; exact hst) rfl rfl
    · rename_i e
      have : fr = false := by simpa using e
      subst this
      exact core_drop h o (by rw [ho]; exact hst) rfl rfl
  · have hgone : Py.Dict.get (switch s t o g fr).saved g = none := by
      unfold switch
      dsimp only
      rw [get_drop, if_pos rfl]
    constructor
    · intro u x hx
      simp only [next, upd] at hx
      simp only [step]
      split at hx
      · cases hx
        rename_i e
        exact ⟨by rw [e]; exact hg, hgone⟩
      · rename_i e
        obtain ⟨h1, h2⟩ := hr.running u x hx
        exact ⟨h1, by rw [get_switch_other (owner := owner) (by grind) (by grind)]; exact h2⟩
    · intro u x hx hu
      simp only [next, upd] at hx
      simp only [step]
      split at hx
      · cases hx
      · rename_i e
        rw [get_switch_other (owner := owner) (by grind) (by grind)]
        exact hr.quiet u x hx hu

theorem get_names_stop (s : St) (t : Nat) (ok : Py.Dict.Ok s.custom) (id : Nat) :
    Py.Dict.get (stop s t).names id =
      match Py.Dict.get s.custom id with
      | some f => if f.who = .ident t then some f.greenlet else Py.Dict.get s.names id
      | none => Py.Dict.get s.names id := by
  have aux : ∀ (l : List (Nat × Frame)) (d : List (Nat × Nat)), Py.Dict.Ok l →
      Py.Dict.get ((l.filter (fun e => e.2.who == .ident t)).foldl (fun d e => Py.Dict.set d e.1 e.2.greenlet) d) id =
      match Py.Dict.get l id with
      | some f => if f.who = .ident t then some f.greenlet else Py.Dict.get d id
      | none => Py.Dict.get d id := by
    intro l
    induction l with
    | nil => intro d _; simp [Py.Dict.get_nil]
    | cons e l ih =>
        intro d ok
        have ok' : Py.Dict.Ok l := by
          unfold Py.Dict.Ok at ok ⊢
          simp only [List.map_cons, List.nodup_cons] at ok
          exact ok.2
        have hn : e.1 ∉ l.map (·.1) := by
          unfold Py.Dict.Ok at ok
          simp only [List.map_cons, List.nodup_cons] at ok
          exact ok.1
        have hg := (Py.Dict.get_none_iff l e.1).mpr hn
        rw [List.filter_cons, Py.Dict.get_cons]
        by_cases h1 : e.2.who = .ident t
        · have hb : (e.2.who == Who.ident t) = true := by simpa using h1
          rw [if_pos hb, List.foldl_cons, ih _ ok']
          by_cases h2 : e.1 = id
          · subst h2
            simp [hg, h1, Py.Dict.get_set]
          · rw [if_neg h2, Py.Dict.get_set, if_neg (fun x => h2 x.symm)]
        · have hb : ¬ ((e.2.who == Who.ident t) = true) := by simpa using h1
          rw [if_neg hb, ih _ ok']
          by_cases h2 : e.1 = id
          · subst h2
            simp [hg, h1]
          · rw [if_neg h2]
  exact aux s.custom s.names ok

theorem inv_stop {owner : Nat → Nat} {s : St} {w : World} (h : Core owner s w) (hr : Run owner s w) {t : Nat} :
    Core owner (step s (.stop t)) (next w (.stop t)) ∧ Run owner (step s (.stop t)) (next w (.stop t)) := by
  obtain ⟨h1, h2, h3, h4, h5, h6, h7⟩ := h
  refine ⟨⟨h1, h2, h3, h4, ?_, ?_, ?_⟩, ⟨hr.running, hr.quiet⟩⟩
  · intro u
    simp only [step, stop, next, upd, Py.Dict.get_set]
    split
    · simp
    · exact h5 u
  · intro u l g id e1 e2 e3
    simp only [step, stop, Py.Dict.get_set] at e1 e3
    split at e1
    · cases e1
      exact List.mem_map.mpr ⟨(id, _), Py.Dict.mem_of_get (h2 g id e3), rfl⟩
    · exact h6 u l g id e1 e2 e3
  · intro id g hg
    simp only [step] at hg
    rw [get_names_stop s t h1] at hg
    simp only [step, stop, next, upd]
    split at hg
    · rename_i f hf
      obtain ⟨a, b, c⟩ := h3 id f hf
      split at hg
      · cases hg
        refine ⟨b, ?_⟩
        rename_i e
        rw [e] at a
        cases a
        simp
      · have := h7 id g hg
        grind
    · have := h7 id g hg
      grind

theorem get_foldl_erase (ids : List Nat) (id : Nat) : ∀ d : List (Nat × Nat),
    Py.Dict.get (ids.foldl (fun d i => Py.Dict.erase d i) d) id = if id ∈ ids then none else Py.Dict.get d id := by
  induction ids with
  | nil => intro d; simp
  | cons i ids ih =>
      intro d
      rw [List.foldl_cons, ih, Py.Dict.get_erase]
      grind

theorem inv_resume {owner : Nat → Nat} {s : St} {w : World} (h : Core owner s w) (hr : Run owner s w) {t : Nat}
    (ht : w.stopped t = true) :
    Core owner (step s (.resume t)) (next w (.resume t)) ∧ Run owner (step s (.resume t)) (next w (.resume t)) := by
  obtain ⟨h1, h2, h3, h4, h5, h6, h7⟩ := h
  obtain ⟨ids, hids⟩ := (h5 t).mp ht
  simp only [step, resume, hids]
  refine ⟨⟨h1, h2, h3, h4, ?_, ?_, ?_⟩, ⟨hr.running, hr.quiet⟩⟩
  · intro u
    simp only [next, upd, Py.Dict.get_erase]
    split
    · simp
    · exact h5 u
  · intro u l g id e1 e2 e3
    simp only [Py.Dict.get_erase] at e1
    split at e1
    · cases e1
    · exact h6 u l g id e1 e2 e3
  · intro id g hg
    simp only [get_foldl_erase] at hg
    split at hg
    · cases hg
    · rename_i hni
      obtain ⟨a, b⟩ := h7 id g hg
      refine ⟨a, ?_⟩
      simp only [next, upd]
      split
      · rename_i e
        exact absurd (h6 t ids g id hids e a) hni
      · exact b

theorem inv_history {owner : Nat → Nat} {acts : List Act} (h : History owner acts) :
    Core owner (run acts) (world acts) ∧ Run owner (run acts) (world acts) := by
  induction h with
  | nil =>
      refine ⟨⟨Py.Dict.ok_nil, ?_, ?_, ?_, ?_, ?_, ?_⟩, ⟨?_, ?_⟩⟩ <;> simp [run, world, Py.Dict.get_nil]
  | snoc _ hp ih =>
      rename_i acts a _
      rw [run_snoc, world_snoc]
      cases a with
      | switch t o g fr => exact inv_switch ih.1 ih.2 hp
      | stop t => exact inv_stop ih.1 ih.2
      | resume t => exact inv_resume ih.1 ih.2 hp

theorem history_of {owner : Nat → Nat} {acts : List Act} (h : OneByOne owner acts) : History owner acts := by
  induction h with
  | nil => exact .nil
  | snoc _ hp _ ih => exact .snoc ih hp

/-- **C102, kept apart.** After any possible history the debugger keeps exactly one entry for every paused greenlet,
with the thread the greenlet belongs to, and no other entries. -/
theorem c102_entries (owner : Nat → Nat) (acts : List Act) (h : History owner acts) :
    (∀ g, (world acts).paused g = true ↔ ∃ id, (id, (⟨.ident (owner g), g⟩ : Frame)) ∈ (run acts).custom) ∧
    (∀ e ∈ (run acts).custom, e.2.who = .ident (owner e.2.greenlet)) ∧
    ((run acts).custom.map (·.2.greenlet)).Nodup ∧ ((run acts).custom.map (·.1)).Nodup := by
  obtain ⟨hc, hr⟩ := inv_history h
  have hmem : ∀ e ∈ (run acts).custom, Py.Dict.get (run acts).custom e.1 = some e.2 :=
    fun e he => Py.Dict.get_of_mem hc.okC he
  refine ⟨?_, ?_, ?_, hc.okC⟩
  · intro g
    rw [hc.paused]
    constructor
    · rintro ⟨id, hid⟩
      exact ⟨id, Py.Dict.mem_of_get (hc.saved g id hid)⟩
    · rintro ⟨id, hid⟩
      exact ⟨id, (hc.custom id _ (hmem _ hid)).2.1⟩
  · intro e he
    exact (hc.custom _ _ (hmem e he)).1
  · have hnd : (run acts).custom.Pairwise (fun a b => a.1 ≠ b.1) := by
      have := hc.okC
      unfold Py.Dict.Ok at this
      rwa [List.Nodup, List.pairwise_map] at this
    rw [List.Nodup, List.pairwise_map]
    refine List.Pairwise.imp_of_mem ?_ hnd
    intro a b ha hb hab e
    have h1 := (hc.custom _ _ (hmem a ha)).2.1
    have h2 := (hc.custom _ _ (hmem b hb)).2.1
    rw [e, h2] at h1
    exact hab (Option.some.inj h1).symm

/-- **C102, nothing else is shown.** After any possible history the list of threads has, besides the threads, only
paused greenlets of stopped threads. -/
theorem c102_only_paused (owner : Nat → Nat) (acts : List Act) (h : History owner acts) (id g : Nat)
    (hn : Py.Dict.get (run acts).names id = some g) :
    (world acts).paused g = true ∧ (world acts).stopped (owner g) = true := by
  obtain ⟨hc, hr⟩ := inv_history h
  obtain ⟨h1, h2⟩ := hc.names id g hn
  exact ⟨(hc.paused g).mpr ⟨id, h1⟩, h2⟩

/-- **C102, shown at the stop.** When a thread stops, all its paused greenlets are in the list of threads. -/
theorem c102_shown_at_stop (owner : Nat → Nat) (acts : List Act) (t g : Nat) (h : History owner acts)
    (hg : owner g = t) (hp : (world acts).paused g = true) :
    ∃ id, Py.Dict.get (run (acts ++ [.stop t])).names id = some g := by
  obtain ⟨hc, hr⟩ := inv_history h
  obtain ⟨id, hid⟩ := (hc.paused g).mp hp
  refine ⟨id, ?_⟩
  rw [run_snoc]
  simp only [step]
  rw [get_names_stop _ _ hc.okC, hc.saved g id hid]
  simp [hg]

/-- Paused greenlets of stopped threads are in the list of threads. -/
def AllShown (owner : Nat → Nat) (s : St) (w : World) : Prop :=
  ∀ g, w.paused g = true → w.stopped (owner g) = true → ∃ id, Py.Dict.get s.names id = some g

theorem names_switch (s : St) (t o g : Nat) (fr : Bool) : (switch s t o g fr).names = s.names := by
  have hd : ∀ (s : St) g, (drop s g).names = s.names := by intro s g; unfold drop; split <;> rfl
  unfold switch
  dsimp only
  rw [hd]
  split
  · split
    · rfl
    · unfold update; split <;> rfl
  · exact hd _ _

/-- **C102 (part).** If threads are resumed only while no other thread is stopped, then at any time the list of threads
shows exactly the paused greenlets of the stopped threads. Missing: when one of several stopped threads is resumed,
the greenlets of the others vanish from the list (`c102_vanish_witness`). -/
theorem c102_shown_partial (owner : Nat → Nat) (acts : List Act) (h : OneByOne owner acts) (g : Nat) :
    (∃ id, Py.Dict.get (run acts).names id = some g) ↔
      (world acts).paused g = true ∧ (world acts).stopped (owner g) = true := by
  constructor
  · rintro ⟨id, hid⟩
    exact c102_only_paused owner acts (history_of h) id g hid
  · rintro ⟨h1, h2⟩
    have : AllShown owner (run acts) (world acts) := by
      clear h1 h2
      induction h with
      | nil => intro g h1; simp [world] at h1
      | snoc h0 hp hone ih =>
          rename_i acts a
          obtain ⟨hc, hr⟩ := inv_history (history_of h0)
          rw [run_snoc, world_snoc]
          intro x hx hs
          cases a with
          | switch t o g fr =>
              simp only [step, names_switch]
              simp only [next, upd] at hx hs
              obtain ⟨p1, p2, p3, p4, p5⟩ := hp
              by_cases e : owner x = t
              · rw [e, p5] at hs
                cases hs
              · have e1 : x ≠ g := by grind
                have e2 : x ≠ o := by grind
                simp only [e1, e2, if_false] at hx
                exact ih x hx hs
          | stop t =>
              by_cases e : owner x = t
              · have := c102_shown_at_stop owner acts t x (history_of h0) e hx
                rwa [run_snoc] at this
              · simp only [next, upd, e, if_false] at hs hx
                obtain ⟨id, hid⟩ := ih x hx hs
                have hsv := (hc.names id x hid).1
                refine ⟨id, ?_⟩
                simp only [step]
                rw [get_names_stop _ _ hc.okC, hc.saved x id hsv]
                simp [e, hid]
          | resume t =>
              simp only [next, upd] at hs hx
              split at hs
              · cases hs
              · rename_i e
                have := hone t (owner x) rfl e
                rw [this] at hs
                cases hs
    exact this g h1 h2

theorem view_append (a b : List Msg) (id : Nat) :
    view (a ++ b) id = b.foldl tell (view a) id := by
  simp [view]

/-- **C102, messages.** At any time, after any history, the greenlets the client was told about and not told to be gone
are those in the list of threads. -/
theorem c102_messages (acts : List Act) (id : Nat) :
    view (run acts).msgs id = (Py.Dict.get (run acts).names id).isSome := by
  have key : ∀ s a, (∀ id, view s.msgs id = (Py.Dict.get s.names id).isSome) →
      ∀ id, view (step s a).msgs id = (Py.Dict.get (step s a).names id).isSome := by
    intro s a h
    cases a with
    | switch t o g fr =>
        have hm : (switch s t o g fr).msgs = s.msgs := by
          have hd : ∀ (s : St) g, (drop s g).msgs = s.msgs := by intro s g; unfold drop; split <;> rfl
          unfold switch
          dsimp only
          rw [hd]
          split
          · split
            · rfl
            · unfold update; split <;> rfl
          · exact hd _ _
        intro id
        simp only [step, names_switch, hm]
        exact h id
    | stop t =>
        simp only [step, stop]
        have aux : ∀ (l : List (Nat × Frame)) (v : Nat → Bool) (d : List (Nat × Nat)),
            (∀ id, v id = (Py.Dict.get d id).isSome) → ∀ id,
            (l.flatMap (fun e => [Msg.started e.1, Msg.stopped e.1])).foldl tell v id =
            (Py.Dict.get (l.foldl (fun d e => Py.Dict.set d e.1 e.2.greenlet) d) id).isSome := by
          intro l
          induction l with
          | nil => intro v d h id; simpa using h id
          | cons e l ih =>
              intro v d h id
              simp only [List.flatMap_cons, List.foldl_append, List.foldl_cons, List.foldl_nil]
              refine ih _ _ ?_ id
              intro x
              rw [Py.Dict.get_set]
              simp only [tell, upd]
              split <;> simp [h]
        intro id
        rw [view_append]
        exact aux _ _ _ h id
    | resume t =>
        simp only [step, resume]
        split
        · rename_i ids _
          have aux : ∀ (l : List Nat) (v : Nat → Bool) (d : List (Nat × Nat)),
              (∀ id, v id = (Py.Dict.get d id).isSome) → ∀ id,
              (l.map Msg.exited).foldl tell v id =
              (Py.Dict.get (l.foldl (fun d i => Py.Dict.erase d i) d) id).isSome := by
            intro l
            induction l with
            | nil => intro v d h id; simpa using h id
            | cons e l ih =>
                intro v d h id
                simp only [List.map_cons, List.foldl_cons]
                refine ih _ _ ?_ id
                intro x
                rw [Py.Dict.get_erase]
                simp only [tell, upd]
                split <;> simp [h]
          intro id
          rw [view_append]
          exact aux _ _ _ h id
        · exact h
  have : ∀ (acts : List Act) (s : St), (∀ id, view s.msgs id = (Py.Dict.get s.names id).isSome) →
      ∀ id, view (acts.foldl step s).msgs id = (Py.Dict.get (acts.foldl step s).names id).isSome := by
    intro acts
    induction acts with
    | nil => exact fun _ h => h
    | cons a acts ih => exact fun s h => ih _ (key s a h)
  exact this acts {} (fun id => by simp [view, Py.Dict.get_nil]) id

/-- **C102, a stop is told once.** At a stop of `t` the client is told of each paused greenlet of `t` exactly once, as
started and then as stopped, and of no other greenlet. -/
theorem c102_told_once (owner : Nat → Nat) (acts : List Act) (t : Nat) (h : History owner acts) :
    ∃ shown : List (Nat × Nat),
      (run (acts ++ [.stop t])).msgs =
        (run acts).msgs ++ shown.flatMap (fun e => [Msg.started e.1, Msg.stopped e.1]) ∧
      (shown.map (·.1)).Nodup ∧ (shown.map (·.2)).Nodup ∧
      (∀ g, g ∈ shown.map (·.2) ↔ (owner g = t ∧ (world acts).paused g = true)) := by
  obtain ⟨e1, e2, e3, e4⟩ := c102_entries owner acts h
  refine ⟨(ofThread (run acts) t).map (fun e => (e.1, e.2.greenlet)), ?_, ?_, ?_, ?_⟩
  · rw [run_snoc]
    simp [step, stop, List.flatMap_map]
  · rw [List.map_map]
    exact List.Nodup.sublist (List.Sublist.map _ List.filter_sublist) e4
  · rw [List.map_map]
    exact List.Nodup.sublist (List.Sublist.map _ List.filter_sublist) e3
  · intro g
    rw [List.map_map, List.mem_map]
    constructor
    · rintro ⟨e, he, rfl⟩
      obtain ⟨hm, hw⟩ := List.mem_filter.mp he
      have hw' : e.2.who = .ident t := by simpa using hw
      have ho := e2 e hm
      rw [hw'] at ho
      have : t = owner e.2.greenlet := by cases ho; rfl
      refine ⟨this.symm, (e1 _).mpr ⟨e.1, ?_⟩⟩
      have : (⟨.ident (owner e.2.greenlet), e.2.greenlet⟩ : Frame) = e.2 := by
        rw [← this, ← hw']
      simp only [Function.comp]
      rw [this]
      exact hm
    · rintro ⟨ho, hp⟩
      obtain ⟨id, hid⟩ := (e1 g).mp hp
      exact ⟨_, List.mem_filter.mpr ⟨hid, by simp [ho]⟩, rfl⟩

/-! ## Examples and witnesses -/

/-- Greenlets 0-9 belong to thread 1, the others to thread 2. -/
def owner2 (g : Nat) : Nat := if g < 10 then 1 else 2

/-- In thread 1 greenlet 3 is switched to from 1, then 4 from 3, then 3 ends and 1 goes on; the thread stops. -/
def example1 : List Act :=
  [.switch 1 1 3 true, .switch 1 3 4 true, .switch 1 4 1 false, .switch 2 11 12 true, .stop 1]

theorem c102_example :
    OneByOne owner2 example1 ∧ (world example1).paused 3 = true ∧ (world example1).paused 4 = false ∧
    (run example1).names = [(2, 3)] ∧ (run example1).msgs = [.started 2, .stopped 2] := by
  refine ⟨?_, by decide, by decide, by decide, by decide⟩
  have e : example1 = [] ++ [.switch 1 1 3 true] ++ [.switch 1 3 4 true] ++ [.switch 1 4 1 false] ++
    [.switch 2 11 12 true] ++ [.stop 1] := rfl
  rw [e]
  refine .snoc (.snoc (.snoc (.snoc (.snoc .nil ?_ ?_) ?_ ?_) ?_ ?_) ?_ ?_) ?_ ?_ <;>
    first
    | (intro t u h; cases h; done)
    | simp [Possible, world, next, upd, owner2]

/-- **Vanishing greenlets.** Two threads are stopped; when one is resumed, the client is told that the paused greenlet
of the other is gone, though that thread is still stopped. -/
theorem c102_vanish_witness :
    ∃ acts, History owner2 acts ∧ (world acts).paused 1 = true ∧ (world acts).stopped 1 = true ∧
      (run acts).names = [] ∧ (run acts).msgs = [.started 1, .stopped 1, .exited 1] := by
  refine ⟨[] ++ [.switch 1 1 3 true] ++ [.stop 1] ++ [.stop 2] ++ [.resume 2], ?_, by decide, by decide, by decide,
    by decide⟩
  refine .snoc (.snoc (.snoc (.snoc .nil ?_) ?_) ?_) ?_ <;> simp [Possible, world, next, upd, owner2]

/-- **Swapped arguments.** If the debugger misses a switch (the program sets another tracing function of `greenlet` for
a while), a greenlet with an entry may be switched away from: the entry's thread is replaced by a text, and the paused
greenlet is not shown at stops. -/
theorem c102_swapped_witness :
    (run [.switch 1 1 3 true, .switch 1 1 3 true, .stop 1]).custom = [(1, ⟨.text, 1⟩)] ∧
    (run [.switch 1 1 3 true, .switch 1 1 3 true, .stop 1]).msgs = [] := by decide

end Greenlets
