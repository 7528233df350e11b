import Verif.Modules.Model
/-!
C49: each module is announced to the client once.
-/

namespace Modules

def evsOf : Pc → List Event
  | .idle => []
  | .files _ _ evs | .waiting _ _ _ evs | .locked _ _ _ evs | .numbered _ _ _ _ evs | .sending _ evs => evs

/-- the files of the answer that have been dealt with are registered -/
def DoneOk (s : State) : Pc → Prop
  | .idle => True
  | .files req todo _ => ∀ f ∈ req, f ∈ todo ∨ known s f = true
  | .waiting req f todo _ | .locked req f todo _ | .numbered req f _ todo _ => ∀ g ∈ req, g = f ∨ g ∈ todo ∨ known s g = true
  | .sending req _ => ∀ f ∈ req, known s f = true

def Holds : Pc → Bool
  | .locked .. | .numbered .. => true
  | _ => false

structure Inv (s : State) : Prop where
  keys : (s.modules.map (·.1)).Nodup
  ids : (s.modules.map (·.2)).Nodup
  lt : ∀ e ∈ s.modules, e.2 < s.next
  holder : ∀ t, Holds (s.pc t) = true → s.lock = some t
  num : ∀ t req f id todo evs, s.pc t = .numbered req f id todo evs → id < s.next ∧ (∀ e ∈ s.modules, e.2 ≠ id) ∧ known s f = false
  sentNodup : s.sent.Nodup
  sentMem : ∀ e ∈ s.sent, e ∈ s.modules
  evsNodup : ∀ t, (evsOf (s.pc t)).Nodup
  evsMem : ∀ t, ∀ e ∈ evsOf (s.pc t), e ∈ s.modules ∧ e ∉ s.sent
  apart : ∀ t u, t ≠ u → ∀ e ∈ evsOf (s.pc t), e ∉ evsOf (s.pc u)
  all : ∀ e ∈ s.modules, e ∈ s.sent ∨ e ∈ s.lost ∨ ∃ t, e ∈ evsOf (s.pc t)
  done : ∀ t, DoneOk s (s.pc t)
  answered : ∀ f ∈ s.answered, known s f = true
  lostIff : s.failed = 0 → s.lost = []

theorem inv_start : Inv start := by
  constructor <;> simp [start, evsOf, DoneOk, Holds]

theorem known_iff (s : State) (f : Nat) : known s f = true ↔ f ∈ s.modules.map (·.1) := by
  simp [known]

theorem known_false (s : State) (f : Nat) (h : known s f = false) : f ∉ s.modules.map (·.1) := by
  intro hf; rw [(known_iff s f).2 hf] at h; cases h

/-- changing where one thread is, keeping its events -/
theorem inv_setPc {s : State} (i : Inv s) (t : Nat) (p : Pc) (h1 : evsOf p = evsOf (s.pc t)) (h2 : Holds p = true → s.lock = some t)
    (h3 : ∀ req f id todo evs, p ≠ .numbered req f id todo evs) (h4 : DoneOk s p) : Inv (setPc s t p) := by
  have he : ∀ u, evsOf ((setPc s t p).pc u) = evsOf (s.pc u) := by
    intro u; simp only [setPc]; split
    · rename_i h; subst h; exact h1
    · rfl
  refine ⟨i.keys, i.ids, i.lt, ?_, ?_, i.sentNodup, i.sentMem, ?_, ?_, ?_, ?_, ?_, i.answered, i.lostIff⟩
  · intro u hu
    simp only [setPc] at hu
    split at hu
    · rename_i h; subst h; exact h2 hu
    · exact i.holder u hu
  · intro u req f id todo evs hu
    simp only [setPc] at hu
    split at hu
    · exact absurd hu (h3 req f id todo evs)
    · exact i.num u req f id todo evs hu
  · intro u; rw [he]; exact i.evsNodup u
  · intro u; rw [he]; exact i.evsMem u
  · intro u v huv; rw [he, he]; exact i.apart u v huv
  · intro e hm
    rcases i.all e hm with h | h | ⟨u, h⟩
    · exact .inl h
    · exact .inr (.inl h)
    · exact .inr (.inr ⟨u, by rw [he]; exact h⟩)
  · intro u
    simp only [setPc]
    split
    · exact h4
    · exact i.done u

theorem inv_step {s s' : State} (i : Inv s) (t : Nat) (h : step s t = some s') : Inv s' := by
  unfold step at h
  have hdone := i.done t
  split at h
  · cases h
  · rename_i req evs hpc
    rw [hpc] at hdone
    cases h
    refine inv_setPc i t _ (by rw [hpc]; rfl) (by simp [Holds]) (by simp) ?_
    simpa [DoneOk] using hdone
  · rename_i req f todo evs hpc
    rw [hpc] at hdone
    cases h
    split
    · rename_i hk
      refine inv_setPc i t _ (by rw [hpc]; rfl) (by simp [Holds]) (by simp) ?_
      simp only [DoneOk] at hdone ⊢
      intro g hg
      rcases hdone g hg with h | h
      · rcases List.mem_cons.1 h with rfl | h
        · exact .inr hk
        · exact .inl h
      · exact .inr h
    · refine inv_setPc i t _ (by rw [hpc]; rfl) (by simp [Holds]) (by simp) ?_
      simp only [DoneOk] at hdone ⊢
      intro g hg
      rcases hdone g hg with h | h
      · rcases List.mem_cons.1 h with rfl | h
        · exact .inl rfl
        · exact .inr (.inl h)
      · exact .inr (.inr h)
  · rename_i req f todo evs hpc
    split at h
    · rename_i hl
      cases h
      have i' : Inv { s with lock := some t } := by
        refine ⟨i.keys, i.ids, i.lt, ?_, i.num, i.sentNodup, i.sentMem, i.evsNodup, i.evsMem, i.apart, i.all, i.done, i.answered, i.lostIff⟩
        intro u hu; have := i.holder u hu; rw [hl] at this; cases this
      rw [hpc] at hdone
      refine inv_setPc i' t _ (by simp only [hpc]; rfl) (by simp) (by simp) ?_
      exact hdone
    · cases h
  · rename_i req f todo evs hpc
    rw [hpc] at hdone
    have hlock : s.lock = some t := i.holder t (by rw [hpc]; rfl)
    have honly : ∀ u, u ≠ t → Holds (s.pc u) = false := by
      intro u hu
      cases hh : Holds (s.pc u)
      · rfl
      · have := i.holder u hh; rw [hlock] at this; cases this; exact absurd rfl hu
    split at h
    · cases h
      refine ⟨i.keys, i.ids, i.lt, ?_, ?_, i.sentNodup, i.sentMem, ?_, ?_, ?_, ?_, ?_, i.answered, by simp [setPc]⟩
      · intro u hu
        simp only [setPc] at hu
        split at hu
        · cases hu
        · rename_i hne; rw [honly u hne] at hu; cases hu
      · intro u req' f' id todo' evs' hu
        simp only [setPc] at hu
        split at hu
        · cases hu
        · exact i.num u _ _ _ _ _ hu
      · intro u; simp only [setPc]; split
        · simp [evsOf]
        · exact i.evsNodup u
      · intro u; simp only [setPc]; split
        · simp [evsOf]
        · exact i.evsMem u
      · intro u v huv; simp only [setPc]
        split
        · simp [evsOf]
        · split
          · simp [evsOf]
          · exact i.apart u v huv
      · intro e he
        rcases i.all e he with h | h | ⟨u, h⟩
        · exact .inl h
        · exact .inr (.inl (by simp [setPc, h]))
        · by_cases hu : u = t
          · subst hu; rw [hpc] at h; exact .inr (.inl (by simp only [setPc, evsOf] at h ⊢; simp [h]))
          · exact .inr (.inr ⟨u, by simp [setPc, hu, h]⟩)
      · intro u; simp only [setPc]; split
        · trivial
        · exact i.done u
    · rename_i hk
      cases h
      have he : ∀ u, evsOf ((setPc { s with next := s.next + 1 } t (.numbered req f s.next todo evs)).pc u) = evsOf (s.pc u) := by
        intro u; simp only [setPc]; split
        · rename_i h; subst h; rw [hpc]; rfl
        · rfl
      refine ⟨i.keys, i.ids, ?_, ?_, ?_, i.sentNodup, i.sentMem, ?_, ?_, ?_, ?_, ?_, i.answered, i.lostIff⟩
      · intro e he; have := i.lt e he; simp only [setPc]; omega
      · intro u hu
        simp only [setPc] at hu ⊢
        split at hu
        · rename_i h; subst h; exact hlock
        · exact i.holder u hu
      · intro u req' f' id todo' evs' hu
        simp only [setPc] at hu ⊢
        split at hu
        · cases hu
          refine ⟨by omega, ?_, Bool.eq_false_iff.2 hk⟩
          intro e he h
          have := i.lt e he
          omega
        · have := i.num u _ _ _ _ _ hu
          exact ⟨by omega, this.2⟩
      · intro u; rw [he]; exact i.evsNodup u
      · intro u; rw [he]; exact i.evsMem u
      · intro u v huv; rw [he, he]; exact i.apart u v huv
      · intro e hm
        rcases i.all e hm with h | h | ⟨u, h⟩
        · exact .inl h
        · exact .inr (.inl h)
        · exact .inr (.inr ⟨u, by rw [he]; exact h⟩)
      · intro u; simp only [setPc]; split
        · exact hdone
        · exact i.done u
  · rename_i req f id todo evs hpc
    cases h
    rw [hpc] at hdone
    have hlock : s.lock = some t := i.holder t (by rw [hpc]; rfl)
    have honly : ∀ u, u ≠ t → Holds (s.pc u) = false := by
      intro u hu
      cases hh : Holds (s.pc u)
      · rfl
      · have := i.holder u hh; rw [hlock] at this; cases this; exact absurd rfl hu
    obtain ⟨n1, n2, n3⟩ := i.num t req f id todo evs hpc
    have hnew : (f, id) ∉ s.modules := fun h => n2 _ h rfl
    have hkn : ∀ g, known s g = true → ∀ x, known { s with modules := s.modules ++ [(f, id)], lock := x } g = true := by
      intro g hg x; rw [known_iff] at hg ⊢; simp at hg ⊢; exact .inl hg
    have hkf : ∀ x, known { s with modules := s.modules ++ [(f, id)], lock := x } f = true := by
      intro x; rw [known_iff]; simp
    have ht : evsOf (s.pc t) = evs := by rw [hpc]; rfl
    refine ⟨?_, ?_, ?_, ?_, ?_, i.sentNodup, ?_, ?_, ?_, ?_, ?_, ?_, ?_, i.lostIff⟩
    · simp only [setPc, List.map_append, List.map_cons, List.map_nil]
      rw [List.nodup_append]
      refine ⟨i.keys, by simp, ?_⟩
      intro a ha b hb
      simp only [List.mem_singleton] at hb
      subst hb
      intro h
      subst h
      exact known_false s a n3 ha
    · simp only [setPc, List.map_append, List.map_cons, List.map_nil]
      rw [List.nodup_append]
      refine ⟨i.ids, by simp, ?_⟩
      intro a ha b hb
      simp only [List.mem_singleton] at hb
      subst hb
      obtain ⟨e, he, rfl⟩ := List.mem_map.1 ha
      exact n2 e he
    · intro e he
      simp only [setPc, List.mem_append, List.mem_singleton] at he ⊢
      rcases he with he | rfl
      · exact i.lt e he
      · exact n1
    · intro u hu
      simp only [setPc] at hu
      split at hu
      · cases hu
      · rename_i hne; rw [honly u hne] at hu; cases hu
    · intro u req' f' id' todo' evs' hu
      simp only [setPc] at hu
      split at hu
      · cases hu
      · rename_i hne
        have := honly u hne
        rw [hu] at this
        cases this
    · intro e he; simp only [setPc, List.mem_append]; exact .inl (i.sentMem e he)
    · intro u
      simp only [setPc]
      split
      · simp only [evsOf]
        rw [List.nodup_append]
        refine ⟨by have := i.evsNodup t; rwa [ht] at this, by simp, ?_⟩
        intro a ha b hb
        simp only [List.mem_singleton] at hb
        subst hb
        intro h
        subst h
        exact hnew (i.evsMem t _ (by rw [ht]; exact ha)).1
      · exact i.evsNodup u
    · intro u e he
      simp only [setPc] at he ⊢
      split at he
      · simp only [evsOf, List.mem_append, List.mem_singleton] at he
        rcases he with he | rfl
        · have := i.evsMem t e (by rw [ht]; exact he)
          exact ⟨by simp [this.1], this.2⟩
        · exact ⟨by simp, fun h => hnew (i.sentMem _ h)⟩
      · have := i.evsMem u e he
        exact ⟨by simp [this.1], this.2⟩
    · intro u v huv e he
      simp only [setPc] at he ⊢
      split at he
      · rename_i h
        subst h
        rw [if_neg (Ne.symm huv)]
        simp only [evsOf, List.mem_append, List.mem_singleton] at he
        rcases he with he | rfl
        · exact i.apart u v huv e (by rw [ht]; exact he)
        · intro h; exact hnew (i.evsMem v _ h).1
      · split
        · rename_i h; subst h
          simp only [evsOf, List.mem_append, List.mem_singleton, not_or]
          refine ⟨by have := i.apart u v huv e he; rwa [ht] at this, ?_⟩
          rintro rfl
          exact hnew (i.evsMem u _ he).1
        · exact i.apart u v huv e he
    · intro e he
      simp only [setPc, List.mem_append, List.mem_singleton] at he
      rcases he with he | rfl
      · rcases i.all e he with h | h | ⟨u, h⟩
        · exact .inl h
        · exact .inr (.inl h)
        · refine .inr (.inr ⟨u, ?_⟩)
          simp only [setPc]
          split
          · rename_i hu; subst hu; rw [ht] at h; simp [evsOf, h]
          · exact h
      · exact .inr (.inr ⟨t, by simp [setPc, evsOf]⟩)
    · intro u
      simp only [setPc]
      split
      · simp only [DoneOk] at hdone ⊢
        intro g hg
        rcases hdone g hg with rfl | h | h
        · exact .inr (hkf none)
        · exact .inl h
        · exact .inr (hkn g h none)
      · have := i.done u
        revert this
        cases s.pc u <;> simp only [DoneOk, imp_self] <;> intro h g hg
        case files =>
          rcases h g hg with h | h
          · exact .inl h
          · exact .inr (hkn g h none)
        case sending => exact hkn g (h g hg) none
        all_goals
          rcases h g hg with h | h | h
          · exact .inl h
          · exact .inr (.inl h)
          · exact .inr (.inr (hkn g h none))
    · intro g hg; exact hkn g (i.answered g hg) none
  · rename_i req hpc
    cases h
    rw [hpc] at hdone
    have i' : Inv { s with answered := s.answered ++ req } := by
      refine ⟨i.keys, i.ids, i.lt, i.holder, i.num, i.sentNodup, i.sentMem, i.evsNodup, i.evsMem, i.apart, i.all, i.done, ?_, i.lostIff⟩
      intro f hf
      rcases List.mem_append.1 hf with h | h
      · exact i.answered f h
      · exact hdone f h
    exact inv_setPc i' t _ (by simp only [hpc]; rfl) (by simp [Holds]) (by simp) trivial
  · rename_i req e evs hpc
    cases h
    rw [hpc] at hdone
    have hev := i.evsNodup t
    rw [hpc] at hev
    simp only [evsOf, List.nodup_cons] at hev
    have hem := i.evsMem t e (by rw [hpc]; simp [evsOf])
    refine ⟨i.keys, i.ids, i.lt, ?_, ?_, ?_, ?_, ?_, ?_, ?_, ?_, ?_, i.answered, i.lostIff⟩
    · intro u hu
      simp only [setPc] at hu
      split at hu
      · cases hu
      · exact i.holder u hu
    · intro u req' f' id' todo' evs' hu
      simp only [setPc] at hu
      split at hu
      · cases hu
      · exact i.num u _ _ _ _ _ hu
    · simp only [setPc]
      rw [List.nodup_append]
      refine ⟨i.sentNodup, by simp, ?_⟩
      intro a ha b hb
      simp only [List.mem_singleton] at hb
      subst hb
      intro h; subst h; exact hem.2 ha
    · intro a ha
      simp only [setPc, List.mem_append, List.mem_singleton] at ha
      rcases ha with ha | rfl
      · exact i.sentMem a ha
      · exact hem.1
    · intro u; simp only [setPc]; split
      · exact hev.2
      · exact i.evsNodup u
    · intro u a ha
      simp only [setPc] at ha ⊢
      simp only [List.mem_append, List.mem_singleton, not_or]
      split at ha
      · have := i.evsMem t a (by rw [hpc]; simp only [evsOf] at ha ⊢; simp [ha])
        refine ⟨this.1, this.2, ?_⟩
        rintro rfl
        exact hev.1 ha
      · rename_i hu
        have := i.evsMem u a ha
        refine ⟨this.1, this.2, ?_⟩
        rintro rfl
        exact i.apart u t hu a ha (by rw [hpc]; simp [evsOf])
    · intro u v huv a ha
      simp only [setPc] at ha ⊢
      split at ha
      · rename_i h; subst h
        rw [if_neg (Ne.symm huv)]
        exact i.apart u v huv a (by rw [hpc]; simp only [evsOf] at ha ⊢; simp [ha])
      · split
        · rename_i h; subst h
          have := i.apart u v huv a ha
          rw [hpc] at this
          simp only [evsOf, List.mem_cons, not_or] at this ⊢
          exact this.2
        · exact i.apart u v huv a ha
    · intro a ha
      rcases i.all a ha with h | h | ⟨u, h⟩
      · exact .inl (by simp [setPc, h])
      · exact .inr (.inl h)
      · by_cases hu : u = t
        · subst hu
          rw [hpc] at h
          simp only [evsOf, List.mem_cons] at h
          rcases h with rfl | h
          · exact .inl (by simp [setPc])
          · exact .inr (.inr ⟨u, by simp [setPc, evsOf, h]⟩)
        · exact .inr (.inr ⟨u, by simp [setPc, hu, h]⟩)
    · intro u; simp only [setPc]; split
      · exact hdone
      · exact i.done u

theorem inv_run {s s' : State} (i : Inv s) (as : List Action) (h : run s as = some s') : Inv s' := by
  induction as generalizing s with
  | nil => cases h; exact i
  | cons a as ih =>
    simp only [run] at h
    split at h
    · rename_i s1 h1
      refine ih ?_ h
      cases a with
      | step t => exact inv_step i t h1
      | request t fs =>
        simp only [act] at h1
        split at h1
        · rename_i hpc
          cases h1
          exact inv_setPc i t _ (by rw [hpc]; rfl) (by simp [Holds]) (by simp) (fun f hf => .inl hf)
        · cases h1
    · cases h

theorem inj_of_nodup {α β : Type} {g : α → β} {l : List α} (h : (l.map g).Nodup) {a b : α} (ha : a ∈ l) (hb : b ∈ l) (e : g a = g b) : a = b := by
  induction l with
  | nil => cases ha
  | cons x l ih =>
    simp only [List.map_cons, List.nodup_cons] at h
    rcases List.mem_cons.1 ha with rfl | ha
    · rcases List.mem_cons.1 hb with rfl | hb
      · rfl
      · exact absurd (List.mem_map.2 ⟨b, hb, e.symm⟩) h.1
    · rcases List.mem_cons.1 hb with rfl | hb
      · exact absurd (e ▸ List.mem_map.2 ⟨a, ‹_›, rfl⟩) h.1
      · exact ih h.2 ha hb

/-- Whatever threads report which files at the same time: no file is announced twice, no two modules have the same id, and what is
announced is what the request `modules` lists. -/
theorem c49_once (as : List Action) (s : State) (h : run start as = some s) :
    (s.sent.map (·.1)).Nodup ∧ (s.sent.map (·.2)).Nodup ∧ ∀ e ∈ s.sent, e ∈ info s := by
  have i := inv_run inv_start as h
  refine ⟨?_, ?_, i.sentMem⟩
  · have : ∀ l : List Event, l.Nodup → (∀ e ∈ l, e ∈ s.modules) → (l.map (·.1)).Nodup := by
      intro l
      induction l with
      | nil => simp
      | cons e l ih =>
        intro hn hm
        simp only [List.map_cons, List.nodup_cons] at hn ⊢
        refine ⟨?_, ih hn.2 (fun x hx => hm x (by simp [hx]))⟩
        intro hc
        obtain ⟨e', he', hx⟩ := List.mem_map.1 hc
        have : e' = e := inj_of_nodup i.keys (hm e' (by simp [he'])) (hm e (by simp)) hx
        exact hn.1 (this ▸ he')
    exact this _ i.sentNodup i.sentMem
  · have : ∀ l : List Event, l.Nodup → (∀ e ∈ l, e ∈ s.modules) → (l.map (·.2)).Nodup := by
      intro l
      induction l with
      | nil => simp
      | cons e l ih =>
        intro hn hm
        simp only [List.map_cons, List.nodup_cons] at hn ⊢
        refine ⟨?_, ih hn.2 (fun x hx => hm x (by simp [hx]))⟩
        intro hc
        obtain ⟨e', he', hx⟩ := List.mem_map.1 hc
        have : e' = e := inj_of_nodup i.ids (hm e' (by simp [he'])) (hm e (by simp)) hx
        exact hn.1 (this ▸ he')
    exact this _ i.sentNodup i.sentMem

/-- If no request failed and no answer is being built, the file of every frame shown has been announced. -/
theorem c49_announced (as : List Action) (s : State) (h : run start as = some s) (hidle : ∀ t, s.pc t = .idle) (hf : s.failed = 0) :
    ∀ f ∈ s.answered, ∃ id, (f, id) ∈ s.sent := by
  have i := inv_run inv_start as h
  intro f hfa
  have hk := i.answered f hfa
  rw [known_iff] at hk
  obtain ⟨⟨f', id⟩, he, rfl⟩ := List.mem_map.1 hk
  refine ⟨id, ?_⟩
  rcases i.all _ he with h | h | ⟨t, h⟩
  · exact h
  · rw [i.lostIff hf] at h; cases h
  · rw [hidle t] at h; cases h

/-- what holds if only the thread `t` builds answers -/
structure Alone (t : Nat) (s : State) : Prop where
  failed : s.failed = 0
  fresh : ∀ req f todo evs, s.pc t = .waiting req f todo evs ∨ s.pc t = .locked req f todo evs → known s f = false

/-- If all answers are built by one thread, no request fails. -/
theorem c49_alone (as : List Action) (t : Nat) (ha : ∀ a ∈ as, (∃ fs, a = .request t fs) ∨ a = .step t) (s : State)
    (h : run start as = some s) : s.failed = 0 := by
  have main : ∀ (as : List Action) (s0 : State), Alone t s0 → (∀ a ∈ as, (∃ fs, a = .request t fs) ∨ a = .step t) →
      run s0 as = some s → s.failed = 0 := by
    intro as
    induction as with
    | nil => intro s0 h0 _ h; cases h; exact h0.failed
    | cons a as ih =>
      intro s0 h0 ha h
      simp only [run] at h
      split at h
      · rename_i s1 h1
        refine ih s1 ?_ (fun b hb => ha b (by simp [hb])) h
        rcases ha a (by simp) with ⟨fs, rfl⟩ | rfl
        · simp only [act] at h1
          split at h1
          · cases h1
            exact ⟨h0.failed, by intro req f todo evs h; simp [setPc] at h⟩
          · cases h1
        · simp only [act, step] at h1
          split at h1
          · cases h1
          · cases h1; exact ⟨h0.failed, by intro req f todo evs h; simp [setPc] at h⟩
          · cases h1
            refine ⟨h0.failed, ?_⟩
            intro req f todo evs h
            simp only [setPc, if_true] at h
            split at h
            · rcases h with h | h <;> cases h
            · rename_i hk
              rcases h with h | h <;> cases h
              exact Bool.eq_false_iff.2 hk
          · rename_i req f todo evs hpc
            split at h1
            · cases h1
              refine ⟨h0.failed, ?_⟩
              intro req' f' todo' evs' h
              simp only [setPc, if_true] at h
              rcases h with h | h <;> cases h
              have := h0.fresh req f todo evs (.inl hpc)
              exact this
            · cases h1
          · rename_i req f todo evs hpc
            split at h1
            · rename_i hk; rw [h0.fresh req f todo evs (.inr hpc)] at hk; cases hk
            · cases h1; exact ⟨h0.failed, by intro req f todo evs h; simp [setPc] at h⟩
          · cases h1; exact ⟨h0.failed, by intro req f todo evs h; simp [setPc] at h⟩
          · cases h1; exact ⟨h0.failed, by intro req f todo evs h; simp [setPc] at h⟩
          · cases h1; exact ⟨h0.failed, by intro req f todo evs h; simp [setPc] at h⟩
      · cases h
  exact main as start ⟨rfl, by simp [start]⟩ ha h

/-- The lock is held by a thread that registers a module, and by no other. -/
def LockInv (s : State) : Prop :=
  ∀ t, s.lock = some t ↔ (∃ req f todo evs, s.pc t = .locked req f todo evs) ∨ ∃ req f id todo evs, s.pc t = .numbered req f id todo evs

theorem lockInv_act {s s' : State} (hi : LockInv s) {a : Action} (h : act s a = some s') : LockInv s' := by
  intro u
  have hu := hi u
  cases a with
  | request t files =>
    simp only [act] at h
    split at h
    · rename_i hp
      cases h
      simp only [setPc]
      by_cases hut : u = t
      · subst hut; simp_all
      · simpa [hut] using hu
    · cases h
  | step t =>
    have ht := hi t
    simp only [act, step] at h
    split at h
    · cases h
    all_goals rename_i hp
    · cases h; simp only [setPc]; by_cases hut : u = t <;> simp_all
    · cases h; simp only [setPc]
      by_cases hut : u = t
      · subst hut
        simp only [if_true]
        split <;> simp_all
      · simpa [hut] using hu
    · split at h
      · rename_i hl
        cases h; simp only [setPc]
        by_cases hut : u = t
        · subst hut; simp
        · simp only [hut, if_false, Option.some.injEq]
          rw [← hu, hl]
          simp [Ne.symm hut]
      · cases h
    · have hl : s.lock = some t := ht.2 (.inl ⟨_, _, _, _, hp⟩)
      split at h
      · cases h; simp only [setPc]
        by_cases hut : u = t
        · subst hut; simp
        · simp only [hut, if_false]
          rw [← hu, hl]; simp [Ne.symm hut]
      · cases h; simp only [setPc]
        by_cases hut : u = t
        · subst hut; simp [hl]
        · simpa [hut] using hu
    · have hl : s.lock = some t := ht.2 (.inr ⟨_, _, _, _, _, hp⟩)
      cases h; simp only [setPc]
      by_cases hut : u = t
      · subst hut; simp
      · simp only [hut, if_false]
        rw [← hu, hl]; simp [Ne.symm hut]
    · cases h; simp only [setPc]; by_cases hut : u = t <;> simp_all
    · cases h; simp only [setPc]; by_cases hut : u = t <;> simp_all

/-- No request waits for ever: while an answer is being built, some thread can go on. -/
theorem c49_no_deadlock (as : List Action) (s : State) (h : run start as = some s) (t : Nat) (ht : s.pc t ≠ .idle) :
    ∃ u, (act s (.step u)).isSome := by
  have hi : LockInv s := by
    have key : ∀ (as : List Action) (s0 : State), LockInv s0 → run s0 as = some s → LockInv s := by
      intro as
      induction as with
      | nil => intro s0 h0 h; cases h; exact h0
      | cons a as ih =>
        intro s0 h0 h
        simp only [run] at h
        split at h
        · rename_i s1 h1; exact ih s1 (lockInv_act h0 h1) h
        · cases h
    exact key as start (by intro t; simp [start]) h
  have free : ∀ u, (∃ req f todo evs, s.pc u = .locked req f todo evs) ∨ (∃ req f id todo evs, s.pc u = .numbered req f id todo evs) →
      (act s (.step u)).isSome := by
    rintro u (⟨_, _, _, _, hp⟩ | ⟨_, _, _, _, _, hp⟩)
    · simp only [act, step, hp]; split <;> rfl
    · simp only [act, step, hp]; rfl
  cases hl : s.lock with
  | some u => exact ⟨u, free u ((hi u).1 hl)⟩
  | none =>
    refine ⟨t, ?_⟩
    simp only [act, step]
    split
    · contradiction
    all_goals first | rfl | (simp only [hl]; rfl) | (split <;> rfl)

/-- two threads show frames of the same new file: it is announced once, and both answers are given -/
theorem c49_example : ∃ s, run start [.request 0 [7, 8], .step 0, .step 0, .step 0, .step 0, .request 1 [7, 9], .step 1, .step 1, .step 1, .step 1,
    .step 1, .step 0, .step 0, .step 0, .step 0, .step 0, .step 0, .step 0, .step 0, .step 1, .step 1, .step 1] = some s ∧
    s.sent = [(7, 0), (8, 2), (9, 1)] ∧ s.answered = [7, 8, 7, 9] ∧ s.failed = 0 := by
  exact ⟨_, rfl, by decide +kernel⟩

/-- Two threads find the same file not registered; the one that gets the lock later fails: its request is never answered, and the module
it had registered before (file 6) is never announced. -/
theorem c49_race : ∃ s, run start [.request 0 [6, 7], .request 1 [7], .step 0, .step 0, .step 0, .step 0, .step 0, .step 1, .step 1, .step 1, .step 1,
    .step 0, .step 0, .step 1, .step 1, .step 1] = some s ∧
    s.failed = 1 ∧ s.answered = [7] ∧ (6, 0) ∈ info s ∧ s.sent = [(7, 1)] ∧ s.pc 0 = .idle ∧ s.pc 1 = .idle := by
  refine ⟨_, rfl, ?_⟩
  refine ⟨rfl, rfl, ?_, rfl, rfl, rfl⟩
  decide +kernel

end Modules
