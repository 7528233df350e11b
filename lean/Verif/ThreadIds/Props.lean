import Verif.ThreadIds.Model
/-!
C86: an id names one thread.
-/

namespace ThreadIds

/-! ### The text of ids -/

theorem natStr_inj {a b : Nat} (h : Py.natStr a = Py.natStr b) : a = b := by
  have := Py.parseDigits_natStr a
  rw [h, Py.parseDigits_natStr] at this
  injection this with this
  exact this.symm

theorem digits_cut (x y r s : Str) (c d : Char) (hx : ∀ z ∈ x, Py.isDigit z = true) (hy : ∀ z ∈ y, Py.isDigit z = true)
    (hc : Py.isDigit c = false) (hd : Py.isDigit d = false) (h : x ++ c :: r = y ++ d :: s) : x = y ∧ r = s := by
  induction x generalizing y with
  | nil =>
    cases y with
    | nil => simp at h; exact ⟨rfl, h.2⟩
    | cons e es =>
      simp at h
      have := hy e (by simp)
      rw [← h.1, hc] at this; exact absurd this (by decide)
  | cons e es ih =>
    cases y with
    | nil =>
      simp at h
      have := hx e (by simp)
      rw [h.1, hd] at this; exact absurd this (by decide)
    | cons f fs =>
      simp at h
      obtain ⟨a, b⟩ := ih fs (fun z hz => hx z (by simp [hz])) (fun z hz => hy z (by simp [hz])) h.2
      exact ⟨by rw [h.1, a], b⟩

/-- Different ids have different texts. -/
theorem c86_str_inj (s t : Tid) (h : s.str = t.str) : s = t := by
  cases s with
  | console =>
    cases t with
    | console => rfl
    | gen p a => simp [Tid.str] at h
  | gen p a =>
    cases t with
    | console => simp [Tid.str] at h
    | gen q b =>
      simp only [Tid.str, List.cons_append, List.nil_append, List.cons.injEq, true_and] at h
      obtain ⟨h1, h2⟩ := digits_cut _ _ _ _ _ _ (Py.natStr_digits p) (Py.natStr_digits q) (by decide) (by decide) h
      simp at h2
      rw [natStr_inj h1, natStr_inj h2]

theorem no_bar (t : Tid) : '|' ∉ t.str := by
  intro h
  cases t with
  | console => exact absurd h (by decide)
  | gen p a =>
    simp only [Tid.str, List.mem_append] at h
    rcases h with h | h | h | h
    · exact absurd h (by decide)
    · exact absurd (Py.natStr_digits p _ h) (by decide)
    · exact absurd h (by decide)
    · exact absurd (Py.natStr_digits a _ h) (by decide)

/-! ### Invariant -/

/-- One process: addresses and objects of the heap are distinct, an object with a made id is kept alive, at the address in its id. -/
structure ProcOk (w : World) (p : Nat) (x : Proc) : Prop where
  addrs : (x.heap.map (·.1)).Nodup
  uids : (x.heap.map (·.2)).Nodup
  below : ∀ e ∈ x.heap, e.2 < w.nextUid
  fresh : ∀ u, w.nextUid ≤ u → x.cached u = none
  pin : ∀ e ∈ x.pinned, e ∈ x.heap
  made : ∀ u q a, x.cached u = some (.gen q a) → (a, u) ∈ x.pinned
  told : ∀ u q a, (p, u, Tid.gen q a) ∈ w.log → (a, u) ∈ x.pinned

structure Ok (w : World) : Prop where
  pids : (w.procs.map (·.1)).Nodup
  procs : ∀ e ∈ w.procs, ProcOk w e.1 e.2
  logged : ∀ e ∈ w.log, e.1 ∈ w.procs.map (·.1)

theorem getProc_mem {w : World} {p : Nat} {x : Proc} (h : getProc w p = some x) : (p, x) ∈ w.procs := by
  unfold getProc at h
  cases hf : w.procs.find? (fun e => e.1 = p) with
  | none => rw [hf] at h; simp at h
  | some e =>
    rw [hf] at h; simp at h
    have h1 := List.mem_of_find?_eq_some hf
    have h2 := List.find?_some hf
    simp at h2
    obtain ⟨a, b⟩ := e
    simp at h h2; subst h; subst h2; exact h1

theorem addrOf_mem {x : Proc} {u a : Nat} (h : addrOf x u = some a) : (a, u) ∈ x.heap := by
  unfold addrOf at h
  cases hf : x.heap.find? (fun e => e.2 = u) with
  | none => rw [hf] at h; simp at h
  | some e =>
    rw [hf] at h; simp at h
    have h1 := List.mem_of_find?_eq_some hf
    have h2 := List.find?_some hf
    simp at h2
    obtain ⟨b, v⟩ := e
    simp at h h2; subst h; subst h2; exact h1

theorem setProc_pids (w : World) (p : Nat) (x : Proc) : (setProc w p x).procs.map (·.1) = w.procs.map (·.1) := by
  unfold setProc
  simp only [List.map_map]
  apply List.map_congr_left
  intro e _
  simp only [Function.comp]
  split
  · rename_i h; exact h.symm
  · rfl

theorem mem_setProc {w : World} {p : Nat} {x : Proc} {e : Nat × Proc} (h : e ∈ (setProc w p x).procs) :
    (e = (p, x) ∧ p ∈ w.procs.map (·.1)) ∨ (e ∈ w.procs ∧ e.1 ≠ p) := by
  unfold setProc at h
  simp only [List.mem_map] at h
  obtain ⟨f, hf, hh⟩ := h
  split at hh
  · rename_i hp; left; exact ⟨hh.symm, by rw [← hp]; exact List.mem_map.2 ⟨f, hf, rfl⟩⟩
  · rename_i hp; right; subst hh; exact ⟨hf, hp⟩

theorem getProc_setProc (w : World) (p q : Nat) (x : Proc) (hp : p ∈ w.procs.map (·.1)) :
    getProc (setProc w p x) q = if q = p then some x else getProc w q := by
  unfold getProc setProc
  simp only
  have key : ∀ (l : List (Nat × Proc)), ((l.map (fun e => if e.1 = p then (p, x) else e)).find? (fun e => e.1 = q)).map (·.2)
      = if q = p ∧ p ∈ l.map (·.1) then some x else (l.find? (fun e => e.1 = q)).map (·.2) := by
    intro l
    induction l with
    | nil => simp
    | cons e es ih =>
      rw [List.map_cons]
      by_cases he : e.1 = p
      · rw [if_pos he]
        by_cases hq : q = p
        · subst hq
          rw [List.find?_cons_of_pos (by simp)]
          simp [he]
        · rw [List.find?_cons_of_neg (by simpa using Ne.symm hq), ih, List.find?_cons_of_neg (by simp [he]; exact Ne.symm hq)]
          simp [hq]
      · rw [if_neg he]
        by_cases hq : e.1 = q
        · rw [List.find?_cons_of_pos (by simpa using hq), List.find?_cons_of_pos (by simpa using hq)]
          rw [if_neg]
          rintro ⟨h1, _⟩; exact he (hq.trans h1)
        · rw [List.find?_cons_of_neg (by simpa using hq), List.find?_cons_of_neg (by simpa using hq), ih]
          have : p ∈ List.map (·.1) (e :: es) ↔ p ∈ List.map (·.1) es := by
            rw [List.map_cons, List.mem_cons]
            exact ⟨fun h => h.resolve_left (Ne.symm he), Or.inr⟩
          simp only [this]
  rw [key]
  simp [hp]

theorem unique_addr {l : List (Nat × Nat)} (h : (l.map (·.1)).Nodup) {a u v : Nat} (hu : (a, u) ∈ l) (hv : (a, v) ∈ l) : u = v := by
  induction l with
  | nil => simp at hu
  | cons e es ih =>
    simp only [List.map_cons, List.nodup_cons, List.mem_map, not_exists, not_and] at h
    simp only [List.mem_cons] at hu hv
    rcases hu with hu | hu <;> rcases hv with hv | hv
    · rw [← hu] at hv; injection hv with _ hv; exact hv.symm
    · exact absurd (by rw [← hu]) (h.1 _ hv)
    · exact absurd (by rw [← hv]) (h.1 _ hu)
    · exact ih h.2 hu hv

theorem unique_uid {l : List (Nat × Nat)} (h : (l.map (·.2)).Nodup) {a b u : Nat} (hu : (a, u) ∈ l) (hv : (b, u) ∈ l) : a = b := by
  induction l with
  | nil => simp at hu
  | cons e es ih =>
    simp only [List.map_cons, List.nodup_cons, List.mem_map, not_exists, not_and] at h
    simp only [List.mem_cons] at hu hv
    rcases hu with hu | hu <;> rcases hv with hv | hv
    · rw [← hu] at hv; injection hv with hv _; exact hv.symm
    · exact absurd (by rw [← hu]) (h.1 _ hv)
    · exact absurd (by rw [← hv]) (h.1 _ hu)
    · exact ih h.2 hu hv

theorem sublist_nodup {α β} (f : α → β) (p : α → Bool) (l : List α) (h : (l.map f).Nodup) : ((l.filter p).map f).Nodup :=
  h.sublist (List.filter_sublist.map f)

/-- A change of one process keeps the rest of the world in order. -/
theorem ok_set {w : World} (h : Ok w) {p : Nat} {x y : Proc} (hx : getProc w p = some x) (w' : World)
    (hp : w'.procs = (setProc w p y).procs) (hlog : ∀ e ∈ w'.log, e ∈ w.log ∨ e.1 = p)
    (hn : w.nextUid ≤ w'.nextUid) (hy : ProcOk w' p y) : Ok w' := by
  have hpm : p ∈ w.procs.map (·.1) := List.mem_map.2 ⟨_, getProc_mem hx, rfl⟩
  refine ⟨?_, ?_, ?_⟩
  · rw [hp, setProc_pids]; exact h.pids
  · intro e he
    rw [hp] at he
    rcases mem_setProc he with ⟨rfl, _⟩ | ⟨hm, hne⟩
    · exact hy
    · have := h.procs e hm
      refine ⟨this.addrs, this.uids, fun f hf => Nat.lt_of_lt_of_le (this.below f hf) hn, fun u hu => this.fresh u (Nat.le_trans hn hu),
        this.pin, this.made, ?_⟩
      intro u q a hl
      rcases hlog _ hl with hl | hl
      · exact this.told u q a hl
      · exact absurd hl hne
  · intro e he
    rw [hp, setProc_pids]
    rcases hlog e he with he | he
    · exact h.logged e he
    · rw [he]; exact hpm

theorem getId_ok {w : World} {p : Nat} {x : Proc} (h : ProcOk w p x) {a u : Nat} (hm : (a, u) ∈ x.heap) :
    ProcOk w p (getId p x a u).1 ∧ (∀ q b, (getId p x a u).2 = .gen q b → (b, u) ∈ (getId p x a u).1.pinned) ∧
      (∀ e ∈ x.pinned, e ∈ (getId p x a u).1.pinned) ∧ (getId p x a u).1.cached u = some (getId p x a u).2 := by
  unfold getId
  cases hc : x.cached u with
  | some t => exact ⟨h, fun q b e => h.made u q b (by rw [hc]; exact congrArg some e), fun e he => he, hc⟩
  | none =>
    have keep : ∀ e ∈ x.pinned, e ∈ (a, u) :: x.pinned.filter (fun e => e.1 ≠ a) := by
      intro e he
      by_cases ha : e.1 = a
      · obtain ⟨b, v⟩ := e
        simp only at ha; subst ha
        have := unique_addr h.addrs hm (h.pin _ he)
        rw [this]; simp
      · exact List.mem_cons_of_mem _ (List.mem_filter.2 ⟨he, by simpa using ha⟩)
    refine ⟨⟨h.addrs, h.uids, h.below, ?_, ?_, ?_, ?_⟩, ?_, keep, by simp⟩
    · intro v hv
      have := h.below _ hm
      simp only at this ⊢
      rw [if_neg (by omega)]; exact h.fresh v hv
    · intro e he
      simp only [List.mem_cons, List.mem_filter] at he
      rcases he with rfl | he
      · exact hm
      · exact h.pin e he.1
    · intro v q b hv
      simp only at hv ⊢
      split at hv
      · rename_i e; subst e
        injection hv with hv; injection hv with _ hv; subst hv; simp
      · exact keep _ (h.made v q b hv)
    · intro v q b hl
      exact keep _ (h.told v q b hl)
    · intro q b e
      injection e with _ e; subst e; simp

theorem ok_step (w : World) (h : Ok w) (a : Action) : Ok (step w a) := by
  cases a with
  | new p a =>
    simp only [step]
    cases hx : getProc w p with
    | none => exact h
    | some x =>
      have hp := h.procs _ (getProc_mem hx)
      simp only
      split
      · exact h
      · rename_i hna
        refine ok_set h hx _ rfl (fun e he => Or.inl he) (Nat.le_succ _) ?_
        refine ⟨?_, ?_, ?_, ?_, ?_, ?_, ?_⟩
        · simp only [List.map_cons, List.nodup_cons]; exact ⟨hna, hp.addrs⟩
        · simp only [List.map_cons, List.nodup_cons]
          refine ⟨?_, hp.uids⟩
          intro hm
          obtain ⟨e, he, he2⟩ := List.mem_map.1 hm
          have := hp.below e he
          rw [he2] at this; exact absurd this (Nat.lt_irrefl _)
        · intro e he
          simp only [List.mem_cons] at he
          rcases he with rfl | he
          · exact Nat.lt_succ_self _
          · exact Nat.lt_succ_of_lt (hp.below e he)
        · intro u hu
          show (if u = w.nextUid then none else x.cached u) = none
          have hu' : w.nextUid + 1 ≤ u := hu
          rw [if_neg (by omega)]; exact hp.fresh u (by omega)
        · intro e he; exact List.mem_cons_of_mem _ (hp.pin e he)
        · intro u q b hc
          simp only at hc
          split at hc
          · cases hc
          · exact hp.made u q b hc
        · intro u q b hl; exact hp.told u q b hl
  | collect p u =>
    simp only [step]
    cases hx : getProc w p with
    | none => exact h
    | some x =>
      have hp := h.procs _ (getProc_mem hx)
      simp only
      split
      · exact h
      · rename_i hnp
        refine ok_set h hx _ rfl (fun e he => Or.inl he) (Nat.le_refl _) ?_
        refine ⟨sublist_nodup _ _ _ hp.addrs, sublist_nodup _ _ _ hp.uids, ?_, hp.fresh, ?_, hp.made, hp.told⟩
        · intro e he; exact hp.below e (List.mem_filter.1 he).1
        · intro e he
          refine List.mem_filter.2 ⟨hp.pin e he, ?_⟩
          simp only [ne_eq, decide_not, Bool.not_eq_true', decide_eq_false_iff_not]
          intro hu
          exact hnp (List.mem_map.2 ⟨e, he, hu⟩)
  | get p u =>
    simp only [step]
    cases hx : getProc w p with
    | none => exact h
    | some x =>
      have hp := h.procs _ (getProc_mem hx)
      simp only
      cases ha : addrOf x u with
      | none => exact h
      | some a =>
        obtain ⟨g1, g2, g3, _⟩ := getId_ok hp (addrOf_mem ha)
        simp only
        refine ok_set h hx _ rfl ?_ (Nat.le_refl _) ?_
        · intro e he
          simp only [List.mem_cons] at he
          rcases he with rfl | he
          · exact Or.inr rfl
          · exact Or.inl he
        · refine ⟨g1.addrs, g1.uids, g1.below, g1.fresh, g1.pin, g1.made, ?_⟩
          intro v q b hl
          simp only [List.mem_cons] at hl
          rcases hl with hl | hl
          · injection hl with _ hl; injection hl with hv hl
            subst hv; exact g2 q b hl.symm
          · exact g3 _ (hp.told v q b hl)
  | clear p u =>
    simp only [step]
    cases hx : getProc w p with
    | none => exact h
    | some x =>
      have hp := h.procs _ (getProc_mem hx)
      simp only
      refine ok_set h hx _ rfl (fun e he => Or.inl he) (Nat.le_refl _) ?_
      unfold clearId
      split
      · exact ⟨hp.addrs, hp.uids, hp.below, hp.fresh, hp.pin, hp.made, hp.told⟩
      · refine ⟨hp.addrs, hp.uids, hp.below, ?_, hp.pin, ?_, hp.told⟩
        · intro v hv; simp only; split
          · rfl
          · exact hp.fresh v hv
        · intro v q b hc; simp only at hc; split at hc
          · cases hc
          · exact hp.made v q b hc
  | setConsole p u =>
    simp only [step]
    cases hx : getProc w p with
    | none => exact h
    | some x =>
      have hp := h.procs _ (getProc_mem hx)
      simp only
      split
      · rename_i hs
        obtain ⟨a, ha⟩ := Option.isSome_iff_exists.1 hs
        have hb := hp.below _ (addrOf_mem ha)
        refine ok_set h hx _ rfl (fun e he => Or.inl he) (Nat.le_refl _) ?_
        refine ⟨hp.addrs, hp.uids, hp.below, ?_, hp.pin, ?_, hp.told⟩
        · intro v hv
          have hv' : w.nextUid ≤ v := hv
          show (if v = u then some Tid.console else x.cached v) = none
          simp only at hb
          rw [if_neg (by omega)]; exact hp.fresh v hv
        · intro v q b hc
          simp only [setId] at hc
          split at hc
          · cases hc
          · exact hp.made v q b hc
      · exact h
  | fork p c =>
    simp only [step]
    cases hx : getProc w p with
    | none => exact h
    | some x =>
      have hp := h.procs _ (getProc_mem hx)
      simp only
      split
      · exact h
      · rename_i hc
        refine ⟨by simp only [List.map_cons, List.nodup_cons]; exact ⟨hc, h.pids⟩, ?_, ?_⟩
        · intro e he
          simp only [List.mem_cons] at he
          rcases he with rfl | he
          · refine ⟨hp.addrs, hp.uids, hp.below, hp.fresh, hp.pin, hp.made, ?_⟩
            intro v q b hl
            exact absurd (h.logged _ hl) hc
          · have := h.procs e he
            exact ⟨this.addrs, this.uids, this.below, this.fresh, this.pin, this.made, this.told⟩
        · intro e he
          simp only [List.map_cons, List.mem_cons]; exact Or.inr (h.logged e he)

theorem ok_init (pid : Nat) : Ok (init pid) := by
  refine ⟨by simp [init], ?_, by simp [init]⟩
  intro e he
  simp [init] at he
  subst he
  exact ⟨by simp, by simp, by simp, by simp, by simp, by simp, by simp [init]⟩

theorem ok_run (w : World) (h : Ok w) (as : List Action) : Ok (run w as) := by
  induction as generalizing w with
  | nil => exact h
  | cons a as ih => exact ih _ (ok_step w h a)

theorem logged_proc {w : World} (h : Ok w) {e : Nat × Nat × Tid} (he : e ∈ w.log) : ∃ x, (e.1, x) ∈ w.procs := by
  obtain ⟨f, hf, hf2⟩ := List.mem_map.1 (h.logged e he)
  exact ⟨f.2, by rw [← hf2]; exact hf⟩

/-! ### Theorems -/

/-- **C86 (one thread).** In every history of every family of processes, two answers of one process with the same
id are about the same thread object, whether or not the threads are still alive. -/
theorem c86_unique (pid : Nat) (as : List Action) (p u v q a : Nat)
    (h1 : (p, u, Tid.gen q a) ∈ (run (init pid) as).log) (h2 : (p, v, Tid.gen q a) ∈ (run (init pid) as).log) : u = v := by
  have hok := ok_run _ (ok_init pid) as
  obtain ⟨x, hx⟩ := logged_proc hok h1
  have hp := hok.procs _ hx
  exact unique_addr hp.addrs (hp.pin _ (hp.told u q a h1)) (hp.pin _ (hp.told v q a h2))

/-- Whose ids a thread has: it has none yet, or one made by its own process (or the one of the console). -/
def Own (w : World) (p u : Nat) : Prop :=
  p ∈ w.procs.map (·.1) ∧ ∀ x, getProc w p = some x → ∀ q a, x.cached u = some (.gen q a) → q = p

theorem getProc_congr {w w' : World} (h : w'.procs = w.procs) (q : Nat) : getProc w' q = getProc w q := by
  unfold getProc; rw [h]

/-- A step keeps `Own`, and the answers it adds about the thread are its own. -/
theorem own_step (w : World) (p u : Nat) (h : Own w p u) (act : Action) :
    Own (step w act) p u ∧ ∀ t, (p, u, t) ∈ (step w act).log → (p, u, t) ∈ w.log ∨ t = .console ∨ ∃ a, t = .gen p a := by
  have set : ∀ (r : Nat) (x y : Proc) (w' : World), getProc w r = some x → w'.procs = (setProc w r y).procs →
      (r = p → ∀ q a, y.cached u = some (.gen q a) → q = p) → Own w' p u := by
    intro r x y w' hx hw hy
    have hr : r ∈ w.procs.map (·.1) := List.mem_map.2 ⟨_, getProc_mem hx, rfl⟩
    refine ⟨by rw [hw, setProc_pids]; exact h.1, ?_⟩
    intro z hz
    rw [getProc_congr (w := setProc w r y) hw, getProc_setProc _ _ _ _ hr] at hz
    split at hz
    · rename_i hpr
      injection hz with hz; subst hz; exact hy hpr.symm
    · exact h.2 z hz
  cases act with
  | new r b =>
    simp only [step]
    cases hx : getProc w r with
    | none => exact ⟨h, fun t ht => Or.inl ht⟩
    | some x =>
      simp only
      split
      · exact ⟨h, fun t ht => Or.inl ht⟩
      · refine ⟨set r x _ _ hx rfl ?_, fun t ht => Or.inl ht⟩
        intro hrp q a hc
        subst hrp
        simp only at hc
        split at hc
        · cases hc
        · exact h.2 x hx q a hc
  | collect r v =>
    simp only [step]
    cases hx : getProc w r with
    | none => exact ⟨h, fun t ht => Or.inl ht⟩
    | some x =>
      simp only
      split
      · exact ⟨h, fun t ht => Or.inl ht⟩
      · refine ⟨set r x _ _ hx rfl ?_, fun t ht => Or.inl ht⟩
        intro hrp q a hc
        subst hrp
        exact h.2 x hx q a hc
  | get r v =>
    simp only [step]
    cases hx : getProc w r with
    | none => exact ⟨h, fun t ht => Or.inl ht⟩
    | some x =>
      simp only
      cases ha : addrOf x v with
      | none => exact ⟨h, fun t ht => Or.inl ht⟩
      | some b =>
        simp only
        have own : r = p → ∀ q a, (getId r x b v).1.cached u = some (.gen q a) → q = p := by
          intro hrp q a hc
          subst hrp
          unfold getId at hc
          split at hc
          · exact h.2 x hx q a hc
          · simp only at hc
            split at hc
            · injection hc with hc; injection hc with hc _; exact hc.symm
            · exact h.2 x hx q a hc
        refine ⟨set r x _ _ hx rfl own, ?_⟩
        intro t ht
        simp only [List.mem_cons] at ht
        rcases ht with ht | ht
        · injection ht with hp ht; injection ht with hu ht
          right
          have hc : (getId r x b v).1.cached u = some t := by
            rw [ht, hu]
            unfold getId
            cases hcv : x.cached v with
            | some t => exact hcv
            | none => simp
          cases t with
          | console => exact Or.inl rfl
          | gen q a => right; exact ⟨a, by rw [own hp.symm q a hc]⟩
        · exact Or.inl ht
  | clear r v =>
    simp only [step]
    cases hx : getProc w r with
    | none => exact ⟨h, fun t ht => Or.inl ht⟩
    | some x =>
      simp only
      refine ⟨set r x _ _ hx rfl ?_, fun t ht => Or.inl ht⟩
      intro hrp q a hc
      subst hrp
      unfold clearId at hc
      split at hc
      · exact h.2 x hx q a hc
      · simp only at hc
        split at hc
        · cases hc
        · exact h.2 x hx q a hc
  | setConsole r v =>
    simp only [step]
    cases hx : getProc w r with
    | none => exact ⟨h, fun t ht => Or.inl ht⟩
    | some x =>
      simp only
      split
      · refine ⟨set r x _ _ hx rfl ?_, fun t ht => Or.inl ht⟩
        intro hrp q a hc
        subst hrp
        simp only [setId] at hc
        split at hc
        · cases hc
        · exact h.2 x hx q a hc
      · exact ⟨h, fun t ht => Or.inl ht⟩
  | fork r c =>
    simp only [step]
    cases hx : getProc w r with
    | none => exact ⟨h, fun t ht => Or.inl ht⟩
    | some x =>
      simp only
      split
      · exact ⟨h, fun t ht => Or.inl ht⟩
      · rename_i hc
        refine ⟨⟨by simp only [List.map_cons, List.mem_cons]; exact Or.inr h.1, ?_⟩, fun t ht => Or.inl ht⟩
        intro z hz
        have hne : c ≠ p := fun e => hc (e ▸ h.1)
        have : getProc { w with procs := (c, x) :: w.procs } p = getProc w p := by
          unfold getProc
          rw [List.find?_cons_of_neg (by simpa using hne)]
        rw [this] at hz
        exact h.2 z hz

theorem own_run (w : World) (p u : Nat) (h : Own w p u) (as : List Action) :
    Own (run w as) p u ∧ ∀ t, (p, u, t) ∈ (run w as).log → (p, u, t) ∈ w.log ∨ t = .console ∨ ∃ a, t = .gen p a := by
  induction as generalizing w with
  | nil => exact ⟨h, fun t ht => Or.inl ht⟩
  | cons a as ih =>
    obtain ⟨h1, h2⟩ := own_step w p u h a
    obtain ⟨h3, h4⟩ := ih _ h1
    refine ⟨h3, fun t ht => ?_⟩
    rcases h4 t ht with h5 | h5
    · exact h2 t h5
    · exact Or.inr h5

/-- Clearing the cached id makes a thread the process's own. -/
theorem own_clear (w : World) (p u : Nat) (hp : p ∈ w.procs.map (·.1)) (hn : (w.procs.map (·.1)).Nodup) : Own (step w (.clear p u)) p u := by
  obtain ⟨e, he, rfl⟩ := List.mem_map.1 hp
  have hx : ∃ x, getProc w e.1 = some x := by
    cases hg : getProc w e.1 with
    | some x => exact ⟨x, rfl⟩
    | none =>
      unfold getProc at hg
      rw [Option.map_eq_none_iff, List.find?_eq_none] at hg
      exact absurd (decide_eq_true rfl) (hg e he)
  obtain ⟨x, hx⟩ := hx
  simp only [step, hx]
  refine ⟨by rw [setProc_pids]; exact hp, ?_⟩
  intro z hz q a hc
  rw [getProc_setProc _ _ _ _ hp, if_pos rfl] at hz
  injection hz with hz
  subst hz
  unfold clearId at hc
  split at hc
  · rename_i h0; rw [h0] at hc; injection hc with hc; cases hc
  · simp at hc

/-- **C86 (stable, first process).** In the first process every id of a thread is made from that process and
that thread: all answers about one thread are the same. -/
theorem c86_stable (pid : Nat) (as : List Action) (u q a q' a' : Nat)
    (h1 : (pid, u, Tid.gen q a) ∈ (run (init pid) as).log) (h2 : (pid, u, Tid.gen q' a') ∈ (run (init pid) as).log) :
    Tid.gen q a = Tid.gen q' a' := by
  have hok := ok_run _ (ok_init pid) as
  obtain ⟨x, hx⟩ := logged_proc hok h1
  have hp := hok.procs _ hx
  have ha := unique_uid hp.uids (hp.pin _ (hp.told u q a h1)) (hp.pin _ (hp.told u q' a' h2))
  have hown : Own (init pid) pid u := ⟨by simp [init], by intro z hz q a hc; simp [init, getProc] at hz; subst hz; simp at hc⟩
  have hr := (own_run _ pid u hown as).2
  have e1 : q = pid := by
    rcases hr _ h1 with h | h | ⟨b, h⟩
    · simp [init] at h
    · cases h
    · injection h
  have e2 : q' = pid := by
    rcases hr _ h2 with h | h | ⟨b, h⟩
    · simp [init] at h
    · cases h
    · injection h
  rw [e1, e2, ha]

/-- **C86 (stable, forked process).** Once a process has cleared the id a thread had from its parent, every later
answer about it carries the id of this process, and all later answers are the same. -/
theorem c86_forked (pid : Nat) (as bs : List Action) (p u : Nat) (hp : p ∈ (run (init pid) as).procs.map (·.1))
    (q a : Nat) (hnew : (p, u, Tid.gen q a) ∉ (run (init pid) as).log)
    (h1 : (p, u, Tid.gen q a) ∈ (run (init pid) (as ++ .clear p u :: bs)).log) :
    q = p ∧ ∀ q' a', (p, u, Tid.gen q' a') ∈ (run (init pid) (as ++ .clear p u :: bs)).log →
      (p, u, Tid.gen q' a') ∈ (run (init pid) as).log ∨ Tid.gen q' a' = Tid.gen q a := by
  have hok := ok_run _ (ok_init pid) as
  have hok2 := ok_run _ (ok_init pid) (as ++ .clear p u :: bs)
  have hlog : (step (run (init pid) as) (.clear p u)).log = (run (init pid) as).log := by
    simp only [step]; split <;> rfl
  have e : run (init pid) (as ++ .clear p u :: bs) = run (step (run (init pid) as) (.clear p u)) bs := by
    simp [run]
  have hown := own_clear _ p u hp hok.pids
  have hr := (own_run _ p u hown bs).2
  rw [← e, hlog] at hr
  have hq : q = p := by
    rcases hr _ h1 with h | h | ⟨b, h⟩
    · exact absurd h hnew
    · cases h
    · injection h
  refine ⟨hq, fun q' a' h2 => ?_⟩
  rcases hr _ h2 with h | h | ⟨b, h⟩
  · exact Or.inl h
  · cases h
  · right
    obtain ⟨x, hx⟩ := logged_proc hok2 h1
    have hp2 := hok2.procs _ hx
    have := unique_uid hp2.uids (hp2.pin _ (hp2.told u q a h1)) (hp2.pin _ (hp2.told u q' a' h2))
    injection h with h3 h4
    rw [hq, h3, this]

/-- **C86 (found again).** The thread an id was made for is the one found under its text, also when it is asked for
as part of the id of a frame. -/
theorem c86_found (w : World) (p : Nat) (x : Proc) (h : ProcOk w p x) (threads : List (Nat × Nat)) (hsub : ∀ e ∈ threads, e ∈ x.heap)
    (b u q a : Nat) (hu : (b, u) ∈ threads) (hc : x.cached u = some (.gen q a)) (req : Str)
    (hreq : req = (Tid.gen q a).str ∨ ∃ pre, req = pre ++ '|' :: (Tid.gen q a).str) :
    findThread p req x threads = some u := by
  have hpin := h.made u q a hc
  induction threads generalizing x with
  | nil => simp at hu
  | cons e es ih =>
    obtain ⟨c, v⟩ := e
    have hmem := hsub (c, v) (by simp)
    obtain ⟨g1, g2, g3, g4⟩ := getId_ok h hmem
    rw [findThread]
    by_cases hv : v = u
    · subst hv
      have hm : matchesId req (getId p x c v).2 = true := by
        have : (getId p x c v).2 = .gen q a := by unfold getId; rw [hc]
        rw [this]
        rcases hreq with rfl | ⟨pre, rfl⟩
        · simp [matchesId]
        · simp only [matchesId, Bool.or_eq_true]
          right; rw [Py.endsWith_iff]; exact List.suffix_append _ _
      rw [if_pos hm]
    · have hne : (getId p x c v).2 ≠ .gen q a := by
        intro he
        have h1 := g1.pin _ (g2 q a he)
        have h2 := g1.pin _ (g3 _ hpin)
        exact hv (unique_addr g1.addrs h1 h2)
      have hm : ¬ matchesId req (getId p x c v).2 = true := by
        intro hm
        simp only [matchesId, Bool.or_eq_true, decide_eq_true_eq, Py.endsWith_iff] at hm
        rcases hreq with rfl | ⟨pre, rfl⟩
        · rcases hm with hm | ⟨r, hm⟩
          · exact hne (c86_str_inj _ _ hm.symm)
          · exact no_bar (Tid.gen q a) (by rw [← hm]; simp)
        · rcases hm with hm | ⟨r, hm⟩
          · exact no_bar (getId p x c v).2 (by rw [← hm]; simp)
          · have hcut : ∀ (s t y z : Str), '|' ∉ s → '|' ∉ t → y ++ '|' :: s = z ++ '|' :: t → s = t := by
              intro s t y z hs ht e
              have e' := congrArg List.reverse e
              simp only [List.reverse_append, List.reverse_cons, List.append_assoc, List.singleton_append] at e'
              have key : ∀ (s t y z : Str), '|' ∉ s → '|' ∉ t → s ++ '|' :: y = t ++ '|' :: z → s = t := by
                intro s
                induction s with
                | nil =>
                  intro t y z _ ht e
                  cases t with
                  | nil => rfl
                  | cons d ds => simp at e; exact absurd e.1 (by intro h; exact ht (by rw [← h]; simp))
                | cons d ds ihs =>
                  intro t y z hs ht e
                  cases t with
                  | nil => simp at e; exact absurd e.1 (by intro h; exact hs (by rw [h]; simp))
                  | cons f fs =>
                    simp at e
                    rw [e.1, ihs fs y z (by simp at hs; exact hs.2) (by simp at ht; exact ht.2) e.2]
              have := key s.reverse t.reverse y.reverse z.reverse (by simpa using hs) (by simpa using ht) e'
              simpa using congrArg List.reverse this
            exact hne (c86_str_inj _ _ (hcut _ _ _ _ (no_bar _) (no_bar _) hm))
      rw [if_neg hm]
      have hu' : (b, u) ∈ es := by
        simp only [List.mem_cons] at hu
        rcases hu with hu | hu
        · injection hu with _ hu; exact absurd hu.symm hv
        · exact hu
      have hheap : (getId p x c v).1.heap = x.heap := by unfold getId; split <;> rfl
      refine ih _ g1 (fun e he => by rw [hheap]; exact hsub e (by simp [he])) hu' ?_ (g3 _ hpin)
      unfold getId
      split
      · exact hc
      · simp only [if_neg (Ne.symm hv)]; exact hc

/-! ### Example and witness -/

/-- The address of a thread that never had an id is used again; a thread with an id is not collected, so the third
thread cannot get its address. -/
theorem c86_example :
    (run (init 7) [.new 7 100, .collect 7 0, .new 7 100, .get 7 1, .collect 7 1, .new 7 100, .new 7 200, .get 7 2, .clear 7 1, .get 7 1]).log =
      [(7, 1, .gen 7 100), (7, 2, .gen 7 200), (7, 1, .gen 7 100)] := by decide

theorem c86_example_fork :
    (run (init 7) [.new 7 100, .get 7 0, .fork 7 8, .clear 8 0, .get 8 0, .get 7 0]).log =
      [(7, 0, .gen 7 100), (8, 0, .gen 8 100), (7, 0, .gen 7 100)] := by decide

/-- A forked process that is asked before it cleared the ids gives an id of its parent: the client sees the same id
from two processes. -/
theorem c86_inherited_witness :
    (run (init 7) [.new 7 100, .get 7 0, .fork 7 8, .get 8 0]).log = [(8, 0, .gen 7 100), (7, 0, .gen 7 100)] := by decide

end ThreadIds
