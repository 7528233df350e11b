import Verif.Stack.Spec
/-!
**C44.** Pages of the stack. **C45.** Chained exceptions. **C55.** The frames of an exception.
-/

namespace Stack

open Spec

/-! ### C45 -/

/-- numbers less than `n`, each once: at most `n` -/
theorem length_le_of_nodup (n : Nat) (l : List Nat) (h : l.Nodup) (hb : ∀ x ∈ l, x < n) : l.length ≤ n := by
  induction n generalizing l with
  | zero =>
    cases l with
    | nil => simp
    | cons x l => exact absurd (hb x (by simp)) (by omega)
  | succ n ih =>
    have h1 := ih (l.filter (· != n)) (h.filter _) (by
      intro x hx
      rw [List.mem_filter] at hx
      have := hb x hx.1
      have h2 : x ≠ n := by simpa using hx.2
      omega)
    have h2 : l.length ≤ (l.filter (· != n)).length + 1 := by
      clear ih hb h1
      induction l with
      | nil => simp
      | cons x l ih =>
        rw [List.nodup_cons] at h
        rw [List.filter_cons]
        by_cases hx : x = n
        · subst hx
          have : l.filter (· != x) = l := by
            apply List.filter_eq_self.2
            intro y hy
            have : y ≠ x := fun e => h.1 (e ▸ hy)
            simpa using this
          simp [this]
        · have : (x != n) = true := by simpa using hx
          rw [if_pos this]
          have := ih h.2
          simp only [List.length_cons]
          omega
    omega

theorem follows_iff (w : World) (e c : Nat) (m : Msg) : nextExc w e = some (c, m) ↔ Follows w e c m := by
  unfold nextExc
  constructor
  · intro h
    split at h
    · rename_i c' hc
      simp only [Option.some.injEq, Prod.mk.injEq] at h
      obtain ⟨rfl, rfl⟩ := h
      exact .cause hc
    · rename_i hc
      obtain ⟨c', hc', h⟩ := Option.map_eq_some_iff.1 h
      simp only [Prod.mk.injEq] at h
      obtain ⟨rfl, rfl⟩ := h
      exact .context hc hc'
  · intro h
    cases h with
    | cause h => rw [h]
    | context h h' => rw [h, h']; rfl

theorem addWrappers_eq (e i : Nat) (tbs : List Tb) (fl : FL) :
    (addWrappers e i tbs fl).frames = fl.frames ++ (tbs.zipIdx i).map (fun p => Ref.wrapper e p.2 p.1) ∧
    (addWrappers e i tbs fl).exc = fl.exc ∧ (addWrappers e i tbs fl).msg = fl.msg ∧
    (∀ k t, Py.Dict.get (addWrappers e i tbs fl).lines (.wrapper e k t) =
      if (t, k) ∈ tbs.zipIdx i then some t.line else Py.Dict.get fl.lines (.wrapper e k t)) := by
  induction tbs generalizing i fl with
  | nil => simp [addWrappers]
  | cons t tbs ih =>
    obtain ⟨h1, h2, h3, h4⟩ := ih (i + 1) (fl.add (.wrapper e i t) t.line)
    rw [addWrappers]
    refine ⟨?_, h2, h3, ?_⟩
    · rw [h1]
      simp [FL.add, List.zipIdx_cons]
    · intro k t'
      rw [h4]
      simp only [FL.add, Py.Dict.get_set, List.zipIdx_cons, List.mem_cons, Prod.mk.injEq, Ref.wrapper.injEq, true_and]
      by_cases h : (t', k) ∈ tbs.zipIdx (i + 1)
      · simp [h]
      · simp only [h, if_false, or_false]
        by_cases hk : k = i ∧ t' = t
        · obtain ⟨rfl, rfl⟩ := hk
          simp
        · rw [if_neg hk, if_neg (fun h => hk ⟨h.2, h.1⟩)]

theorem addWrappers_shows (c : Nat) (tb : List Tb) (m : Msg) :
    ShowsTb tb (addWrappers c 0 tb { FL.empty with exc := some c, msg := m }) := by
  obtain ⟨h1, _, _, h4⟩ := addWrappers_eq c 0 tb { FL.empty with exc := some c, msg := m }
  have h1 : (addWrappers c 0 tb { FL.empty with exc := some c, msg := m }).frames = (tb.zipIdx 0).map (fun p => Ref.wrapper c p.2 p.1) := h1
  refine ⟨?_, by rw [h1]; simp, ?_⟩
  · rw [h1]
    have key : ∀ (l : List Tb) (i : Nat), ((l.zipIdx i).map (fun p => Ref.wrapper c p.2 p.1)).Nodup := by
      intro l
      induction l with
      | nil => simp
      | cons t l ih =>
        intro i
        rw [List.zipIdx_cons, List.map_cons, List.nodup_cons]
        refine ⟨?_, ih (i + 1)⟩
        intro hm
        obtain ⟨p, hp, he⟩ := List.mem_map.1 hm
        simp only [Ref.wrapper.injEq, true_and] at he
        have := List.le_snd_of_mem_zipIdx hp
        omega
    exact key tb 0
  · intro i t ht
    refine ⟨c, i, ?_, ?_⟩
    · rw [h1, List.getElem?_map, List.getElem?_zipIdx, ht]
      simp
    · rw [h4, if_pos]
      rw [List.mem_iff_getElem?]
      exact ⟨i, by rw [List.getElem?_zipIdx, ht]; simp⟩

theorem chain_spec (w : World) (fuel e : Nat) (memo : List Nat) (ls : List FL) (h : chain w fuel e memo = some ls) :
    Chain w memo e ls := by
  induction fuel generalizing e memo ls with
  | zero => cases h
  | succ fuel ih =>
    rw [chain] at h
    unfold causeList at h
    cases hn : nextExc w e with
    | none =>
      rw [hn] at h
      simp only [Option.some.injEq] at h
      subst h
      intro c m hf
      rw [(follows_iff w e c m).2 hf] at hn
      cases hn
    | some p =>
      obtain ⟨c, m⟩ := p
      rw [hn] at h
      simp only at h
      by_cases hc : c ∈ memo
      · rw [if_pos hc] at h
        simp only [Option.some.injEq] at h
        subst h
        intro c' m' hf
        rw [(follows_iff w e c' m').2 hf] at hn
        simp only [Option.some.injEq, Prod.mk.injEq] at hn
        rw [hn.1]
        exact hc
      · rw [if_neg hc] at h
        simp only at h
        obtain ⟨rest, hr, rfl⟩ := Option.map_eq_some_iff.1 h
        obtain ⟨_, h2, h3, _⟩ := addWrappers_eq c 0 (w.exc c).tb { FL.empty with exc := some c, msg := m }
        refine ⟨c, hc, h2, ?_, addWrappers_shows c _ m, ih c _ rest hr⟩
        rw [h3]
        exact (follows_iff w e c m).1 hn

theorem chain_ends (w : World) (n : Nat) (hcl : Closed w n) (fuel e : Nat) (memo : List Nat) (he : e < n) (hd : memo.Nodup)
    (hb : ∀ x ∈ memo, x < n) (hf : n < memo.length + fuel) : (chain w fuel e memo).isSome := by
  induction fuel generalizing e memo with
  | zero =>
    have := length_le_of_nodup n memo hd hb
    omega
  | succ fuel ih =>
    rw [chain]
    unfold causeList
    cases hn : nextExc w e with
    | none => rfl
    | some p =>
      obtain ⟨c, m⟩ := p
      simp only
      by_cases hc : c ∈ memo
      · rw [if_pos hc]
        rfl
      · rw [if_neg hc]
        simp only [Option.isSome_map]
        have hcn := hcl e he c m ((follows_iff w e c m).1 hn)
        refine ih c (c :: memo) hcn (List.nodup_cons.2 ⟨hc, hd⟩) ?_ (by simp; omega)
        intro x hx
        rcases List.mem_cons.1 hx with rfl | hx
        · exact hcn
        · exact hb x hx

theorem chain_nodup (w : World) (seen : List Nat) (e : Nat) (ls : List FL) (h : Chain w seen e ls) :
    (ls.map (·.exc)).Nodup ∧ ∀ c ∈ seen, some c ∉ ls.map (·.exc) := by
  induction ls generalizing seen e with
  | nil => simp
  | cons fl rest ih =>
    obtain ⟨c, h1, h2, _, _, h5⟩ := h
    obtain ⟨h6, h7⟩ := ih (c :: seen) c h5
    rw [List.map_cons, h2, List.nodup_cons]
    refine ⟨⟨h7 c (by simp), h6⟩, ?_⟩
    intro d hd hm
    rcases List.mem_cons.1 hm with hm | hm
    · simp only [Option.some.injEq] at hm
      exact h1 (hm ▸ hd)
    · exact h7 d (List.mem_cons_of_mem _ hd) hm

/-- **C45.** For every graph of causes and contexts, with cycles or without, of at most `n` exceptions: the listing ends; each list
shows an exception that follows the one before, with its traceback; none is shown twice. -/
theorem c45_chain (w : World) (n e : Nat) (hcl : Closed w n) (he : e < n) :
    (∃ ls, chain w (n + 1) e [e] = some ls) ∧
    ∀ fuel ls, chain w fuel e [e] = some ls → Chain w [e] e ls ∧ (some e :: ls.map (·.exc)).Nodup := by
  constructor
  · exact Option.isSome_iff_exists.1 (chain_ends w n hcl (n + 1) e [e] he (by simp) (by simpa using he) (by simp; omega))
  · intro fuel ls h
    have hc := chain_spec w fuel e [e] ls h
    obtain ⟨h1, h2⟩ := chain_nodup w [e] e ls hc
    exact ⟨hc, List.nodup_cons.2 ⟨h2 e (by simp), h1⟩⟩

/-! ### C55 -/

/-- the lines after adding the entries -/
def addAll (fl : FL) (es : List (Nat × Int)) : FL := es.foldl (fun fl e => fl.add (.real e.1) e.2) fl

theorem collect_some (start : Nat → Bool) (fl : FL) (es : List (Nat × Int)) : collect start (some fl) es = some (addAll fl es) := by
  induction es generalizing fl with
  | nil => rfl
  | cons e es ih =>
    obtain ⟨f, l⟩ := e
    rw [collect, ih]
    rfl

theorem collect_none (start : Nat → Bool) (pre es : List (Nat × Int)) (h : ∀ e ∈ pre, start e.1 = false) :
    collect start none (pre ++ es) = collect start none es := by
  induction pre with
  | nil => rfl
  | cons e pre ih =>
    obtain ⟨f, l⟩ := e
    have h1 := h (f, l) (by simp)
    simp only at h1
    rw [List.cons_append, collect, h1]
    exact ih fun e he => h e (List.mem_cons_of_mem _ he)

theorem collect_start (start : Nat → Bool) (f : Nat) (l : Int) (es : List (Nat × Int)) (h : start f = true) :
    collect start none ((f, l) :: es) = some (addAll FL.empty ((f, l) :: es)) := by
  rw [collect, h]
  simp only [if_true]
  rw [collect_some]
  rfl

theorem addAll_frames (fl : FL) (es : List (Nat × Int)) : (addAll fl es).frames = fl.frames ++ es.map (fun e => Ref.real e.1) := by
  induction es generalizing fl with
  | nil => simp [addAll]
  | cons e es ih =>
    show (addAll (fl.add (.real e.1) e.2) es).frames = _
    rw [ih]
    simp [FL.add]

theorem addAll_other (fl : FL) (es : List (Nat × Int)) (f : Nat) (h : ∀ l, (f, l) ∉ es) :
    Py.Dict.get (addAll fl es).lines (.real f) = Py.Dict.get fl.lines (.real f) := by
  induction es generalizing fl with
  | nil => rfl
  | cons e es ih =>
    show Py.Dict.get (addAll (fl.add (.real e.1) e.2) es).lines _ = _
    rw [ih _ fun l hm => h l (List.mem_cons_of_mem _ hm)]
    simp only [FL.add, Py.Dict.get_set, Ref.real.injEq]
    rw [if_neg]
    rintro rfl
    exact h e.2 (by simp)

theorem addAll_shows (es : List (Nat × Int)) : ShowsFrames es (addAll FL.empty es) := by
  refine ⟨by rw [addAll_frames]; rfl, ?_⟩
  rintro f l ⟨pre, post, rfl, hp⟩
  have : addAll FL.empty (pre ++ (f, l) :: post) = addAll ((addAll FL.empty pre).add (.real f) l) post := by
    simp [addAll]
  rw [this, addAll_other _ _ _ hp]
  simp [FL.add, Py.Dict.get_set]

/-- the traceback from the innermost frame, then the callers -/
theorem entries_eq (w : World) (t : Tb) (tb : List Tb) :
    entries w (t :: tb) = ((t :: tb).reverse.map fun t => (t.frame, t.line)) ++ (w.callers t.frame).map fun f => (f, w.lineno f) := by
  simp [entries]

/-- **C55.** For an unhandled exception (no frame given) or one that leaves the user's code, the list shows every frame of the
traceback from the innermost one, then the callers of the outermost, with the lines of the traceback. -/
theorem c55_whole (w : World) (t : Tb) (tb : List Tb) (frame : Option Nat) (exc : Nat) (kind : Kind)
    (h : frame = none ∨ kind = .userUnhandled) :
    ∃ fl, fromTraceback w (t :: tb) frame exc kind = some fl ∧ fl.exc = some exc ∧
      ShowsFrames (((t :: tb).reverse.map fun t => (t.frame, t.line)) ++ (w.callers t.frame).map fun f => (f, w.lineno f)) fl ∧
      (kind = .userUnhandled → fl.current = frame.map .real) := by
  have hstart : ∀ f, startAt frame kind f = true := by
    intro f
    unfold startAt
    rcases h with h | h <;> simp [h]
  have hne : ∃ e es, entries w (t :: tb) = e :: es := by
    cases he : entries w (t :: tb) with
    | nil => rw [entries_eq] at he; simp at he
    | cons e es => exact ⟨e, es, rfl⟩
  obtain ⟨⟨f, l⟩, es, he⟩ := hne
  unfold fromTraceback
  rw [← entries_eq, he, collect_start _ f l es (hstart f)]
  refine ⟨_, rfl, rfl, addAll_shows _, ?_⟩
  rintro rfl
  rfl

/-- **C55.** When the program stops in the frame `f` of the traceback (or a caller), the frames inside `f` are left out: the list
starts with `f` and shows it and everything outside, with the lines of the traceback. -/
theorem c55_from_frame (w : World) (t : Tb) (tb : List Tb) (f : Nat) (exc : Nat) (kind : Kind) (hk : kind ≠ .userUnhandled)
    (inner outer : List (Nat × Int)) (l : Int)
    (hsplit : ((t :: tb).reverse.map fun t => (t.frame, t.line)) ++ (w.callers t.frame).map (fun f => (f, w.lineno f)) =
      inner ++ (f, l) :: outer)
    (hin : ∀ l', (f, l') ∉ inner) :
    ∃ fl, fromTraceback w (t :: tb) (some f) exc kind = some fl ∧ fl.exc = some exc ∧ ShowsFrames ((f, l) :: outer) fl ∧
      (kind = .unhandled → fl.current = fl.frames.getLast?) := by
  unfold fromTraceback
  rw [entries_eq, hsplit]
  rw [collect_none]
  · rw [collect_start _ f l outer (by simp [startAt])]
    refine ⟨_, rfl, rfl, addAll_shows _, ?_⟩
    rintro rfl
    have := (addAll_shows ((f, l) :: outer)).1
    simp [finish, this]
  · rintro ⟨g, l'⟩ hm
    have : g ≠ f := by
      rintro rfl
      exact hin l' hm
    simp [startAt, hk, Ne.symm this]

/-- **C55.** A frame that is in neither: the frame and its callers. -/
theorem c55_other_frame (w : World) (tb : List Tb) (f : Nat) (exc : Nat) (kind : Kind) (hk : kind ≠ .userUnhandled)
    (h : ∀ e ∈ entries w tb, e.1 ≠ f) :
    ∃ fl, fromTraceback w tb (some f) exc kind = some fl ∧ fl.frames = (f :: w.callers f).map .real ∧ fl.lines = [] := by
  unfold fromTraceback
  have := collect_none (startAt (some f) kind)
    (entries w tb) [] (by
      intro e he
      have := h e he
      simp [startAt, hk, Ne.symm this])
  rw [List.append_nil] at this
  rw [this]
  exact ⟨_, rfl, rfl, rfl⟩

/-- A frame of which there is only one entry is shown with the line of this entry. -/
theorem c55_line (es : List (Nat × Int)) (hn : (es.map (·.1)).Nodup) (f : Nat) (l : Int) (h : (f, l) ∈ es) : LastLine es f l := by
  obtain ⟨pre, post, rfl⟩ := List.append_of_mem h
  refine ⟨pre, post, rfl, ?_⟩
  intro l' hm
  rw [List.map_append, List.map_cons, List.nodup_append] at hn
  exact (List.nodup_cons.1 hn.2.1).1 (List.mem_map.2 ⟨_, hm, rfl⟩)

/-! ### C44 -/

theorem row_some (env : Env) (chained : Bool) (fl : FL) (f : Ref) :
    (Visible env f → ∃ r, row env chained fl f = some r ∧ r.id = f ∧
      (r.file, r.line) = env.toClient (env.info f).path ((Py.Dict.get fl.lines f).getD (env.lineno f))) ∧
    (¬ Visible env f → row env chained fl f = none) := by
  unfold row Visible
  cases h1 : (env.info f).internal <;> cases h2 : (env.info f).plugin <;> cases h3 : (env.info f).filtered <;> simp

/-- the rows for one list: the visible frames, with the line of the list mapped for the client -/
def RowsOf (env : Env) (fl : FL) (rs : List Row) : Prop :=
  rs.map (·.id) = fl.frames.filter (fun f => decide (Visible env f)) ∧
  ∀ r ∈ rs, (r.file, r.line) = env.toClient (env.info r.id).path ((Py.Dict.get fl.lines r.id).getD (env.lineno r.id))

theorem filterMap_rows (env : Env) (chained : Bool) (fl : FL) : RowsOf env fl (fl.frames.filterMap (row env chained fl)) := by
  have key : ∀ (fs : List Ref), (fs.filterMap (row env chained fl)).map (·.id) = fs.filter (fun f => decide (Visible env f)) ∧
      ∀ r ∈ fs.filterMap (row env chained fl),
        (r.file, r.line) = env.toClient (env.info r.id).path ((Py.Dict.get fl.lines r.id).getD (env.lineno r.id)) := by
    intro fs
    induction fs with
    | nil => simp
    | cons f fs ih =>
      by_cases hv : Visible env f
      · obtain ⟨r, h1, h2, h3⟩ := (row_some env chained fl f).1 hv
        rw [List.filterMap_cons, h1, List.filter_cons, if_pos (by simpa using hv)]
        refine ⟨by simp [h2, ih.1], ?_⟩
        intro r' hr'
        rcases List.mem_cons.1 hr' with rfl | hr'
        · rw [h2]; exact h3
        · exact ih.2 r' hr'
      · rw [List.filterMap_cons, (row_some env chained fl f).2 hv, List.filter_cons, if_neg (by simpa using hv)]
        exact ih
  exact key fl.frames

/-- **C44.** The full stack: the visible frames of the list and of each chained exception, in order, up to a chained exception
without a traceback; the line is the one of the list, mapped for the client. -/
theorem c44_full (env : Env) (fl : FL) (chained : List FL) (h : ∀ c ∈ chained, c.frames ≠ []) :
    ∃ parts : List (List Row), rows env false (fl :: chained) = parts.flatten ∧ parts.length = (fl :: chained).length ∧
      ∀ (i : Nat) rs l, parts[i]? = some rs → (fl :: chained)[i]? = some l → RowsOf env l rs := by
  have key : ∀ (ch : List FL), (∀ c ∈ ch, c.frames ≠ []) → ∃ parts : List (List Row), rows env true ch = parts.flatten ∧
      parts.length = ch.length ∧ ∀ (i : Nat) rs l, parts[i]? = some rs → ch[i]? = some l → RowsOf env l rs := by
    intro ch
    induction ch with
    | nil => intro _; exact ⟨[], rfl, rfl, by simp⟩
    | cons c ch ih =>
      intro hne
      obtain ⟨parts, h1, h2, h3⟩ := ih fun c hc => hne c (List.mem_cons_of_mem _ hc)
      refine ⟨c.frames.filterMap (row env true c) :: parts, ?_, by simp [h2], ?_⟩
      · have : c.frames.isEmpty = false := by simpa using hne c (by simp)
        rw [rows, this]
        simp [h1]
      · intro i rs l hi hl
        cases i with
        | zero =>
          simp only [List.getElem?_cons_zero, Option.some.injEq] at hi hl
          subst hi hl
          exact filterMap_rows env true c
        | succ i =>
          simp only [List.getElem?_cons_succ] at hi hl
          exact h3 i rs l hi hl
  obtain ⟨parts, h1, h2, h3⟩ := key chained h
  refine ⟨fl.frames.filterMap (row env false fl) :: parts, ?_, by simp [h2], ?_⟩
  · rw [rows]
    simp [h1]
  · intro i rs l hi hl
    cases i with
    | zero =>
      simp only [List.getElem?_cons_zero, Option.some.injEq] at hi hl
      subst hi hl
      exact filterMap_rows env false fl
    | succ i =>
      simp only [List.getElem?_cons_succ] at hi hl
      exact h3 i rs l hi hl

/-- **C44.** The name shown is the formatted name of the function, behind the exception it belongs to if that is a chained one; the
frame at which an exception stopped the program is marked. -/
theorem c44_names (env : Env) (chained : Bool) (fl : FL) (f : Ref) (hv : Visible env f) :
    ∃ r suffix prefix_, row env chained fl f = some r ∧ r.name = env.format f (prefix_ ++ (env.info f).name) r.line r.file ++ suffix ∧
      (fl.current = some f → suffix = c!" (Current frame)") ∧ (fl.current ≠ some f → suffix = []) ∧
      (chained = true → prefix_ = c!"[Chained Exc: " ++ env.text fl.exc ++ c!"] ") ∧ (chained = false → prefix_ = []) := by
  obtain ⟨h1, h2⟩ := hv
  have h3 : (!(env.info f).plugin && (env.info f).filtered) = false := by rcases h2 with h | h <;> simp [h]
  have e : ∃ r, row env chained fl f = some r := by
    unfold row
    rw [if_neg (by simp [h1]), if_neg (by simp [h3])]
    exact ⟨_, rfl⟩
  obtain ⟨r, e⟩ := e
  refine ⟨r, if fl.current = some f then c!" (Current frame)" else [],
    if chained then c!"[Chained Exc: " ++ env.text fl.exc ++ c!"] " else [], e, ?_, ?_, ?_, ?_, ?_⟩
  · unfold row at e
    rw [if_neg (by simp [h1]), if_neg (by simp [h3])] at e
    simp only [Option.some.injEq] at e
    subst e
    by_cases hc : fl.current = some f <;> cases chained <;> simp [hc, eq_comm]
  all_goals intro h; simp [h]

/-- the full stack -/
def full (env : Env) (lists : List FL) : List Row := (stackTrace env lists ⟨0, 0⟩).1

/-- **C44.** A page is the part of the full stack asked for; the total is always the number of frames of the full stack. -/
theorem c44_page (env : Env) (lists : List FL) (start levels : Nat) (h : 0 < levels) :
    (stackTrace env lists ⟨start, levels⟩).1 = ((full env lists).drop start).take levels ∧
    (stackTrace env lists ⟨start, levels⟩).2 = (full env lists).length := by
  have hfull : full env lists = rows env false lists := rfl
  rw [hfull]
  refine ⟨?_, rfl⟩
  unfold stackTrace respond
  simp only [if_pos (show (levels : Int) ≠ 0 by omega)]
  by_cases hs : start ≤ (rows env false lists).length
  · have hm : ((min (start + levels) (rows env false lists).length : Nat) : Int) =
        min ((start : Int) + (levels : Int)) ((rows env false lists).length : Int) := by omega
    rw [← hm, Py.slice_eq _ _ _ (by omega) (by omega)]
    simp only [List.drop_take]
    rw [List.take_eq_take_iff]
    simp
    omega
  · rw [Py.slice_beyond _ _ _ (by omega), List.drop_of_length_le (by omega)]
    simp

/-- **C44.** Consecutive pages of any size give the full stack, each frame once, in order. -/
theorem c44_pages (env : Env) (lists : List FL) (size n : Nat) (hs : 0 < size) (hn : (full env lists).length ≤ n * size) :
    (List.range n).flatMap (fun (i : Nat) => (stackTrace env lists ⟨((i * size : Nat) : Int), size⟩).1) = full env lists := by
  have key : ∀ n, (List.range n).flatMap (fun (i : Nat) => (stackTrace env lists ⟨((i * size : Nat) : Int), size⟩).1) =
      (full env lists).take (n * size) := by
    intro n
    induction n with
    | zero => simp
    | succ n ih =>
      rw [List.range_succ, List.flatMap_append, ih, List.flatMap_singleton, (c44_page env lists (n * size) size hs).1, Nat.succ_mul,
        List.take_add]
  rw [key n, List.take_of_length_le hn]

/-! ### Witnesses -/

/-- an environment in which nothing is hidden or renamed -/
def plain : Env :=
  { info := fun _ => ⟨c!"f", c!"a.py", false, false, false⟩, lineno := fun _ => 1, text := fun _ => c!"e"
    toClient := fun f l => (f, l), format := fun _ n _ _ => n }

/-- `startFrame` without `levels` is ignored: the answer has the whole stack. -/
theorem c44_start_ignored (env : Env) (lists : List FL) (start : Int) : (stackTrace env lists ⟨start, 0⟩).1 = full env lists := rfl

/-- Frames of exceptions after a chained exception that was never raised (it has no traceback) are not shown. -/
theorem c44_chain_cut (env : Env) (fl c : FL) (rest : List FL) (h : c.frames = []) :
    rows env false (fl :: c :: rest) = rows env false [fl] := by
  simp [rows, h]

/-- exceptions 0 (context 1), 1 (cause 2) and 2 (context 0): a cycle; 3 was raised with `from None` while handling 1 -/
def world : World :=
  { exc := fun e => match e with
      | 0 => ⟨none, some 1, false, [⟨10, 5⟩]⟩
      | 1 => ⟨some 2, none, true, [⟨10, 3⟩, ⟨11, 8⟩]⟩
      | 2 => ⟨none, some 0, false, [⟨12, 9⟩]⟩
      | 3 => ⟨none, some 1, true, [⟨10, 5⟩]⟩
      | _ => ⟨none, none, false, []⟩
    callers := fun f => match f with | 10 => [9] | 11 => [10, 9] | _ => []
    lineno := fun f => match f with | 9 => 100 | 10 => 6 | _ => 1 }

/-- `raise X from None`: the context is suppressed, and shown nevertheless. -/
theorem c45_from_none : (world.exc 3).suppress = true ∧
    (chain world 9 3 [3]).map (·.map (fun fl => (fl.exc, fl.msg))) =
      some [(some 1, .context), (some 2, .cause), (some 0, .context)] := by decide +kernel

/-- A frame that raised the exception twice (`raise e` in the frame that caught it) has two entries. It is shown twice, with the
same id and the line of the second `raise` both times. -/
theorem c55_raised_twice : (fromTraceback world [⟨10, 6⟩, ⟨10, 4⟩, ⟨11, 8⟩] none 0 .unhandled).map
      (fun fl => (rows plain false [fl]).map fun r => (r.id, r.line)) =
    some [(.real 11, 8), (.real 10, 6), (.real 10, 6), (.real 9, 100)] := by decide +kernel

/-- The frames of the exception are shown from the innermost, those of a chained exception from the outermost. -/
theorem c55_chained_order : (fromException world 9 [⟨10, 6⟩, ⟨11, 8⟩] none 0 .unhandled).map
      (fun ls => (rows plain false (ls.take 2)).map fun r => (r.id, r.line)) =
    some [(.real 11, 8), (.real 10, 6), (.real 9, 100), (.wrapper 1 0 ⟨10, 3⟩, 3), (.wrapper 1 1 ⟨11, 8⟩, 8)] := by decide +kernel

/-! ### Cases -/

/-- the exceptions 0, 1, 2 are a cycle: the hypotheses of `c45_chain` are met -/
example : Closed world 3 := by
  intro e he c m h
  have : e = 0 ∨ e = 1 ∨ e = 2 := by omega
  rcases this with rfl | rfl | rfl <;> cases h <;> simp_all [world] <;> omega

example : (chain world 4 0 [0]).map (·.map (·.exc)) = some [some 1, some 2] := by decide +kernel

/-- the hypotheses of `c55_from_frame` -/
example : (([⟨10, 6⟩, ⟨11, 8⟩] : List Tb).reverse.map fun t => (t.frame, t.line)) ++ (world.callers 10).map (fun f => (f, world.lineno f)) =
    [(11, 8)] ++ (10, 6) :: [(9, 100)] := by decide

example : (fromTraceback world [⟨10, 6⟩, ⟨11, 8⟩] (some 10) 0 .handled).map (·.frames) = some [.real 10, .real 9] := by decide +kernel

example : (stackTrace plain [fromFrame world 11] ⟨1, 1⟩).1.map (·.id) = [.real 10] ∧ (stackTrace plain [fromFrame world 11] ⟨1, 1⟩).2 = 3 := by
  decide +kernel

end Stack
