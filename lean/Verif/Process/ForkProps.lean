import Verif.Process.Fork
/-!
# C107: a forked child has a session of its own, or none, and no lock is held in it
-/
namespace Process.Fork
open Process

/-- Every lock there is is registered. -/
def Registered (p : Proc) : Prop := ∀ x ∈ p.live, x.1 ∈ p.refs

theorem reinit_spec (p : Proc) (l : Nat) :
    (reinit p l).live.map (·.1) = p.live.map (·.1) ∧ (reinit p l).dbg = p.dbg ∧ (reinit p l).tokens = p.tokens ∧
    (reinit p l).port = p.port ∧ (reinit p l).skip = p.skip ∧ (reinit p l).ppid = p.ppid := by
  unfold reinit
  split
  · refine ⟨?_, rfl, rfl, rfl, rfl, rfl⟩
    simp only [setHolder, List.map_map]
    apply List.map_congr_left
    intro x _
    simp only [Function.comp_apply]
    split <;> rfl
  · exact ⟨rfl, rfl, rfl, rfl, rfl, rfl⟩

theorem reinits_spec (ls : List Nat) (p : Proc) :
    (ls.foldl reinit p).live.map (·.1) = p.live.map (·.1) ∧ (ls.foldl reinit p).dbg = p.dbg ∧
    (ls.foldl reinit p).tokens = p.tokens ∧ (ls.foldl reinit p).port = p.port ∧ (ls.foldl reinit p).skip = p.skip ∧
    (ls.foldl reinit p).ppid = p.ppid := by
  induction ls generalizing p with
  | nil => exact ⟨rfl, rfl, rfl, rfl, rfl, rfl⟩
  | cons l r ih =>
    obtain ⟨a, b, c, d, e, f⟩ := reinit_spec p l
    obtain ⟨a', b', c', d', e', f'⟩ := ih (reinit p l)
    exact ⟨a'.trans a, b'.trans b, c'.trans c, d'.trans d, e'.trans e, f'.trans f⟩

theorem mem_setHolder {ls : List (Nat × Option Nat)} {l : Nat} {h : Option Nat} {x : Nat × Option Nat}
    (hx : x ∈ setHolder ls l h) : (x.1 = l ∧ x.2 = h) ∨ (x.1 ≠ l ∧ x ∈ ls) := by
  simp only [setHolder, List.mem_map] at hx
  obtain ⟨y, hy, e⟩ := hx
  split at e
  · next h1 => subst e; exact .inl ⟨h1, rfl⟩
  · next h1 => subst e; exact .inr ⟨h1, hy⟩

theorem reinits_free (ls : List Nat) (p : Proc) (done : Nat → Prop)
    (h1 : ∀ x ∈ p.live, done x.1 → x.2 = none ∧ x.1 ∈ p.refs) :
    ∀ x ∈ (ls.foldl reinit p).live, done x.1 ∨ x.1 ∈ ls → x.2 = none ∧ x.1 ∈ (ls.foldl reinit p).refs := by
  induction ls generalizing p done with
  | nil =>
    intro x hx hd
    exact h1 x hx (by simpa using hd)
  | cons l r ih =>
    intro x hx hd
    refine ih (reinit p l) (fun k => done k ∨ k = l) ?_ x hx ?_
    · intro y hy hk
      unfold reinit at hy ⊢
      split at hy
      · next ha =>
        rw [if_pos ha]
        rcases mem_setHolder hy with ⟨e1, e2⟩ | ⟨e1, e2⟩
        · exact ⟨e2, by simp [e1]⟩
        · rcases hk with hk | hk
          · obtain ⟨a, b⟩ := h1 y e2 hk
            exact ⟨a, by simp [b]⟩
          · exact absurd hk e1
      · next ha =>
        rw [if_neg ha]
        rcases hk with hk | hk
        · exact h1 y hy hk
        · exfalso
          apply ha
          rw [List.any_eq_true]
          exact ⟨y, hy, by simp [hk]⟩
    · rcases hd with hd | hd
      · exact .inl (.inl hd)
      · rcases List.mem_cons.mp hd with hd | hd
        · exact .inl (.inr hd)
        · exact .inr hd

theorem afterFork_free (p : Proc) (h : Registered p) :
    ∀ x ∈ (afterFork p).live, x.2 = none ∧ x.1 ∈ (afterFork p).refs := by
  intro x hx
  refine reinits_free p.refs { p with refs := [] } (fun _ => False) (by simp) x hx (.inr ?_)
  have : x.1 ∈ p.live.map (·.1) := by
    have e := (reinits_spec p.refs { p with refs := [] }).1
    simp only at e
    rw [← e]
    exact List.mem_map_of_mem hx
  obtain ⟨y, hy, e⟩ := List.mem_map.mp this
  have := h y hy
  rwa [e] at this

/-- What holds of all processes. -/
structure Inv (s : Sys) : Prop where
  reg : ∀ q p, s.procs q = some p → Registered p
  old : ∀ q p, s.procs q = some p → q < s.next
  conn : ∀ q p d, s.procs q = some p → p.dbg = some d → d < s.conn
  apart : ∀ q r p p' d, s.procs q = some p → s.procs r = some p' → p.dbg = some d → p'.dbg = some d → q = r

theorem inv_frame {s : Sys} (h : Inv s) (q : Nat) (p p' : Proc) (hp : s.procs q = some p) (hr : Registered p')
    (hd : p'.dbg = p.dbg ∨ p'.dbg = none) : Inv { s with procs := upd s.procs q (some p') } := by
  constructor
  · intro r x hx
    simp only [upd] at hx
    split at hx
    · cases hx; exact hr
    · exact h.reg r x hx
  · intro r x hx
    simp only [upd] at hx
    split at hx
    · next e => subst e; exact h.old _ p hp
    · exact h.old r x hx
  · intro r x d hx he
    simp only [upd] at hx
    split at hx
    · cases hx
      rcases hd with hd | hd
      · exact h.conn q p d hp (by rw [← hd, he])
      · rw [hd] at he; cases he
    · exact h.conn r x d hx he
  · intro r r' x x' d hx hx' he he'
    simp only [upd] at hx hx'
    by_cases e : r = q <;> by_cases e' : r' = q
    · rw [e, e']
    · simp only [e, if_true] at hx
      simp only [e', if_false] at hx'
      cases hx
      rcases hd with hd | hd
      · rw [e]; exact h.apart q r' p x' d hp hx' (by rw [← hd, he]) he'
      · rw [hd] at he; cases he
    · simp only [e', if_true] at hx'
      simp only [e, if_false] at hx
      cases hx'
      rcases hd with hd | hd
      · rw [e']; exact h.apart r q x p d hx hp he (by rw [← hd, he'])
      · rw [hd] at he'; cases he'
    · simp only [e, if_false] at hx
      simp only [e', if_false] at hx'
      exact h.apart r r' x x' d hx hx' he he'

theorem child_reg (parent : Nat) (p : Proc) (t : Nat) (c : Caller) (conn : Nat) (h : Registered p) :
    Registered (child parent p t c conn) := by
  unfold child
  split
  · exact fun x hx => (afterFork_free p h x hx).2
  · exact h

theorem child_dbg (parent : Nat) (p : Proc) (t : Nat) (c : Caller) (conn : Nat) :
    (child parent p t c conn).dbg = if tracing p t c && p.port then some conn else none := by
  unfold child
  split
  · have e : (afterFork p).port = p.port := (reinits_spec p.refs { p with refs := [] }).2.2.2.1
    simp only [onForked, settraceForked, e]
  · next hn =>
    have : c ≠ .program := by rintro rfl; exact hn rfl
    simp [tracing, this]

set_option maxHeartbeats 1000000 in
theorem inv_step {s : Sys} (h : Inv s) (a : Act) : Inv (step s a) := by
  cases a with
  | make q l =>
    simp only [step]
    split
    · next p hp =>
      split
      · exact h
      · refine inv_frame h q p _ hp ?_ (.inl rfl)
        intro x hx
        simp only [make, List.mem_append, List.mem_singleton] at hx ⊢
        rcases hx with hx | hx
        · exact .inl (h.reg q p hp x hx)
        · subst hx; right; simp
    · exact h
  | acquire q t l =>
    simp only [step]
    split
    · next p hp =>
      split
      · next hc =>
        refine inv_frame h q p _ hp ?_ (.inl rfl)
        intro x hx
        rcases mem_setHolder hx with ⟨e1, _⟩ | ⟨_, e2⟩
        · rw [e1]
          exact h.reg q p hp (l, none) (by simpa using hc)
        · exact h.reg q p hp x e2
      · exact h
    · exact h
  | release q l =>
    simp only [step]
    split
    · next p hp =>
      refine inv_frame h q p _ hp ?_ (.inl rfl)
      intro x hx
      simp only [setHolder, List.mem_map] at hx
      obtain ⟨y, hy, e⟩ := hx
      have := h.reg q p hp y hy
      split at e <;> (subst e; exact this)
    · exact h
  | collect q l =>
    simp only [step]
    split
    · next p hp =>
      refine inv_frame h q p _ hp ?_ (.inl rfl)
      intro x hx
      exact h.reg q p hp x (List.mem_filter.mp hx).1
    · exact h
  | skip q k =>
    simp only [step]
    split
    · next p hp => exact inv_frame h q p _ hp (h.reg q p hp) (.inl rfl)
    · exact h
  | stop q =>
    simp only [step]
    split
    · next p hp => exact inv_frame h q p _ hp (h.reg q p hp) (.inr rfl)
    · exact h
  | attach q =>
    simp only [step]
    split
    · next p hp =>
      split
      · next hn =>
        constructor
        · intro r x hx
          simp only [upd] at hx
          split at hx
          · cases hx; exact h.reg q p hp
          · exact h.reg r x hx
        · intro r x hx
          simp only [upd] at hx
          split at hx
          · next e => subst e; exact h.old _ p hp
          · exact h.old r x hx
        · intro r x d hx he
          simp only [upd] at hx
          split at hx
          · cases hx; cases he; exact Nat.lt_succ_self _
          · exact Nat.lt_succ_of_lt (h.conn r x d hx he)
        · intro r r' x x' d hx hx' he he'
          simp only [upd] at hx hx'
          by_cases e : r = q <;> by_cases e' : r' = q
          · rw [e, e']
          · simp only [e, if_true] at hx
            simp only [e', if_false] at hx'
            cases hx; cases he
            exact absurd (h.conn r' x' _ hx' he') (Nat.lt_irrefl _)
          · simp only [e', if_true] at hx'
            simp only [e, if_false] at hx
            cases hx'; cases he'
            exact absurd (h.conn r x _ hx he) (Nat.lt_irrefl _)
          · simp only [e, if_false] at hx
            simp only [e', if_false] at hx'
            exact h.apart r r' x x' d hx hx' he he'
      · exact h
    · exact h
  | fork q t c =>
    simp only [step]
    split
    · next p hp =>
      have hq := h.old q p hp
      constructor
      · intro r x hx
        simp only [fork, upd] at hx
        split at hx
        · cases hx; exact child_reg q p t c s.conn (h.reg q p hp)
        · exact h.reg r x hx
      · intro r x hx
        simp only [fork, upd] at hx ⊢
        split at hx
        · omega
        · have := h.old r x hx; omega
      · intro r x d hx he
        simp only [fork, upd] at hx ⊢
        split at hx
        · cases hx
          rw [child_dbg] at he
          split at he
          · cases he; omega
          · cases he
        · have := h.conn r x d hx he; omega
      · intro r r' x x' d hx hx' he he'
        simp only [fork, upd] at hx hx'
        have new : ∀ y, some (child q p t c s.conn) = some y → y.dbg = some d → d = s.conn := by
          intro y hy hd
          cases hy
          rw [child_dbg] at hd
          split at hd
          · cases hd; rfl
          · cases hd
        by_cases e : r = s.next <;> by_cases e' : r' = s.next
        · rw [e, e']
        · simp only [e, if_true] at hx
          simp only [e', if_false] at hx'
          have h1 := new x hx he
          have h2 := h.conn r' x' d hx' he'
          omega
        · simp only [e', if_true] at hx'
          simp only [e, if_false] at hx
          have h1 := new x' hx' he'
          have h2 := h.conn r x d hx he
          omega
        · simp only [e, if_false] at hx
          simp only [e', if_false] at hx'
          exact h.apart r r' x x' d hx hx' he he'
    · exact h

theorem inv_init (tokens : Nat) (port : Bool) : Inv (init tokens port) := by
  have one : ∀ q p, (init tokens port).procs q = some p → q = 0 ∧ p = { dbg := some 0, tokens := tokens, port := port } := by
    intro q p h
    simp only [init, upd] at h
    split at h
    · next e => cases h; exact ⟨e, rfl⟩
    · cases h
  constructor
  · intro q p h x hx
    obtain ⟨_, rfl⟩ := one q p h
    cases hx
  · intro q p h
    obtain ⟨rfl, _⟩ := one q p h
    exact Nat.zero_lt_one
  · intro q p d h he
    obtain ⟨_, rfl⟩ := one q p h
    cases he
    exact Nat.zero_lt_one
  · intro q r p p' d h h' _ _
    rw [(one q p h).1, (one r p' h').1]

theorem inv_foldl (acts : List Act) {s : Sys} (h : Inv s) : Inv (acts.foldl step s) := by
  induction acts generalizing s with
  | nil => exact h
  | cons a r ih => exact ih (inv_step h a)

theorem inv_run (tokens : Nat) (port : Bool) (acts : List Act) : Inv (run tokens port acts) :=
  inv_foldl acts (inv_init tokens port)

/-! ### The property -/

/-- **C107** (no lock is held): after a fork by the program, or by `subprocess` for a Python process, no lock of the debugger is
held in the child, whatever threads held locks when it happened, and however many forks there were before. -/
theorem c107_locks (tokens : Nat) (port : Bool) (acts : List Act) (q t : Nat) (c : Caller) (p : Proc)
    (hp : (run tokens port acts).procs q = some p) (hc : c ≠ .popen (some false)) :
    ∃ p', (run tokens port (acts ++ [.fork q t c])).procs (run tokens port acts).next = some p' ∧
      (∀ l h, (l, h) ∈ p'.live → h = none) ∧ p'.live.map (·.1) = p.live.map (·.1) := by
  have hr := (inv_run tokens port acts).reg q p hp
  have hn : isNew c = true := by
    cases c with
    | program => rfl
    | popen x =>
      cases x with
      | none => rfl
      | some b =>
        cases b with
        | false => exact absurd rfl hc
        | true => rfl
  refine ⟨child q p t c (run tokens port acts).conn, ?_, ?_, ?_⟩
  · simp only [run, List.foldl_append, List.foldl_cons, List.foldl_nil] at hp ⊢
    simp only [step, hp, fork, upd, if_true]
  · intro l h hl
    simp only [child, hn, if_true, onForked, settraceForked] at hl
    exact (afterFork_free p hr (l, h) hl).1
  · simp only [child, hn, if_true, onForked, settraceForked]
    exact (reinits_spec p.refs { p with refs := [] }).1

/-- **C107** (sessions): the child gets a session of its own exactly if the program forked outside of
`skip_subprocess_arg_patch` and there is a port; else none. It is not one any process had before. The access tokens are those of
the process, which keeps its own session. -/
theorem c107_session (tokens : Nat) (port : Bool) (acts : List Act) (q t : Nat) (c : Caller) (p : Proc)
    (hp : (run tokens port acts).procs q = some p) :
    ∃ p', (run tokens port (acts ++ [.fork q t c])).procs (run tokens port acts).next = some p' ∧
      (p'.dbg.isSome = true ↔ c = .program ∧ applies p.skip t = true ∧ p.port = true) ∧
      (∀ d, p'.dbg = some d → ∀ r x, (run tokens port acts).procs r = some x → x.dbg ≠ some d) ∧
      p'.tokens = p.tokens ∧ (c ≠ .popen (some false) → p'.ppid = q) ∧
      (run tokens port (acts ++ [.fork q t c])).procs q = some p := by
  have hi := inv_run tokens port acts
  have e : (run tokens port (acts ++ [.fork q t c])) = fork (run tokens port acts) q p t c := by
    simp only [run, List.foldl_append, List.foldl_cons, List.foldl_nil] at hp ⊢
    simp only [step, hp]
  rw [e]
  refine ⟨child q p t c (run tokens port acts).conn, by simp [fork, upd], ?_, ?_, ?_, ?_, ?_⟩
  · rw [child_dbg]
    split
    · next h =>
      simp only [tracing, Bool.and_eq_true, decide_eq_true_eq] at h
      exact ⟨fun _ => ⟨h.1.2, h.1.1, h.2⟩, fun _ => rfl⟩
    · next h =>
      simp only [tracing, Bool.and_eq_true, decide_eq_true_eq] at h
      exact ⟨fun x => (by cases x), fun x => absurd ⟨⟨x.2.1, x.1⟩, x.2.2⟩ h⟩
  · intro d hd r x hx he
    rw [child_dbg] at hd
    split at hd
    · cases hd
      exact absurd (hi.conn r x _ hx he) (Nat.lt_irrefl _)
    · cases hd
  · unfold child
    split
    · exact (reinits_spec p.refs { p with refs := [] }).2.2.1
    · rfl
  · intro hc
    have hn : isNew c = true := by
      cases c with
      | program => rfl
      | popen x =>
        cases x with
        | none => rfl
        | some b =>
        cases b with
        | false => exact absurd rfl hc
        | true => rfl
    simp [child, hn, onForked, settraceForked]
  · have := hi.old q p hp
    simp only [fork, upd]
    rw [if_neg (by omega)]
    exact hp

/-- **C107** (apart): no two processes ever have the same connection to the client. -/
theorem c107_apart (tokens : Nat) (port : Bool) (acts : List Act) (q r : Nat) (p p' : Proc) (d : Nat) (hqr : q ≠ r)
    (hp : (run tokens port acts).procs q = some p) (hp' : (run tokens port acts).procs r = some p')
    (h : p.dbg = some d) : p'.dbg ≠ some d :=
  fun h' => hqr ((inv_run tokens port acts).apart q r p p' d hp hp' h h')

/-- **C107** (the client is told): the client of the process is told of a child, once, unless it is one `subprocess` makes for
what is not Python; and nothing else is sent on any connection. -/
theorem c107_told (s : Sys) (q t : Nat) (c : Caller) (p : Proc) (hp : s.procs q = some p) :
    (step s (.fork q t c)).sent = s.sent ++
      match c, p.dbg with
      | .popen (some false), _ => []
      | _, some d => [(d, .created)]
      | _, none => [] := by
  simp only [step, hp, fork]
  congr 1
  cases c with
  | program => cases p.dbg <;> rfl
  | popen x =>
    cases x with
    | none => cases p.dbg <;> rfl
    | some b => cases b <;> cases p.dbg <;> rfl

/-- **C107** (others): a fork changes no process that there was. -/
theorem c107_others (tokens : Nat) (port : Bool) (acts : List Act) (q t : Nat) (c : Caller) (r : Nat) (x : Proc)
    (hx : (run tokens port acts).procs r = some x) :
    (run tokens port (acts ++ [.fork q t c])).procs r = some x := by
  have := (inv_run tokens port acts).old r x hx
  simp only [run, List.foldl_append, List.foldl_cons, List.foldl_nil] at hx this ⊢
  simp only [step]
  split
  · simp only [fork, upd]
    rw [if_neg (by omega)]
    exact hx
  · exact hx

/-! ### Non-vacuity -/

/-- A lock is held when the program forks; in the child of the child it is free, and still registered. -/
theorem c107_example :
    let s := run 5 true [.make 0 3, .acquire 0 1 3, .fork 0 2 .program, .acquire 1 2 3, .fork 1 2 .program]
    (s.procs 0).map (fun p => (p.dbg, p.live)) = some (some 0, [(3, some 1)]) ∧
    (s.procs 1).map (fun p => (p.dbg, p.live)) = some (some 1, [(3, some 2)]) ∧
    (s.procs 2).map (fun p => (p.dbg, p.live, p.refs, p.tokens)) = some (some 2, [(3, none)], [3, 3], 5) := by decide

/-! ### Limits -/

/-- After `stoptrace` a child is attached to the client, although the process no longer is. -/
theorem c107_stopped_witness :
    let s := run 5 true [.stop 0, .fork 0 2 .program]
    (s.procs 0).map (·.dbg) = some none ∧ (s.procs 1).map (·.dbg) = some (some 1) := by decide

/-- References to locks that are gone are only removed by a fork: each lock made and gone leaves two. -/
theorem c107_leak_witness (n : Nat) :
    ((run 5 true ((List.replicate n [Act.make 0 3, .collect 0 3]).flatten)).procs 0).map (fun p => (p.live, p.refs)) =
      some ([], List.replicate (2 * n) 3) := by
  have key : ∀ (n : Nat) (s : Sys) (p : Proc), s.procs 0 = some p → p.live = [] →
      (((List.replicate n [Act.make 0 3, .collect 0 3]).flatten.foldl step s).procs 0).map (fun p => (p.live, p.refs)) =
        some ([], p.refs ++ List.replicate (2 * n) 3) := by
    intro n
    induction n with
    | zero => intro s p hp hl; simp [hp, hl]
    | succ n ih =>
      intro s p hp hl
      have e : ((List.replicate (n + 1) [Act.make 0 3, .collect 0 3]).flatten).foldl step s =
          ((List.replicate n [Act.make 0 3, .collect 0 3]).flatten).foldl step (step (step s (.make 0 3)) (.collect 0 3)) := by
        simp [List.replicate_succ]
      rw [e, ih _ { p with live := [], refs := p.refs ++ [3, 3] }]
      · have : 2 * (n + 1) = 2 + 2 * n := by omega
        rw [this, ← List.replicate_append_replicate]
        simp
      · simp [step, hp, hl, upd, make]
      · rfl
  have := key n (init 5 true) { dbg := some 0, tokens := 5, port := true } rfl rfl
  simpa [run] using this

end Process.Fork
