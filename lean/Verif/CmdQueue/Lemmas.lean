import Verif.CmdQueue.Model

namespace CmdQueue

def drainCount (s : State) (c : Cmd) : Nat :=
  match s.drain with
  | none => 0
  | some d => d.exec.count c + d.back.count c

structure Inv (s : State) : Prop where
  /-- a command is only ever in its own queue -/
  home : ∀ k, ∀ c ∈ s.queues k, queueKey c.tid = k
  homeBack : ∀ d, s.drain = some d → ∀ c ∈ d.back, ∃ id ids, d.ids = id :: ids ∧ queueKey c.tid = queueKey id
  counts : ∀ c, (s.handed.map (·.2)).count c + drainCount s c + (s.queues (queueKey c.tid)).count c
    = s.posted.count c
  right : ∀ p ∈ s.handed, canExec p.2 p.1 = true
  rightExec : ∀ d, s.drain = some d → ∀ c ∈ d.exec, canExec c d.curr = true

theorem inv_start : Inv start := by
  constructor <;> simp [start, drainCount]

theorem count_not_home {q : Tid → List Cmd} {c : Cmd} {k : Tid}
    (h : ∀ k, ∀ c ∈ q k, queueKey c.tid = k) (hk : queueKey c.tid ≠ k) : (q k).count c = 0 := by
  rw [List.count_eq_zero]; intro hc; exact hk (h k c hc)

theorem inv_step {s : State} (h : Inv s) (a : Action) : Inv (step s a) := by
  obtain ⟨h1, h2, h3, h4, h5⟩ := h
  cases a with
  | post c =>
    refine ⟨?_, h2, ?_, h4, h5⟩
    · intro k x hx
      simp only [step, setQ] at hx
      split at hx
      · rename_i hk
        simp only [List.mem_append, List.mem_singleton] at hx
        rcases hx with hx | rfl
        · rw [hk]; exact h1 _ x hx
        · exact hk.symm
      · exact h1 k x hx
    · intro x
      have := h3 x
      simp only [step, drainCount, setQ, List.count_append, List.count_cons, List.count_nil] at this ⊢
      by_cases hk : queueKey x.tid = queueKey c.tid
      · rw [if_pos hk, ← hk]
        simp only [List.count_append, List.count_cons, List.count_nil]
        omega
      · have : (c == x) = false := by
          simp only [beq_eq_false_iff_ne, ne_eq]; rintro rfl; exact hk rfl
        rw [if_neg hk, this]
        simp only [Bool.false_eq_true, if_false]
        omega
  | begin curr ids =>
    simp only [step]
    split
    · exact ⟨h1, h2, h3, h4, h5⟩
    · rename_i hd
      refine ⟨h1, ?_, ?_, h4, ?_⟩
      · intro d hd; simp only [Option.some.injEq] at hd; subst hd; simp
      · intro c; have := h3 c; simp only [drainCount, hd] at this ⊢; simpa using this
      · intro d hd; simp only [Option.some.injEq] at hd; subst hd; simp
  | next =>
    simp only [step]
    split
    · exact ⟨h1, h2, h3, h4, h5⟩
    · rename_i d hd
      have h2 := h2 d hd
      have h5 := h5 d hd
      split
      · rename_i hids
        have hback : d.back = [] := by
          cases hb : d.back with
          | nil => rfl
          | cons c cs =>
            obtain ⟨id, ids, h, _⟩ := h2 c (by simp [hb])
            rw [hids] at h; cases h
        refine ⟨h1, by simp, ?_, ?_, by simp⟩
        · intro c
          have := h3 c
          simp only [drainCount, hd, hback, List.count_nil] at this
          simp only [drainCount, List.map_append, List.map_map, List.count_append]
          have e : (List.map ((fun x => x.2) ∘ fun c => (d.curr, c)) d.exec) = d.exec := by
            conv => rhs; rw [← List.map_id d.exec]
            rfl
          rw [e]; omega
        · intro p hp
          simp only [List.mem_append, List.mem_map] at hp
          rcases hp with hp | ⟨c, hc, rfl⟩
          · exact h4 p hp
          · exact h5 c hc
      · rename_i id ids hids
        split
        · split
          · rename_i hb
            refine ⟨h1, ?_, ?_, h4, ?_⟩
            · intro d' hd'; simp only [Option.some.injEq] at hd'; subst hd'; simp [hb]
            · intro c; have := h3 c; simpa [drainCount, hd, hb] using this
            · intro d' hd'; simp only [Option.some.injEq] at hd'; subst hd'; exact h5
          · rename_i c back hb
            have hkey : queueKey c.tid = queueKey id := by
              obtain ⟨id', ids', h, hk⟩ := h2 c (by simp [hb])
              rw [hids] at h; cases h; exact hk
            refine ⟨?_, ?_, ?_, h4, ?_⟩
            · intro k x hx
              simp only [setQ] at hx
              split at hx
              · rename_i hk
                simp only [List.mem_append, List.mem_singleton] at hx
                rcases hx with hx | rfl
                · rw [hk]; exact h1 _ x hx
                · rw [hk]; exact hkey
              · exact h1 k x hx
            · intro d' hd'
              simp only [Option.some.injEq] at hd'; subst hd'
              intro x hx
              exact h2 x (by simp only at hx; simp [hb, hx])
            · intro x
              have := h3 x
              simp only [drainCount, hd, hb, setQ, List.count_cons] at this ⊢
              by_cases hk : queueKey x.tid = queueKey id
              · rw [if_pos hk, ← hk]
                simp only [List.count_append, List.count_cons, List.count_nil]
                omega
              · have : (c == x) = false := by
                  simp only [beq_eq_false_iff_ne, ne_eq]; rintro rfl; exact hk hkey
                rw [if_neg hk]
                simp_all
            · intro d' hd'; simp only [Option.some.injEq] at hd'; subst hd'; exact h5
        · split
          · refine ⟨h1, ?_, ?_, h4, ?_⟩
            · intro d' hd'; simp only [Option.some.injEq] at hd'; subst hd'; exact h2
            · intro c; have := h3 c; simpa [drainCount, hd] using this
            · intro d' hd'; simp only [Option.some.injEq] at hd'; subst hd'; exact h5
          · rename_i c q hq
            have hkey : queueKey c.tid = queueKey id := h1 _ c (by simp [hq])
            refine ⟨?_, ?_, ?_, h4, ?_⟩
            · intro k x hx
              simp only [setQ] at hx
              split at hx
              · rename_i hk
                rw [hk]; exact h1 _ x (by simp [hq, hx])
              · exact h1 k x hx
            · intro d' hd'
              simp only [Option.some.injEq] at hd'; subst hd'
              intro x hx
              split at hx
              · rename_i hc
                simp only [hc, if_true]
                exact h2 x hx
              · rename_i hc
                simp only [List.mem_append, List.mem_singleton] at hx
                rcases hx with hx | rfl
                · obtain ⟨a, b, e⟩ := h2 x hx
                  exact ⟨a, b, by split <;> exact e.1, e.2⟩
                · exact ⟨id, ids, by split <;> exact hids, hkey⟩
            · intro x
              have := h3 x
              simp only [drainCount, hd, setQ] at this ⊢
              by_cases hk : queueKey x.tid = queueKey id
              · rw [if_pos hk]
                rw [hk, hq, List.count_cons] at this
                split <;> simp only [List.count_append, List.count_cons, List.count_nil] <;> omega
              · have hcx : (c == x) = false := by
                  simp only [beq_eq_false_iff_ne, ne_eq]; rintro rfl; exact hk hkey
                rw [if_neg hk]
                split <;> simp only [List.count_append, List.count_cons, List.count_nil, hcx] <;>
                  simp <;> omega
            · intro d' hd'
              simp only [Option.some.injEq] at hd'; subst hd'
              intro x hx
              split at hx
              · rename_i hc
                simp only [List.mem_append, List.mem_singleton] at hx
                simp only [hc, if_true]
                rcases hx with hx | rfl
                · exact h5 x hx
                · exact hc
              · rename_i hc
                simp only [hc]
                exact h5 x hx

theorem inv_run {s : State} (h : Inv s) (as : List Action) : Inv (run s as) := by
  induction as generalizing s with
  | nil => exact h
  | cons a as ih => exact ih (inv_step h a)

/-! ### Threads that drain their own queue -/

/-- What follows the last bar, when there is one, is preceded by a bar. -/
theorem afterLastBar_suffix (t : Tid) : afterLastBar t = t ∨ ('|' :: afterLastBar t).isSuffixOf t = true := by
  unfold afterLastBar
  have key : ∀ r : Tid, r.takeWhile (· ≠ '|') = r ∨ (r.takeWhile (· ≠ '|') ++ ['|']) <+: r := by
    intro r
    induction r with
    | nil => left; rfl
    | cons x xs ih =>
      by_cases hx : x = '|'
      · subst hx; right; exact ⟨xs, by simp⟩
      · have hx' : decide (x ≠ '|') = true := by simpa using hx
        rw [List.takeWhile_cons, if_pos hx']
        rcases ih with ih | ⟨r, hr⟩
        · left; rw [ih]
        · right; exact ⟨r, by simp only [List.cons_append, hr]⟩
  rcases key t.reverse with h | ⟨r, h⟩
  · left; rw [h, List.reverse_reverse]
  · right
    rw [List.isSuffixOf_iff_suffix]
    refine ⟨r.reverse, ?_⟩
    have := congrArg List.reverse h
    simpa using this

/-- Commands in a thread's own queue can be run by that thread. -/
theorem canExec_own {c : Cmd} {curr : Tid} (h : queueKey c.tid = curr) : canExec c curr = true := by
  unfold queueKey at h
  split at h
  · rcases afterLastBar_suffix c.tid with h' | h'
    · rw [h] at h'; simp [canExec, h']
    · rw [h] at h'; simp only [canExec, h', Bool.or_true]
  · simp [canExec, h]

/-- The drains the code performs: a thread with a plain id drains its own queue and the `"*"` queue
(callers: pydevd.py 274, 892, 938, 2011, 2100, 2729), and only `"*"` commands are in the `"*"`
queue. -/
def Usual : Action → Prop
  | .post c => queueKey c.tid = c!"*" → c.tid = c!"*"
  | .begin curr ids => ∀ id ∈ ids, queueKey id = curr ∨ queueKey id = c!"*"
  | .next => True

def keyIs (k : Tid) (c : Cmd) : Bool := queueKey c.tid == k

def drainExec (s : State) : List Cmd :=
  match s.drain with
  | none => []
  | some d => d.exec

structure FInv (s : State) : Prop where
  home : ∀ k, ∀ c ∈ s.queues k, queueKey c.tid = k
  star : ∀ c ∈ s.queues c!"*", c.tid = c!"*"
  noBack : ∀ d, s.drain = some d → d.back = [] ∧ ∀ id ∈ d.ids, queueKey id = d.curr ∨ queueKey id = c!"*"
  fifo : ∀ k, (s.handed.map (·.2)).filter (keyIs k) ++ (drainExec s).filter (keyIs k) ++ s.queues k
    = s.posted.filter (keyIs k)

theorem finv_start : FInv start := by
  constructor <;> simp [start, drainExec]

theorem finv_step {s : State} (h : FInv s) (a : Action) (ha : Usual a) : FInv (step s a) := by
  obtain ⟨h1, h0, h2, h3⟩ := h
  cases a with
  | post c =>
    refine ⟨?_, ?_, h2, ?_⟩
    · intro k x hx
      simp only [step, setQ] at hx
      split at hx
      · rename_i hk
        simp only [List.mem_append, List.mem_singleton] at hx
        rcases hx with hx | rfl
        · rw [hk]; exact h1 _ x hx
        · exact hk.symm
      · exact h1 k x hx
    · intro x hx
      simp only [step, setQ] at hx
      split at hx
      · rename_i hk
        simp only [List.mem_append, List.mem_singleton] at hx
        rcases hx with hx | rfl
        · rw [← hk] at hx; exact h0 x hx
        · exact ha hk.symm
      · exact h0 x hx
    · intro k
      have := h3 k
      simp only [step, drainExec, setQ, List.filter_append] at this ⊢
      by_cases hk : k = queueKey c.tid
      · rw [if_pos hk]
        have hc : keyIs k c = true := by simp [keyIs, hk]
        simp only [List.filter_cons, hc, if_true, List.filter_nil]
        rw [← this, ← hk]
        simp
      · rw [if_neg hk]
        have hc : keyIs k c = false := by simpa [keyIs] using fun e => hk e.symm
        simp only [List.filter_cons, hc, List.filter_nil]
        simpa using this
  | begin curr ids =>
    simp only [step]
    split
    · exact ⟨h1, h0, h2, h3⟩
    · rename_i hd
      refine ⟨h1, h0, ?_, ?_⟩
      · intro d hd; simp only [Option.some.injEq] at hd; subst hd; exact ⟨rfl, ha⟩
      · intro k; have := h3 k; simpa [drainExec, hd] using this
  | next =>
    simp only [step]
    split
    · exact ⟨h1, h0, h2, h3⟩
    · rename_i d hd
      obtain ⟨hb, hids'⟩ := h2 d hd
      split
      · refine ⟨h1, h0, by simp, ?_⟩
        intro k
        have := h3 k
        simp only [drainExec, hd] at this
        have e : (List.map ((fun x => x.2) ∘ fun c => (d.curr, c)) d.exec) = d.exec := by
          conv => rhs; rw [← List.map_id d.exec]
          rfl
        simp only [drainExec, List.map_append, List.map_map, e, List.filter_append, List.filter_nil,
          List.append_nil]
        exact this
      · rename_i id ids hids
        split
        · split
          · refine ⟨h1, h0, ?_, ?_⟩
            · intro d' hd'; simp only [Option.some.injEq] at hd'; subst hd'
              exact ⟨hb, fun x hx => hids' x (by rw [hids]; simp only at hx; simp [hx])⟩
            · intro k; have := h3 k; simpa [drainExec, hd] using this
          · rename_i c back hb'
            rw [hb] at hb'; cases hb'
        · split
          · refine ⟨h1, h0, ?_, ?_⟩
            · intro d' hd'; simp only [Option.some.injEq] at hd'; subst hd'; exact ⟨hb, hids'⟩
            · intro k; have := h3 k; simpa [drainExec, hd] using this
          · rename_i c q hq
            have hkey : queueKey c.tid = queueKey id := h1 _ c (by simp [hq])
            have hex : canExec c d.curr = true := by
              rcases hids' id (by simp [hids]) with h | h
              · exact canExec_own (hkey.trans h)
              · have : c.tid = c!"*" := h0 c (by rw [← h, hq]; simp)
                simp [canExec, this]
            simp only [hex, if_true]
            refine ⟨?_, ?_, ?_, ?_⟩
            · intro k x hx
              simp only [setQ] at hx
              split at hx
              · rename_i hk
                rw [hk]; exact h1 _ x (by simp [hq, hx])
              · exact h1 k x hx
            · intro x hx
              simp only [setQ] at hx
              split at hx
              · rename_i hk
                exact h0 x (by rw [hk, hq]; simp [hx])
              · exact h0 x hx
            · intro d' hd'; simp only [Option.some.injEq] at hd'; subst hd'; exact ⟨hb, hids'⟩
            · intro k
              have := h3 k
              simp only [drainExec, hd, setQ, List.filter_append] at this ⊢
              by_cases hk : k = queueKey id
              · rw [if_pos hk]
                have hc : keyIs k c = true := by simp [keyIs, hk, hkey]
                simp only [List.filter_cons, hc, if_true, List.filter_nil]
                rw [← this, hk, hq]
                simp
              · rw [if_neg hk]
                have hc : keyIs k c = false := by
                  simp only [keyIs, beq_eq_false_iff_ne, ne_eq]; rw [hkey]; exact fun e => hk e.symm
                simp only [List.filter_cons, hc, List.filter_nil]
                simpa using this

theorem finv_run {s : State} (h : FInv s) (as : List Action) (ha : ∀ a ∈ as, Usual a) :
    FInv (run s as) := by
  induction as generalizing s with
  | nil => exact h
  | cons a as ih => exact ih (finv_step h a (ha a (by simp))) (fun b hb => ha b (by simp [hb]))

/-! ### A drain that runs alone -/

theorem run_append (s : State) (a b : List Action) : run s (a ++ b) = run (run s a) b := by
  simp [run, List.foldl_append]

/-- Taking everything from the queue being drained, when all of it can be executed. -/
theorem take_all (s : State) (d : Drain) (id : Tid) (ids : List Tid) (q : List Cmd)
    (hd : s.drain = some d) (hids : d.ids = id :: ids) (hp : d.putting = false)
    (hb : d.back = []) (hq : s.queues (queueKey id) = q) (he : ∀ c ∈ q, canExec c d.curr = true) :
    run s (List.replicate (q.length + 2) .next) =
      { s with queues := setQ s.queues (queueKey id) [],
               drain := some { d with ids := ids, exec := d.exec ++ q } } := by
  induction q generalizing s d with
  | nil =>
    have hset : setQ s.queues (queueKey id) [] = s.queues := by
      funext x; unfold setQ; split
      · rename_i h; rw [h, hq]
      · rfl
    simp [run, step, hd, hids, hp, hq, hb, List.replicate, hset]
  | cons c cs ih =>
    have hc := he c (by simp)
    let d' : Drain := { d with exec := d.exec ++ [c] }
    let s' : State := { s with queues := setQ s.queues (queueKey id) cs, drain := some d' }
    have hs : step s .next = s' := by
      simp [step, hd, hids, hp, hq, hc, s', d']
    have := ih s' d' rfl hids hp hb (by simp [s', setQ]) (fun x hx => he x (by simp [hx]))
    simp only [List.length_cons, List.replicate_succ, run, List.foldl_cons] at this ⊢
    rw [hs, this]
    have hset : setQ s'.queues (queueKey id) [] = setQ s.queues (queueKey id) [] := by
      funext x; simp only [s', setQ]; split <;> rfl
    simp only [hset]
    simp [s', d']

end CmdQueue
