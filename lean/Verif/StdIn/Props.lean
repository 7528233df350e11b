import Verif.StdIn.Model
/-!
C112: the client knows whether the program waits for input.
-/

namespace StdIn

/-- What the client believes: the last message. -/
def believes (sent : List Bool) : Bool := sent.getLast?.getD false

/-- The messages alternate, beginning with a request. -/
def Alternate : List Bool → Prop
  | [] => True
  | [b] => b = true
  | b :: c :: l => b = true ∧ c = false ∧ Alternate l

/-- A read begins or ends, with its test, and no other thread between the two. -/
inductive Whole where
  | enter (t : Tid)
  | leave (t : Tid)
deriving DecidableEq, Repr

def Whole.acts : Whole → List Act
  | .enter t => [.enter t, .test t]
  | .leave t => [.leave t, .test t]

def acts (ws : List Whole) : List Act := ws.flatMap Whole.acts

/-- Reads in progress after these events, by the events alone: a read ends only if one of its thread is in
progress. -/
def reading (ws : List Whole) : Tid → Nat :=
  ws.foldl (fun d w => match w with
    | .enter t => upd d t (d t + 1)
    | .leave t => upd d t (d t - 1)) (fun _ => 0)

theorem alternate_true {l : List Bool} (h : Alternate l) (hb : believes l = false) :
    Alternate (l ++ [true]) := by
  fun_induction Alternate l with
  | case1 => simp [Alternate]
  | case2 b => subst h; simp [believes] at hb
  | case3 b c l ih =>
    obtain ⟨rfl, rfl, h⟩ := h
    refine ⟨rfl, rfl, ih h ?_⟩
    cases l with
    | nil => rfl
    | cons x l => simpa [believes] using hb

theorem alternate_false {l : List Bool} (h : Alternate l) (hb : believes l = true) :
    Alternate (l ++ [false]) := by
  fun_induction Alternate l with
  | case1 => simp [believes] at hb
  | case2 b => subst h; simp [Alternate]
  | case3 b c l ih =>
    obtain ⟨rfl, rfl, h⟩ := h
    refine ⟨rfl, rfl, ih h ?_⟩
    cases l with
    | nil => simp [believes] at hb
    | cons x l => simpa [believes] using hb

/-- The sum of the depths of some threads. -/
def total (ts : List Tid) (d : Tid → Nat) : Nat := (ts.map d).sum

theorem total_upd_not {ts : List Tid} {t : Tid} (h : t ∉ ts) (d : Tid → Nat) (x : Nat) :
    total ts (upd d t x) = total ts d := by
  induction ts with
  | nil => rfl
  | cons u ts ih =>
    simp only [List.mem_cons, not_or] at h
    have := ih h.2
    simp only [total, List.map_cons, List.sum_cons] at this ⊢
    rw [this]
    have e : upd d t x u = d u := by simp [upd, show ¬ u = t from fun e => h.1 e.symm]
    rw [e]

theorem total_upd {ts : List Tid} {t : Tid} (hn : ts.Nodup) (h : t ∈ ts) (d : Tid → Nat) (x : Nat) :
    total ts (upd d t x) + d t = total ts d + x := by
  induction ts with
  | nil => simp at h
  | cons u ts ih =>
    rw [List.nodup_cons] at hn
    by_cases e : u = t
    · subst e
      have := total_upd_not hn.1 d x
      simp only [total, List.map_cons, List.sum_cons] at this ⊢
      rw [this]
      simp only [upd, if_true]
      omega
    · have h' : t ∈ ts := by
        rcases List.mem_cons.1 h with e' | h
        · exact absurd e'.symm e
        · exact h
      have := ih hn.2 h'
      simp only [total, List.map_cons, List.sum_cons] at this ⊢
      have e' : upd d t x u = d u := by simp [upd, e]
      rw [e']
      omega

structure Inv (s : St) : Prop where
  pc : ∀ t, s.pc t = .out
  alt : Alternate s.sent
  bel : believes s.sent = decide (0 < s.count)
  sum : ∃ ts : List Tid, ts.Nodup ∧ (∀ t, t ∉ ts → s.depth t = 0) ∧ s.count = total ts s.depth

/-- A list of threads with one more in it. -/
theorem sum_with {s : St} (h : Inv s) (t : Tid) : ∃ ts : List Tid, ts.Nodup ∧ t ∈ ts ∧
    (∀ u, u ∉ ts → s.depth u = 0) ∧ s.count = total ts s.depth := by
  obtain ⟨ts, hn, h0, hc⟩ := h.sum
  by_cases ht : t ∈ ts
  · exact ⟨ts, hn, ht, h0, hc⟩
  · refine ⟨t :: ts, List.nodup_cons.2 ⟨ht, hn⟩, by simp, fun u hu => h0 u (fun h => hu (by simp [h])), ?_⟩
    rw [hc]
    simp [total, h0 t ht]

theorem upd_upd {α} (f : Tid → α) (t : Tid) (x y : α) : upd (upd f t x) t y = upd f t y := by
  funext u; simp only [upd]; split <;> rfl

theorem upd_out {f : Tid → Pc} (h : ∀ t, f t = .out) (t u : Tid) : upd f t .out u = .out := by
  simp only [upd]; split
  · rfl
  · exact h u

theorem enter_whole {s : St} (h : Inv s) (t : Tid) :
    act (act s (.enter t)) (.test t) = { s with
      count := s.count + 1, pc := upd s.pc t .out, depth := upd s.depth t (s.depth t + 1),
      sent := if s.count = 0 then s.sent ++ [true] else s.sent } := by
  have e : upd s.pc t Pc.entered t = .entered := by simp [upd]
  simp only [act, h.pc t, if_true, e, upd_upd]
  congr 1
  by_cases hc : s.count = 0
  · simp [hc]
  · rw [if_neg (by omega), if_neg hc]

theorem leave_whole {s : St} (h : Inv s) (t : Tid) (hd : 0 < s.depth t) :
    act (act s (.leave t)) (.test t) = { s with
      count := s.count - 1, pc := upd s.pc t .out, depth := upd s.depth t (s.depth t - 1),
      sent := if s.count = 1 then s.sent ++ [false] else s.sent } := by
  have e : upd s.pc t Pc.left t = .left := by simp [upd]
  simp only [act, h.pc t, hd, and_self, if_true, e, upd_upd]
  congr 1
  by_cases hc : s.count = 1
  · simp [hc]
  · rw [if_neg (by omega), if_neg hc]

theorem leave_none {s : St} (h : Inv s) (t : Tid) (hd : s.depth t = 0) :
    act (act s (.leave t)) (.test t) = s := by
  have e : act s (.leave t) = s := by simp [act, hd]
  rw [e]
  simp [act, h.pc t]

theorem inv_whole {s : St} (h : Inv s) (w : Whole) :
    Inv (w.acts.foldl act s) ∧ (w.acts.foldl act s).depth = (match w with
      | .enter t => upd s.depth t (s.depth t + 1)
      | .leave t => upd s.depth t (s.depth t - 1)) := by
  have h' := h
  obtain ⟨hpc, halt, hbel, _⟩ := h'
  cases w with
  | enter t =>
    simp only [Whole.acts, List.foldl_cons, List.foldl_nil, enter_whole h]
    obtain ⟨ts, hn, ht, h0, hc⟩ := sum_with h t
    refine ⟨⟨upd_out hpc t, ?_, ?_, ts, hn, ?_, ?_⟩, trivial⟩
    · simp only; split
      · rename_i h0; exact alternate_true halt (by simp [hbel, h0])
      · exact halt
    · simp only; split
      · rename_i h0; simp [believes, h0]
      · rename_i h0
        rw [hbel]
        simp only [decide_eq_decide]
        omega
    · intro u hu
      have : u ≠ t := fun e => hu (e ▸ ht)
      simp only [upd, this, if_false]; exact h0 u hu
    · have := total_upd hn ht s.depth (s.depth t + 1)
      simp only
      omega
  | leave t =>
    by_cases hd : 0 < s.depth t
    · simp only [Whole.acts, List.foldl_cons, List.foldl_nil, leave_whole h t hd]
      obtain ⟨ts, hn, ht, h0, hc⟩ := sum_with h t
      have htot := total_upd hn ht s.depth (s.depth t - 1)
      refine ⟨⟨upd_out hpc t, ?_, ?_, ts, hn, ?_, ?_⟩, trivial⟩
      · simp only; split
        · rename_i h0; exact alternate_false halt (by simp [hbel, h0])
        · exact halt
      · simp only; split
        · rename_i h0; simp [believes, h0]
        · rename_i h1
          rw [hbel]
          simp only [decide_eq_decide]
          omega
      · intro u hu
        have : u ≠ t := fun e => hu (e ▸ ht)
        simp only [upd, this, if_false]; exact h0 u hu
      · simp only
        omega
    · have hd : s.depth t = 0 := by omega
      simp only [Whole.acts, List.foldl_cons, List.foldl_nil, leave_none h t hd]
      refine ⟨h, ?_⟩
      funext u
      simp only [upd]; split
      · rename_i e; rw [e, hd]
      · rfl

theorem inv_run (ws : List Whole) : Inv (run (acts ws)) ∧ (run (acts ws)).depth = reading ws := by
  obtain ⟨l, rfl⟩ : ∃ l, ws = List.reverse l := ⟨ws.reverse, by simp⟩
  induction l with
  | nil =>
    refine ⟨⟨fun _ => rfl, trivial, rfl, [], List.nodup_nil, fun _ _ => rfl, rfl⟩, rfl⟩
  | cons w l ih =>
    rw [List.reverse_cons]
    have e : run (acts (l.reverse ++ [w])) = w.acts.foldl act (run (acts l.reverse)) := by
      simp [run, acts, List.flatMap_append, List.foldl_append]
    have e' : reading (l.reverse ++ [w]) = (match w with
      | .enter t => upd (reading l.reverse) t (reading l.reverse t + 1)
      | .leave t => upd (reading l.reverse) t (reading l.reverse t - 1)) := by
      simp only [reading, List.foldl_append, List.foldl_cons, List.foldl_nil]
      cases w <;> rfl
    have := inv_whole ih.1 w
    rw [e, e', ← ih.2]
    cases w <;> exact this

/-- **C112.** For every history of reads by any number of threads, nested or not, in which no thread comes
between the counter's change and its test: the messages alternate, and the client believes that input is
requested exactly if a read is in progress. -/
theorem c112_input_requested (ws : List Whole) :
    Alternate (run (acts ws)).sent ∧
    (believes (run (acts ws)).sent = true ↔ ∃ t, 0 < reading ws t) := by
  obtain ⟨h, hd⟩ := inv_run ws
  refine ⟨h.alt, ?_⟩
  rw [h.bel, ← hd]
  obtain ⟨ts, hn, h0, hc⟩ := h.sum
  simp only [decide_eq_true_eq]
  constructor
  · intro hpos
    apply Classical.byContradiction
    intro hno
    have hz : ∀ t, (run (acts ws)).depth t = 0 := fun t =>
      Nat.eq_zero_of_not_pos (fun hp => hno ⟨t, hp⟩)
    have : total ts (run (acts ws)).depth = 0 := by
      clear hc h0 hn
      induction ts with
      | nil => rfl
      | cons u ts ih => simp only [total, List.map_cons, List.sum_cons] at ih ⊢; rw [hz u, ih]
    omega
  · rintro ⟨t, ht⟩
    obtain ⟨ts, hn, hm, h0, hc⟩ := sum_with h t
    have := total_upd hn hm (run (acts ws)).depth 0
    omega

/-- Two threads read at once; the client is told once at the beginning and once at the end. -/
example : (run (acts [.enter 0, .enter 1, .leave 0, .enter 1, .leave 1, .leave 1])).sent = [true, false] ∧
    (run (acts [.enter 0, .enter 1, .leave 0])).sent = [true] := by decide

/-- **The test is not part of the change.** If two threads begin to read at once, each may see the count of
both, and the client is not told that input is requested; it is told of the end only. -/
theorem c112_race_witness :
    (run [.enter 0, .enter 1, .test 0, .test 1]).sent = [] ∧
    (run [.enter 0, .enter 1, .test 0, .test 1, .leave 0, .test 0, .leave 1, .test 1]).sent = [false] := by
  decide

end StdIn
