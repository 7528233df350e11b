import Verif.Goto.Spec

namespace Goto

open Spec

theorem names_iff (func name : List Char) :
    (func = c!"*" ∨ currName name = func) ↔ Names func name := by
  unfold currName Names
  by_cases h : name = c!"?" ∨ name = c!"<module>"
  · simp only [h, if_true]
    grind
  · simp only [h, if_false]
    grind

theorem setNext_eq (refuses : Place → Int → Option (List Char)) (p : Place) (f : List Char) (l : Int) :
    setNext refuses p f l =
      if Allowed refuses p f l then (true, []) else (false, why refuses p f l) := by
  unfold setNext Allowed why AtLine
  by_cases h1 : p.event = .line ∨ p.event = .exception
  · by_cases h2 : f = c!"*" ∨ currName p.func = f
    · have h3 := (names_iff f p.func).1 h2
      simp only [h1, h2, h3, if_true, true_and]
      cases h4 : refuses p l <;> simp
    · have h3 : ¬ Names f p.func := fun h => h2 ((names_iff f p.func).2 h)
      simp only [h1, h2, h3, if_true, if_false, false_and, and_false, onlyBottom]
  · simp only [h1, if_false, false_and]

theorem setNext_fst (refuses : Place → Int → Option (List Char)) (p : Place) (f : List Char) (l : Int) :
    (setNext refuses p f l).1 = true ↔ Allowed refuses p f l := by
  rw [setNext_eq]; split <;> simp_all

variable (refuses : Place → Int → Option (List Char))

/-- What is in the thread's fields of a jump which was not answered came from one request. -/
def Held (s : St) (sent : List Target) : Prop :=
  (∀ seq, s.message = some seq → ⟨seq, some s.nextLine, s.func⟩ ∈ sent) ∧
  (∀ t, Cmd.jump t ∈ s.queue → t ∈ sent)

theorem jumps_append (a b : List Cmd) : jumps (a ++ b) = jumps a ++ jumps b := by
  fun_induction jumps a <;> simp_all [jumps]

theorem posted_append (a b : List Act) : posted (a ++ b) = posted a ++ posted b := by
  fun_induction posted a <;> simp_all [posted]

theorem answers_append (a b : List Out) : answers (a ++ b) = answers a ++ answers b := by
  fun_induction answers a <;> simp_all [answers]

theorem mem_jumps (cs : List Cmd) (t : Target) : t ∈ jumps cs ↔ Cmd.jump t ∈ cs := by
  fun_induction jumps cs <;> simp_all
  intro h; subst h; simp_all

theorem held_doIt (s : St) (c : Cmd) (sent : List Target) (h : Held s sent)
    (hc : ∀ t, c = .jump t → t ∈ sent) : Held (doIt s c) sent := by
  obtain ⟨h1, h2⟩ := h
  cases c with
  | other => exact ⟨h1, h2⟩
  | step k => exact ⟨h1, h2⟩
  | jump t =>
    unfold doIt
    cases hl : t.line with
    | none => simp only [hl]; exact ⟨h1, h2⟩
    | some l =>
      simp only [hl]
      refine ⟨?_, h2⟩
      rintro seq ⟨rfl⟩
      have := hc t rfl
      obtain ⟨a, b, c⟩ := t
      simp only at hl
      subst hl
      exact this

theorem held_step (s : St) (a : Act) (sent : List Target) (h : Held s sent) :
    Held (step refuses s a) (sent ++ jumps (posted [a])) := by
  obtain ⟨h1, h2⟩ := h
  cases a with
  | post c =>
    refine ⟨fun q hq => List.mem_append_left _ (h1 q hq), ?_⟩
    intro t ht
    simp only [step, List.mem_append, List.mem_singleton] at ht
    rcases ht with ht | ht
    · exact List.mem_append_left _ (h2 t ht)
    · subst ht; simp [posted, jumps]
  | resume => simpa [posted, jumps, step, Held] using ⟨h1, h2⟩
  | pause => simpa [posted, jumps, step, Held] using ⟨h1, h2⟩
  | suspendAll => simpa [posted, jumps, step, Held] using ⟨h1, h2⟩
  | dispose => simpa [posted, jumps, step, Held] using ⟨h1, h2⟩
  | hit p r text =>
    simp only [posted, jumps, List.append_nil, step]
    split
    · refine ⟨?_, h2⟩
      intro q hq
      simp only at hq
      split at hq
      · cases hq
      · exact h1 q hq
    · exact ⟨h1, h2⟩
  | go =>
    simp only [posted, jumps, List.append_nil, step, go]
    split
    · exact ⟨h1, h2⟩
    · exact ⟨h1, h2⟩
    · split <;> exact ⟨h1, h2⟩
    · split
      · exact ⟨h1, h2⟩
      · next c q hq =>
        have := held_doIt { s with queue := q } c sent
          ⟨h1, fun t ht => h2 t (by rw [hq]; exact List.mem_cons_of_mem _ ht)⟩
          (fun t ht => h2 t (by rw [hq, ht]; exact List.mem_cons_self))
        exact this
    · split <;> exact ⟨h1, h2⟩
    · split
      · next hm => exact ⟨by simp [hm], h2⟩
      · exact ⟨by simp, h2⟩
    · exact ⟨h1, h2⟩
    · exact ⟨h1, h2⟩
    · exact ⟨h1, h2⟩

theorem held_run (s : St) (acts : List Act) (sent : List Target) (h : Held s sent) :
    Held (run refuses s acts) (sent ++ jumps (posted acts)) := by
  induction acts generalizing s sent with
  | nil => simpa [run, posted, jumps] using h
  | cons a as ih =>
    have := ih (step refuses s a) _ (held_step refuses s a sent h)
    have e : posted (a :: as) = posted [a] ++ posted as := by rw [← posted_append]; rfl
    rw [e, jumps_append, ← List.append_assoc]
    exact this

theorem held_init (acts : List Act) : Held (run refuses init acts) (jumps (posted acts)) := by
  simpa using held_run refuses init acts [] ⟨by simp [init], by simp [init]⟩

/-- **C108, an answer tells the truth.** After any history, whatever happens next: if it gives the
client an answer, the answer has the number of a jump which was asked for, it tells of success just
if that jump could be made where the thread was stopped, and then the thread is at the line asked
for, and otherwise exactly where it was, and the answer gives the reason. -/
theorem c108_answer (acts : List Act) (a : Act) (seq : Nat) (ok : Bool) (msg : List Char)
    (h : (step refuses (run refuses init acts) a).out =
      (run refuses init acts).out ++ [.answer seq ok msg]) :
    ∃ l f, ⟨seq, some l, f⟩ ∈ jumps (posted acts) ∧
      let p := (run refuses init acts).place
      let p' := (step refuses (run refuses init acts) a).place
      (ok = true ↔ Allowed refuses p f l) ∧
      (ok = true → p' = { p with line := l } ∧ msg = []) ∧
      (ok = false → p' = p ∧ msg = why refuses p f l) := by
  have hh := held_init refuses acts
  generalize run refuses init acts = s at h hh
  cases a with
  | post c => simp [step] at h
  | resume => simp [step] at h
  | pause => simp [step] at h
  | suspendAll => simp [step] at h
  | dispose => simp [step] at h
  | hit p r text =>
    simp only [step] at h
    split at h <;> simp at h
  | go =>
    simp only [step, go] at h ⊢
    split at h <;> rename_i hpc <;> (try simp only [hpc])
    · simp at h
    · simp at h
    · split at h <;> simp at h
    · split at h
      · simp at h
      · next c q hq =>
        exfalso
        cases c <;> simp only [doIt] at h
        · split at h <;> simp at h
        · simp at h
        · simp at h
    · split at h <;> simp at h
    · split at h
      · simp at h
      · next m hm =>
        simp only [hm]
        simp only [List.append_cancel_left_eq, List.cons.injEq, Out.answer.injEq, and_true] at h
        obtain ⟨rfl, rfl, rfl⟩ := h
        refine ⟨s.nextLine, s.func, hh.1 m hm, setNext_fst .., ?_, ?_⟩
        · intro ht
          rw [if_pos ht]
          refine ⟨rfl, ?_⟩
          rw [setNext_eq, if_pos ((setNext_fst ..).1 ht)]
        · intro hf
          rw [if_neg (by simp [hf])]
          refine ⟨rfl, ?_⟩
          rw [setNext_eq, if_neg (fun ha => by rw [(setNext_fst refuses ..).2 ha] at hf; cases hf)]
    · simp at h
    · simp at h
    · simp at h

/-- The jump being done. -/
def current (s : St) : List (Nat × Int × List Char) :=
  match s.message with
  | none => []
  | some seq => [(seq, s.nextLine, s.func)]

theorem asked_append (a b : List Cmd) : asked (a ++ b) = asked a ++ asked b := by
  fun_induction asked a <;> simp_all [asked]

def seqs (l : List (Nat × Int × List Char)) : List Nat := l.map (·.1)

/-- The answers given, the jump being done and those in the queue are jumps asked for, in the order
they were asked for. -/
def Counted (s : St) (sent : List Cmd) : Prop :=
  (answers s.out ++ (seqs (current s) ++ seqs (asked s.queue))).Sublist (seqs (asked sent))

theorem doIt_out (s : St) (c : Cmd) : (doIt s c).out = s.out := by
  cases c <;> simp only [doIt]; split <;> rfl

theorem doIt_queue (s : St) (c : Cmd) : (doIt s c).queue = s.queue := by
  cases c <;> simp only [doIt]; split <;> rfl

theorem doIt_place (s : St) (c : Cmd) : (doIt s c).place = s.place := by
  cases c <;> simp only [doIt]; split <;> rfl

theorem doIt_current (s : St) (c : Cmd) :
    current (doIt s c) = if asked [c] = [] then current s else asked [c] := by
  cases c with
  | other => simp [asked, doIt]
  | step k => simp [asked, doIt, current]
  | jump t =>
    obtain ⟨seq, l, f⟩ := t
    cases l <;> simp [asked, doIt, current]

theorem asked_cons (c : Cmd) (q : List Cmd) : asked (c :: q) = asked [c] ++ asked q :=
  asked_append [c] q

theorem counted_step (s : St) (a : Act) (sent : List Cmd) (h : Counted s sent) :
    Counted (step refuses s a) (sent ++ posted [a]) := by
  cases a with
  | post c =>
    simp only [Counted, step, posted, asked_append, seqs, List.map_append] at h ⊢
    rw [← List.append_assoc, ← List.append_assoc]
    rw [← List.append_assoc] at h
    exact h.append (List.Sublist.refl _)
  | resume => simpa [Counted, posted, step, current] using h
  | pause => simpa [Counted, posted, step, current] using h
  | suspendAll => simpa [Counted, posted, step, current] using h
  | dispose => simpa [Counted, posted, step, current] using h
  | hit p r text =>
    simp only [posted, List.append_nil, step]
    split
    · cases text with
      | false => simpa [Counted, current] using h
      | true =>
        refine List.Sublist.trans ?_ h
        simp [current, seqs]
    · exact h
  | go =>
    simp only [posted, List.append_nil, step, go]
    split
    · exact h
    · simpa [Counted, answers_append, answers, current] using h
    · split <;> exact h
    · split
      · exact h
      · next c q hq =>
        refine List.Sublist.trans ?_ h
        show (answers (doIt _ c).out ++ (seqs (current (doIt _ c)) ++ seqs (asked (doIt _ c).queue))).Sublist _
        rw [doIt_out, doIt_queue, doIt_current, hq, asked_cons c q]
        refine List.Sublist.append (List.Sublist.refl _) ?_
        split
        · next he => rw [he]; exact List.Sublist.refl _
        · simp [seqs]
    · split <;> exact h
    · split
      · next hm => simpa [Counted, current, hm, answers_append, answers] using h
      · next m hm =>
        simpa [Counted, current, hm, answers_append, answers, seqs] using h
    · simpa [Counted, answers_append, answers, current] using h
    · exact h
    · simpa [Counted, answers_append, answers, current] using h

theorem counted_run (s : St) (acts : List Act) (sent : List Cmd) (h : Counted s sent) :
    Counted (run refuses s acts) (sent ++ posted acts) := by
  induction acts generalizing s sent with
  | nil => simpa [run, posted] using h
  | cons a as ih =>
    have := ih (step refuses s a) _ (counted_step refuses s a sent h)
    have e : posted (a :: as) = posted [a] ++ posted as := by rw [← posted_append]; rfl
    rw [e, ← List.append_assoc]
    exact this

/-- **C108, no request is answered twice.** Whatever happens, and in whatever order, the answers are
those of jumps asked for, each once, in the order they were asked for. -/
theorem c108_once (acts : List Act) :
    (answers (run refuses init acts).out).Sublist ((asked (posted acts)).map (·.1)) := by
  have := counted_run refuses init acts [] (by simp [Counted, init, current, asked, seqs, answers])
  exact (List.sublist_append_left ..).trans this

/-- **C108, nothing else moves a stopped thread.** A thread which is stopped changes its place only at
the moment of an answer, or when the debugger's own exception is raised in it. -/
theorem c108_kept (acts : List Act) (a : Act) (hp : (run refuses init acts).pc ≠ .running)
    (h : (step refuses (run refuses init acts) a).place ≠ (run refuses init acts).place) :
    (∃ seq, (step refuses (run refuses init acts) a).out =
      (run refuses init acts).out ++ [.answer seq true []]) ∨
    (step refuses (run refuses init acts) a).out = (run refuses init acts).out ++ [.raised] := by
  generalize run refuses init acts = s at h hp
  cases a with
  | hit p r text =>
    exfalso
    revert h
    simp only [step]
    cases hc : s.pc <;> first | exact absurd hc hp | exact fun h => h rfl
  | go =>
    simp only [step, go] at h ⊢
    split at h <;> rename_i hpc <;> (try simp only [hpc])
    · exact absurd rfl h
    · exact absurd rfl h
    · split at h <;> exact absurd rfl h
    · split at h
      · exact absurd rfl h
      · exact absurd (doIt_place ..) h
    · split at h <;> exact absurd rfl h
    · split at h
      · next hm => refine .inr ?_; first | rfl | trivial | simp [hm]
      · next m hm =>
        simp only [hm]
        refine .inl ⟨m, ?_⟩
        simp only at h
        split at h
        · next ht => rw [setNext_eq, if_pos ((setNext_fst ..).1 ht)]
        · exact absurd rfl h
    · exact absurd rfl h
    · exact absurd rfl h
    · exact absurd rfl h
  | _ => exact absurd rfl h

/-! ## Requests are answered -/

/-- Nothing from elsewhere happens to the thread while a jump taken from its queue is not answered. -/
def Quiet (refuses : Place → Int → Option (List Char)) (s : St) : List Act → Prop
  | [] => True
  | a :: as =>
    (a ∈ [Act.resume, .pause, .suspendAll, .dispose] → s.message = none) ∧ Quiet refuses (step refuses s a) as

instance decQuiet : (s : St) → (as : List Act) → Decidable (Quiet refuses s as)
  | _, [] => isTrue trivial
  | s, a :: as =>
    have := decQuiet (step refuses s a) as
    by unfold Quiet; infer_instance

/-- While a jump is being done the thread is on its way to it. -/
def OnWay (s : St) : Prop :=
  s.message ≠ none → s.step = .jump ∧ s.suspended = false ∧ (s.pc = .check ∨ s.pc = .left ∨ s.pc = .jumping)

def Whole (s : St) (sent : List Cmd) : Prop :=
  answers s.out ++ (seqs (current s) ++ seqs (asked s.queue)) = seqs (asked sent)

theorem whole_step (s : St) (a : Act) (sent : List Cmd) (h : Whole s sent) (hw : OnWay s)
    (hq : a ∈ [Act.resume, .pause, .suspendAll, .dispose] → s.message = none) :
    Whole (step refuses s a) (sent ++ posted [a]) ∧ OnWay (step refuses s a) := by
  cases a with
  | post c =>
    refine ⟨?_, hw⟩
    simp only [Whole, step, posted, asked_append, seqs, List.map_append, current] at h ⊢
    rw [← h]; simp
  | resume =>
    have := hq (by simp)
    exact ⟨by simpa [Whole, posted, step, current] using h, fun hm => absurd this hm⟩
  | pause =>
    have := hq (by simp)
    exact ⟨by simpa [Whole, posted, step, current] using h, fun hm => absurd this hm⟩
  | suspendAll =>
    have := hq (by simp)
    exact ⟨by simpa [Whole, posted, step, current] using h, fun hm => absurd this hm⟩
  | dispose =>
    have := hq (by simp)
    exact ⟨by simpa [Whole, posted, step, current] using h, fun hm => absurd this hm⟩
  | hit p r text =>
    simp only [posted, List.append_nil, step]
    split
    · next hr =>
      have hm : s.message = none := by
        rcases hm : s.message with _ | m
        · rfl
        · have := (hw (by simp [hm])).2.2
          simp [hr] at this
      refine ⟨by simpa [Whole, current, hm] using h, fun hm' => ?_⟩
      simp [hm] at hm'
    · exact ⟨h, hw⟩
  | go =>
    simp only [posted, List.append_nil, step, go]
    have none_of : s.pc ≠ .check → s.pc ≠ .left → s.pc ≠ .jumping → s.message = none := by
      intro a b c
      rcases hm : s.message with _ | m
      · rfl
      · rcases (hw (by simp [hm])).2.2 with h | h | h
        · exact absurd h a
        · exact absurd h b
        · exact absurd h c
    split <;> rename_i hpc
    · exact ⟨h, hw⟩
    · have hm := none_of (by simp [hpc]) (by simp [hpc]) (by simp [hpc])
      exact ⟨by simpa [Whole, answers_append, answers, current] using h, fun h' => absurd hm h'⟩
    · split
      · exact ⟨h, fun hm => ⟨(hw hm).1, (hw hm).2.1, .inr (.inl rfl)⟩⟩
      · next hn =>
        exact ⟨h, fun hm => absurd (.inl (hw hm).2.1) hn⟩
    · have hm := none_of (by simp [hpc]) (by simp [hpc]) (by simp [hpc])
      split
      · exact ⟨h, fun h' => absurd hm h'⟩
      · next c q hq =>
        refine ⟨?_, ?_⟩
        · show answers (doIt _ c).out ++ (seqs (current (doIt _ c)) ++ seqs (asked (doIt _ c).queue)) = _
          rw [doIt_out, doIt_queue, doIt_current, ← h, hq, asked_cons c q]
          have hc : current { s with queue := q } = [] := by simp [current, hm]
          have hc' : current s = [] := by simp [current, hm]
          simp only [hc, hc']
          split
          · next he => simp [he, seqs]
          · simp [seqs]
        · intro hm'
          cases c with
          | other => exact absurd hm hm'
          | step k => exact absurd hm hm'
          | jump t =>
            obtain ⟨seq, l, f⟩ := t
            cases l with
            | none => exact absurd hm hm'
            | some l => exact ⟨rfl, rfl, .inl rfl⟩
    · split
      · next hs => exact ⟨h, fun hm => ⟨hs, (hw hm).2.1, .inr (.inr rfl)⟩⟩
      · next hs => exact ⟨h, fun hm => absurd (hw hm).1 hs⟩
    · split
      · next hm => exact ⟨by simpa [Whole, current, hm, answers_append, answers] using h, fun h' => absurd hm h'⟩
      · next m hm =>
        exact ⟨by simpa [Whole, current, hm, answers_append, answers, seqs] using h, fun h' => absurd rfl h'⟩
    all_goals
      have hm := none_of (by simp [hpc]) (by simp [hpc]) (by simp [hpc])
      exact ⟨by simpa [Whole, answers_append, answers, current] using h, fun h' => absurd hm h'⟩

theorem whole_run (s : St) (acts : List Act) (sent : List Cmd) (h : Whole s sent) (hw : OnWay s)
    (hq : Quiet refuses s acts) :
    Whole (run refuses s acts) (sent ++ posted acts) ∧ OnWay (run refuses s acts) := by
  induction acts generalizing s sent with
  | nil => exact ⟨by simpa [run, posted] using h, hw⟩
  | cons a as ih =>
    obtain ⟨h1, h2⟩ := whole_step refuses s a sent h hw hq.1
    have := ih (step refuses s a) _ h1 h2 hq.2
    have e : posted (a :: as) = posted [a] ++ posted as := by rw [← posted_append]; rfl
    rw [e, ← List.append_assoc]
    exact this

/-- **C108, none is forgotten.** If nothing from elsewhere happens to the thread while a jump is being
done, then whenever the thread waits with nothing in its queue and no jump to do, every jump asked for
was answered, once and in order. -/
theorem c108_answered (acts : List Act) (hq : Quiet refuses init acts)
    (he : (run refuses init acts).queue = []) (hs : (run refuses init acts).suspended = true) :
    answers (run refuses init acts).out = (asked (posted acts)).map (·.1) := by
  obtain ⟨h, hw⟩ := whole_run refuses init acts [] (by simp [Whole, init, current, asked, seqs, answers])
    (by simp [OnWay, init]) hq
  have hm : (run refuses init acts).message = none := by
    rcases hm : (run refuses init acts).message with _ | m
    · rfl
    · have := (hw (by simp [hm])).2.1
      rw [hs] at this; cases this
  simpa [Whole, current, hm, he, asked, seqs] using h

/-! ## The whole exchange -/

/-- The thread is stopped and waits for what to do, with nothing asked of it. -/
def Stopped (s : St) : Prop :=
  s.pc = .check ∧ s.suspended = true ∧ s.disposed = false ∧ s.message = none ∧ s.queue = []

/-- Only jumps (and commands which do not make the thread run) are asked for. -/
def Calm (acts : List Act) : Prop :=
  ∀ a ∈ acts, a = .go ∨ a = .post .other ∨ ∃ t, a = .post (.jump t)

theorem exchange_append (p : Place) (a b : List (Nat × Int × List Char)) :
    exchange refuses p (a ++ b) =
      ((exchange refuses p a).1 ++ (exchange refuses (exchange refuses p a).2 b).1,
        (exchange refuses (exchange refuses p a).2 b).2) := by
  induction a generalizing p with
  | nil => simp [exchange]
  | cons t ts ih =>
    obtain ⟨seq, l, f⟩ := t
    simp only [List.cons_append, exchange]
    split <;> simp [ih]

/-- What the client is still to get before the jumps which wait. -/
def ahead (s : St) : List Out :=
  match s.pc with
  | .answered true => [.continued, .continued, .stopped .goto s.place]
  | .leaving _ => [.continued, .stopped .goto s.place]
  | .announce => [.stopped .goto s.place]
  | _ => []

/-- How the fields agree with where the thread is. -/
def Shape (s : St) : Prop :=
  s.disposed = false ∧ (∀ k, Cmd.step k ∉ s.queue) ∧
  match s.pc with
  | .running => False
  | .announce => s.message = none ∧ s.suspended = true ∧ s.reason = .goto
  | .leaving k => k = true ∧ s.message = none ∧ s.suspended = true ∧ s.reason = .goto
  | .check => (s.message = none ∧ s.suspended = true) ∨ (s.message ≠ none ∧ s.suspended = false ∧ s.step = .jump)
  | .get => s.message = none ∧ s.suspended = true
  | .left => s.message ≠ none ∧ s.suspended = false ∧ s.step = .jump
  | .jumping => s.message ≠ none
  | .answered _ => s.message = none

def Told (s : St) (o : List Out) (p : Place) : Prop :=
  s.out ++ (ahead s ++ (exchange refuses s.place (current s ++ asked s.queue)).1) = o ∧
  (exchange refuses s.place (current s ++ asked s.queue)).2 = p

theorem told_go (s : St) (o : List Out) (p : Place) (h : Told refuses s o p) (hs : Shape s) :
    Told refuses (go refuses s) o p ∧ Shape (go refuses s) := by
  obtain ⟨hd, hk, hs⟩ := hs
  obtain ⟨h1, h2⟩ := h
  unfold go
  split <;> rename_i hpc <;> simp only [hpc] at hs
  · obtain ⟨hm, hu, hr⟩ := hs
    refine ⟨⟨?_, h2⟩, hd, hk, .inl ⟨hm, hu⟩⟩
    rw [← h1]; simp [ahead, hpc, hr, current]
  · rcases hs with ⟨hm, hu⟩ | ⟨hm, hu, hj⟩
    · rw [if_neg (by simp [hu, hd])]
      refine ⟨⟨?_, h2⟩, hd, hk, hm, hu⟩
      rw [← h1]; simp [ahead, hpc, current]
    · rw [if_pos (.inl hu)]
      refine ⟨⟨?_, h2⟩, hd, hk, hm, hu, hj⟩
      rw [← h1]; simp [ahead, hpc, current]
  · obtain ⟨hm, hu⟩ := hs
    split
    · next hq =>
      refine ⟨⟨?_, h2⟩, hd, hk, .inl ⟨hm, hu⟩⟩
      rw [← h1]; simp [ahead, hpc, current]
    · next c q hq =>
      have hc' : current s = [] := by simp [current, hm]
      have e : current (doIt { s with queue := q } c) ++ asked q = current s ++ asked s.queue := by
        rw [doIt_current, hq, asked_cons c q, hc']
        split
        · next he => simp [he, current, hm]
        · simp
      refine ⟨⟨?_, ?_⟩, ?_, ?_, ?_⟩
      · show (doIt _ c).out ++ (ahead { doIt _ c with pc := .check } ++
          (exchange refuses (doIt _ c).place (current (doIt _ c) ++ asked (doIt _ c).queue)).1) = o
        rw [doIt_out, doIt_queue, doIt_place, e, ← h1]
        simp [ahead, hpc]
      · show (exchange refuses (doIt _ c).place (current (doIt _ c) ++ asked (doIt _ c).queue)).2 = p
        rw [doIt_queue, doIt_place, e]; exact h2
      · show (doIt _ c).disposed = false
        cases c <;> simp only [doIt]
        · split <;> exact hd
        · exact hd
        · exact hd
      · show ∀ k, Cmd.step k ∉ (doIt _ c).queue
        rw [doIt_queue]
        intro k hk'
        exact hk k (by rw [hq]; exact List.mem_cons_of_mem _ hk')
      · cases c with
        | other => exact .inl ⟨hm, hu⟩
        | step k => exact absurd (by rw [hq]; exact List.mem_cons_self) (hk k)
        | jump t =>
          obtain ⟨seq, l, f⟩ := t
          cases l with
          | none => exact .inl ⟨hm, hu⟩
          | some l => exact .inr ⟨by simp [doIt], rfl, rfl⟩
  · obtain ⟨hm, hu, hj⟩ := hs
    rw [if_pos hj]
    refine ⟨⟨?_, h2⟩, hd, hk, hm⟩
    rw [← h1]; simp [ahead, hpc, current]
  · rcases hm : s.message with _ | m
    · exact absurd hm hs
    · have hc : current s = [(m, s.nextLine, s.func)] := by simp [current, hm]
      simp only [hc, List.cons_append, List.nil_append, exchange] at h1 h2
      simp only [setNext_eq]
      split at h1
      · next ha =>
        rw [if_pos ha] at h2
        simp only [ha, if_true]
        refine ⟨⟨?_, h2⟩, hd, hk, rfl⟩
        rw [← h1]; simp [ahead, hpc, current]
      · next ha =>
        rw [if_neg ha] at h2
        simp only [ha, if_false]
        refine ⟨⟨?_, h2⟩, hd, hk, rfl⟩
        rw [← h1]; simp [ahead, hpc, current]
  · refine ⟨⟨?_, h2⟩, hd, hk, rfl, hs, rfl, rfl⟩
    rw [← h1]; simp [ahead, hpc, current]
  · refine ⟨⟨?_, h2⟩, hd, hk, .inl ⟨hs, rfl⟩⟩
    rw [← h1]; simp [ahead, hpc, current]
  · next k =>
    obtain ⟨rfl, hm, hu, hr⟩ := hs
    refine ⟨⟨?_, h2⟩, hd, hk, hm, hu, hr⟩
    rw [← h1]; simp [ahead, hpc, current]

theorem told_run (s0 : St) (acts : List Act) (hc : Calm acts) (s : St) (sent : List Cmd)
    (h : Told refuses s (s0.out ++ (exchange refuses s0.place (asked sent)).1)
      (exchange refuses s0.place (asked sent)).2) (hs : Shape s) :
    Told refuses (run refuses s acts)
      (s0.out ++ (exchange refuses s0.place (asked (sent ++ posted acts))).1)
      (exchange refuses s0.place (asked (sent ++ posted acts))).2 ∧ Shape (run refuses s acts) := by
  induction acts generalizing s sent with
  | nil => simpa [run, posted] using ⟨h, hs⟩
  | cons a as ih =>
    have hc' : Calm as := fun x hx => hc x (List.mem_cons_of_mem _ hx)
    have e : posted (a :: as) = posted [a] ++ posted as := by rw [← posted_append]; rfl
    rw [e, ← List.append_assoc]
    have post : ∀ c, (∀ k, c ≠ .step k) → a = .post c →
        Told refuses (step refuses s a) (s0.out ++ (exchange refuses s0.place (asked (sent ++ posted [a]))).1)
          (exchange refuses s0.place (asked (sent ++ posted [a]))).2 ∧ Shape (step refuses s a) := by
      rintro c hk rfl
      obtain ⟨h1, h2⟩ := h
      refine ⟨⟨?_, ?_⟩, hs.1, ?_, hs.2.2⟩
      · show s.out ++ (ahead s ++ (exchange refuses s.place (current s ++ asked (s.queue ++ [c]))).1) = _
        rw [asked_append, ← List.append_assoc (current s), exchange_append]
        simp only [posted]
        rw [asked_append, exchange_append refuses s0.place, ← h2]
        simp only
        rw [← List.append_assoc s0.out, ← h1]
        simp
      · show (exchange refuses s.place (current s ++ asked (s.queue ++ [c]))).2 = _
        rw [asked_append, ← List.append_assoc (current s), exchange_append]
        simp only [posted]
        rw [asked_append, exchange_append refuses s0.place, ← h2]
      · intro k hk'
        simp only [step, List.mem_append, List.mem_singleton] at hk'
        rcases hk' with h' | h'
        · exact hs.2.1 k h'
        · exact hk k h'.symm
    rcases hc a List.mem_cons_self with rfl | rfl | ⟨t, rfl⟩
    · obtain ⟨h1, h2⟩ := told_go refuses s _ _ h hs
      exact ih hc' (step refuses s .go) _ (by simp only [posted, List.append_nil]; exact h1) h2
    · obtain ⟨h1, h2⟩ := post .other (by simp) rfl
      exact ih hc' _ _ h1 h2
    · obtain ⟨h1, h2⟩ := post (.jump t) (by simp) rfl
      exact ih hc' _ _ h1 h2

theorem told_start (s : St) (h : Stopped s) : Told refuses s (s.out ++ (exchange refuses s.place (asked [])).1)
    (exchange refuses s.place (asked [])).2 ∧ Shape s := by
  obtain ⟨h1, h2, h3, h4, h5⟩ := h
  refine ⟨⟨?_, ?_⟩, h3, by simp [h5], ?_⟩
  · simp [ahead, h1, current, h4, h5, asked, exchange]
  · simp [current, h4, h5, asked]
  · rw [h1]; exact .inl ⟨h4, h2⟩

/-- How many steps the thread needs until it has nothing to do. -/
def work (s : St) : Nat :=
  9 * s.queue.length +
    match s.pc with
    | .running => 0
    | .announce => 2
    | .leaving _ => 3
    | .check => if s.message = none then 1 else 7
    | .get => 0
    | .left => 6
    | .jumping => 5
    | .answered _ => 4

/-- The thread waits, with nothing to do. -/
def Idle (s : St) : Prop :=
  s.queue = [] ∧ (s.pc = .check ∨ s.pc = .get) ∧ s.message = none ∧ s.suspended = true ∧ s.disposed = false

theorem idle_go (s : St) (h : Idle s) : Idle (go refuses s) := by
  obtain ⟨h1, h2, h3, h4, h5⟩ := h
  unfold go
  rcases h2 with h2 | h2
  · simp only [h2]
    rw [if_neg (by simp [h4, h5])]
    exact ⟨h1, .inr rfl, h3, h4, h5⟩
  · simp only [h2, h1]
    exact ⟨rfl, .inl rfl, h3, h4, h5⟩

theorem work_go (s : St) (hs : Shape s) (hn : ¬ Idle s) : work (go refuses s) < work s := by
  obtain ⟨hd, hk, hs⟩ := hs
  unfold go
  split <;> rename_i hpc <;> simp only [hpc] at hs
  · obtain ⟨hm, hu, hr⟩ := hs
    simp [work, hpc, hm]
  · rcases hs with ⟨hm, hu⟩ | ⟨hm, hu, hj⟩
    · rw [if_neg (by simp [hu, hd])]
      simp [work, hpc, hm]
    · rw [if_pos (.inl hu)]
      simp [work, hpc, hm]
  · obtain ⟨hm, hu⟩ := hs
    split
    · next hq => exact absurd ⟨hq, .inr hpc, hm, hu, hd⟩ hn
    · next c q hq =>
      have : work { doIt { s with queue := q } c with pc := .check } ≤ 9 * q.length + 7 := by
        show 9 * (doIt { s with queue := q } c).queue.length +
          (if (doIt { s with queue := q } c).message = none then 1 else 7) ≤ _
        rw [doIt_queue]
        split <;> simp only <;> omega
      refine Nat.lt_of_le_of_lt this ?_
      simp only [work, hq, hpc, List.length_cons]
      omega
  · obtain ⟨hm, hu, hj⟩ := hs
    rw [if_pos hj]
    simp [work, hpc]
  · rcases hm : s.message with _ | m
    · exact absurd hm hs
    · simp [work, hpc]
  · simp [work, hpc]
  · simp [work, hpc, hs]
  · next k =>
    obtain ⟨rfl, hm, hu, hr⟩ := hs
    simp [work, hpc]

theorem run_append (s : St) (a b : List Act) : run refuses s (a ++ b) = run refuses (run refuses s a) b := by
  simp [run]

theorem idle_after (n : Nat) (s : St) (o : List Out) (p : Place) (ht : Told refuses s o p) (hs : Shape s)
    (h : work s ≤ n) :
    Idle (run refuses s (List.replicate n .go)) := by
  induction n generalizing s with
  | zero =>
    by_cases hi : Idle s
    · exact hi
    · have := work_go refuses s hs hi
      omega
  | succ n ih =>
    obtain ⟨ht', hs'⟩ := told_go refuses s o p ht hs
    show Idle (run refuses (go refuses s) (List.replicate n .go))
    by_cases hi : Idle s
    · have hi' := idle_go refuses s hi
      have : ∀ m t, Idle t → Idle (run refuses t (List.replicate m .go)) := by
        intro m
        induction m with
        | zero => exact fun t h => h
        | succ m ihm => exact fun t h => ihm (go refuses t) (idle_go refuses t h)
      exact this n _ hi'
    · have := work_go refuses s hs hi
      exact ih _ ht' hs' (by omega)

theorem queue_posted (s : St) (acts : List Act) :
    (run refuses s acts).queue.length ≤ s.queue.length + (posted acts).length := by
  induction acts generalizing s with
  | nil => simp [run]
  | cons a as ih =>
    have e : posted (a :: as) = posted [a] ++ posted as := by rw [← posted_append]; rfl
    have h1 : (step refuses s a).queue.length ≤ s.queue.length + (posted [a]).length := by
      cases a with
      | go =>
        simp only [step, go, posted, List.length_nil]
        split
        all_goals try exact Nat.le_refl _
        · split <;> exact Nat.le_refl _
        · split
          · exact Nat.le_refl _
          · next c q hq => simp [doIt_queue, hq]
        · split <;> exact Nat.le_refl _
        · split <;> exact Nat.le_refl _
      | hit p r text => simp only [step, posted]; split <;> simp
      | post c => simp [step, posted]
      | _ => simp [step, posted]
    have h2 := ih (step refuses s a)
    show (run refuses (step refuses s a) as).queue.length ≤ _
    rw [e, List.length_append]
    omega

/-- **C108, the whole exchange.** A thread is stopped, and the client asks for any number of jumps, at
any time. What the client has got is always a beginning of what it should get, and the thread does
not run. Once the thread was given enough turns, the client got all of it: for each jump in order
either that it was made, and that the thread is stopped at the line asked for, or that it was not, and
why; and the thread is stopped where the last jump made left it, and goes on waiting. -/
theorem c108_exact (s : St) (h : Stopped s) (acts : List Act) (hc : Calm acts) :
    (run refuses s acts).out <+: s.out ++ (exchange refuses s.place (asked (posted acts))).1 ∧
    (run refuses s acts).pc ≠ .running ∧
    ∀ n, 9 * (posted acts).length + 7 ≤ n →
      let t := run refuses s (acts ++ List.replicate n .go)
      t.out = s.out ++ (exchange refuses s.place (asked (posted acts))).1 ∧
      t.place = (exchange refuses s.place (asked (posted acts))).2 ∧
      t.suspended = true ∧ t.queue = [] ∧ (t.pc = .check ∨ t.pc = .get) := by
  obtain ⟨h1, h2⟩ := told_start refuses s h
  obtain ⟨h3, h4⟩ := told_run refuses s acts hc s [] h1 h2
  simp only [List.nil_append] at h3
  refine ⟨⟨_, h3.1⟩, ?_, ?_⟩
  · intro hr
    have := h4.2.2
    simp [hr] at this
  · intro n hn
    have hw : work (run refuses s acts) ≤ n := by
      have hq := queue_posted refuses s acts
      rw [h.2.2.2.2] at hq
      simp only [List.length_nil, Nat.zero_add] at hq
      have : work (run refuses s acts) ≤ 9 * (run refuses s acts).queue.length + 7 := by
        unfold work
        split <;> try omega
        split <;> omega
      omega
    have hi := idle_after refuses n _ _ _ h3 h4 hw
    have hc2 : Calm (List.replicate n Act.go) := fun a ha => .inl (List.eq_of_mem_replicate ha)
    obtain ⟨h5, h6⟩ := told_run refuses s (List.replicate n .go) hc2 (run refuses s acts) (posted acts) h3 h4
    have hp : ∀ m, posted (List.replicate m Act.go) = [] := by
      intro m; induction m with
      | zero => rfl
      | succ m ih => exact ih
    rw [hp, List.append_nil] at h5
    rw [run_append]
    obtain ⟨i1, i2, i3, i4, i5⟩ := hi
    have ha : ahead (run refuses (run refuses s acts) (List.replicate n .go)) = [] := by
      unfold ahead
      rcases i2 with i2 | i2 <;> simp [i2]
    have hcur : current (run refuses (run refuses s acts) (List.replicate n .go)) = [] := by
      simp [current, i3]
    obtain ⟨h7, h8⟩ := h5
    rw [ha, hcur, i1] at h7
    rw [hcur, i1] at h8
    exact ⟨by simpa [asked, exchange] using h7, by simpa [asked, exchange] using h8, i4, i1, i2⟩

/-! ## No exception of the debugger -/

/-- Every jump in a list of commands has a line number. -/
def Numbered (cs : List Cmd) : Prop := ∀ t, Cmd.jump t ∈ cs → t.line ≠ none

def Safe (s : St) : Prop :=
  s.disposed = false ∧ .raised ∉ s.out ∧ Numbered s.queue ∧
  (s.pc = .check ∨ s.pc = .get ∨ s.pc = .announce ∨ s.pc = .leaving true → s.step = .jump → s.suspended = false → s.message ≠ none) ∧
  (s.pc = .left → s.step = .jump → s.message ≠ none) ∧
  (s.pc = .jumping → s.message ≠ none)

theorem safe_step (s : St) (a : Act) (h : Safe s) (hd : a ≠ .dispose) (hn : Numbered (posted [a])) :
    Safe (step refuses s a) := by
  obtain ⟨h1, h2, h3, h4, h5, h6⟩ := h
  cases a with
  | dispose => exact absurd rfl hd
  | post c =>
    refine ⟨h1, h2, ?_, h4, h5, h6⟩
    intro t ht
    simp only [step, List.mem_append] at ht
    exact ht.elim (h3 t) (hn t)
  | resume => exact ⟨h1, h2, h3, by simp [step], by simp [step], h6⟩
  | suspendAll => exact ⟨h1, h2, h3, by simp [step], by simp [step], h6⟩
  | pause =>
    refine ⟨h1, h2, h3, by simp [step], ?_, h6⟩
    intro hp hj
    refine h5 hp ?_
    simp only [step] at hj
    split at hj
    · cases hj
    · exact hj
  | hit p r text =>
    simp only [step]
    split
    · exact ⟨h1, h2, h3, by simp, by simp, by simp⟩
    · exact ⟨h1, h2, h3, h4, h5, h6⟩
  | go =>
    have out : ∀ o, o ≠ Out.raised → .raised ∉ s.out ++ [o] := by
      intro o ho hm
      rcases List.mem_append.1 hm with hm | hm
      · exact h2 hm
      · exact ho (List.mem_singleton.1 hm).symm
    simp only [step, go]
    split <;> rename_i hpc
    · exact ⟨h1, h2, h3, h4, h5, h6⟩
    · exact ⟨h1, out _ (by simp), h3, fun _ => h4 (.inr (.inr (.inl hpc))), by simp, by simp⟩
    · split
      · next hu =>
        refine ⟨h1, h2, h3, by simp, ?_, by simp⟩
        intro _ hj
        rcases hu with hu | hu
        · exact h4 (.inl hpc) hj hu
        · rw [h1] at hu; cases hu
      · exact ⟨h1, h2, h3, fun _ => h4 (.inl hpc), by simp, by simp⟩
    · split
      · exact ⟨h1, h2, h3, fun _ => h4 (.inr (.inl hpc)), by simp, by simp⟩
      · next c q hq =>
        have hn' : Numbered q := fun t ht => h3 t (by rw [hq]; exact List.mem_cons_of_mem _ ht)
        cases c with
        | other => exact ⟨h1, h2, hn', fun _ => h4 (.inr (.inl hpc)), by simp, by simp⟩
        | step k => exact ⟨h1, h2, hn', by simp [doIt], by simp, by simp⟩
        | jump t =>
          have := h3 t (by rw [hq]; exact List.mem_cons_self)
          obtain ⟨seq, l, f⟩ := t
          cases l with
          | none => exact absurd rfl this
          | some l => exact ⟨h1, h2, hn', by simp [doIt], by simp, by simp⟩
    · split
      · next hj => exact ⟨h1, h2, h3, by simp, by simp, fun _ => h5 hpc hj⟩
      · exact ⟨h1, h2, h3, by simp, by simp, by simp⟩
    · rcases hm : s.message with _ | m
      · exact absurd hm (h6 hpc)
      · exact ⟨h1, out _ (by simp), h3, by simp, by simp, by simp⟩
    · exact ⟨h1, out _ (by simp), h3, by simp, by simp, by simp⟩
    · exact ⟨h1, h2, h3, by simp, by simp, by simp⟩
    · next k =>
      refine ⟨h1, out _ (by simp), h3, ?_, by cases k <;> simp, by cases k <;> simp⟩
      cases k with
      | false => simp
      | true => exact fun _ => h4 (.inr (.inr (.inr hpc)))

/-- **C108, the program sees nothing of it.** As long as the session goes on, and lines are numbers, no
exception of the debugger is raised in the program, whatever is asked for in whatever order. -/
theorem c108_not_raised (acts : List Act) (hd : Act.dispose ∉ acts) (hn : Numbered (posted acts)) :
    .raised ∉ (run refuses init acts).out := by
  have : ∀ s, Safe s → Safe (run refuses s acts) := by
    induction acts with
    | nil => exact fun s h => h
    | cons a as ih =>
      intro s h
      have e : posted (a :: as) = posted [a] ++ posted as := by rw [← posted_append]; rfl
      rw [e] at hn
      exact ih (fun h => hd (List.mem_cons_of_mem _ h)) (fun t ht => hn t (List.mem_append_right _ ht)) _
        (safe_step refuses s a h (fun h => hd (h ▸ List.mem_cons_self))
          (fun t ht => hn t (List.mem_append_left _ ht)))
  exact (this init ⟨rfl, by simp [init], by simp [Numbered, init], by simp [init], by simp [init], by simp [init]⟩).2.1

/-! ## The request -/

/-- **C108, a goto request.** An id not told to the client is refused at once. One which was told makes
the jump be asked of the thread, once: with the request's number, to the line it was told for, or the
line the source mapping gives for it, in any function. -/
theorem c108_request (targets : List (Int × (List Char × Int))) (mapped : List Char → Int → Option Int)
    (unknown : Int → List Char) (seq : Nat) (id : Int) :
    ((∀ t, (id, t) ∉ targets) → ∀ found, gotoRequest targets mapped unknown found seq id = .answer seq false (unknown id)) ∧
    (∀ path line, (id, path, line) ∈ targets → (∀ t, (id, t) ∈ targets → t = (path, line)) →
      (mapped path line = none → gotoRequest targets mapped unknown true seq id = .post (.jump ⟨seq, some line, c!"*"⟩)) ∧
      (∀ l, mapped path line = some l → gotoRequest targets mapped unknown true seq id = .post (.jump ⟨seq, some l, c!"*"⟩))) := by
  refine ⟨?_, ?_⟩
  · intro h found
    have : targets.lookup id = none := by
      rw [List.lookup_eq_none_iff]
      intro q hq
      grind
    simp [gotoRequest, this]
  · intro path line h1 h2
    have : targets.lookup id = some (path, line) := by
      cases hl : targets.lookup id with
      | none =>
        rw [List.lookup_eq_none_iff] at hl
        have := hl _ h1
        simp at this
      | some t =>
        obtain ⟨l1, l2, he, _⟩ := List.lookup_eq_some_iff.1 hl
        exact congrArg some (h2 t (by rw [he]; simp))
    refine ⟨fun hm => ?_, fun l hm => ?_⟩ <;> simp [gotoRequest, this, hm]

/-! ## A case, and what does not hold -/

/-- An interpreter which does not let a jump go into line 9. -/
def some9 : Place → Int → Option (List Char) := fun _ l => if l = 9 then some c!"can't jump into the middle of a block" else none

def at5 : Place := ⟨c!"f", 5, .line⟩

/-- The thread stopped at line 5 of `f`. -/
def stopped5 : List Act := [.hit at5 1 false, .go]

/-- Three jumps asked for: one is made, one is refused by the interpreter, one names another
function. -/
example : Stopped (run some9 init stopped5) ∧
    (run some9 init (stopped5 ++ [.post (.jump ⟨1, some 7, c!"*"⟩), .go, .post (.jump ⟨2, some 9, c!"*"⟩),
      .post (.jump ⟨3, some 3, c!"g"⟩)] ++ List.replicate 40 .go)).out =
    [.stopped (.hit 1) at5, .answer 1 true [], .continued, .continued, .stopped .goto ⟨c!"f", 7, .line⟩,
      .answer 2 false c!"can't jump into the middle of a block",
      .answer 3 false c!"jump is available only within the bottom frame"] := by
  refine ⟨by unfold Stopped; decide, by decide⟩

/-- A history as `c108_answered` asks for: two jumps, a continue between them, a new stop. -/
example :
    let acts := stopped5 ++ [.post (.jump ⟨1, some 7, c!"*"⟩)] ++ List.replicate 9 .go ++ [.resume, .go, .go, .go, .go] ++
      [.hit at5 2 true, .go, .post (.jump ⟨2, some 9, c!"*"⟩)] ++ List.replicate 9 .go
    Quiet some9 init acts ∧ (run some9 init acts).queue = [] ∧ (run some9 init acts).suspended = true ∧
      answers (run some9 init acts).out = [1, 2] := by
  decide

/-- **Not so**: a continue which comes while a jump is being done makes it be forgotten: the client
never gets an answer, whatever happens to the thread later on that is no jump. -/
theorem c108_lost_witness :
    let acts := stopped5 ++ [.post (.jump ⟨1, some 7, c!"*"⟩), .go, .go, .resume, .go, .go, .go]
    (run some9 init acts).pc = .running ∧ (run some9 init acts).out = [.stopped (.hit 1) at5, .continued] ∧
    (run some9 init acts).message = some 1 := by decide

/-- **Not so**: a continue is forgotten when it comes while a jump is being refused: the thread goes on
waiting. -/
theorem c108_continue_lost_witness :
    let acts := stopped5 ++ [.post (.jump ⟨1, some 9, c!"*"⟩), .go, .go, .go, .go, .go, .resume] ++ List.replicate 30 .go
    (run some9 init acts).suspended = true ∧ (run some9 init acts).pc ≠ .running ∧
    (run some9 init acts).queue = [] := by decide

/-- **Not so**: if the session ends while the thread is stopped after a jump, the thread makes the jump
again, and an exception of the debugger is raised in the program. -/
theorem c108_raised_witness :
    let acts := stopped5 ++ [.post (.jump ⟨1, some 7, c!"*"⟩)] ++ List.replicate 8 .go ++ [.dispose] ++ List.replicate 3 .go
    (run some9 init acts).out = [.stopped (.hit 1) at5, .answer 1 true [], .continued, .continued,
      .stopped .goto ⟨c!"f", 7, .line⟩, .raised] := by decide

/-- **Not so**: the file of a goto target is not looked at, so a target in another file moves the thread to
the line of that number in the file it is stopped in. -/
theorem c108_file_witness (mapped : List Char → Int → Option Int) (h : ∀ p l, mapped p l = none) :
    gotoRequest [(1, c!"a.py", 7), (2, c!"b.py", 7)] mapped (fun _ => []) true 4 1 =
      gotoRequest [(1, c!"a.py", 7), (2, c!"b.py", 7)] mapped (fun _ => []) true 4 2 := by
  simp [gotoRequest, List.lookup, h]

/-- **Not so**: a goto for a thread which is not found gets no answer. -/
theorem c108_thread_witness (mapped : List Char → Int → Option Int) :
    gotoRequest [(1, c!"a.py", 7)] mapped (fun _ => []) false 4 1 = .nothing := by
  simp [gotoRequest, List.lookup]

/-- A line which is not a number gets no answer, and the thread goes on waiting. -/
theorem c108_number_witness :
    let acts := stopped5 ++ [.post (.jump ⟨1, none, c!"f"⟩)] ++ List.replicate 30 .go
    (run some9 init acts).out = [.stopped (.hit 1) at5] ∧ (run some9 init acts).suspended = true := by decide

end Goto
