import Verif.CmdQueue.Lemmas
/-! Property C07: commands posted to threads. Executions are arbitrary interleavings of posts with the
steps of drains by any threads. -/

namespace CmdQueue

/-- Where a command can be while it waits inside a drain in progress. -/
def inDrain (s : State) (c : Cmd) : Nat := drainCount s c

/-- **C07, nothing lost or duplicated.** In every execution, whatever thread ids are drained by
whatever threads, each command that was posted `n` times is accounted for exactly `n` times: handed to
a thread, held by the drain in progress, or waiting in its queue. -/
theorem c07_no_loss_no_dup (as : List Action) (c : Cmd) :
    ((run start as).handed.map (·.2)).count c + inDrain (run start as) c +
      ((run start as).queues (queueKey c.tid)).count c = (run start as).posted.count c :=
  (inv_run inv_start as).counts c

/-- **C07, right thread.** A command is handed only to the thread it was posted for: the same id, the
thread of a custom frame id (`...|id`), or any thread for `"*"`. -/
theorem c07_right_thread (as : List Action) (t : Tid) (c : Cmd)
    (h : (t, c) ∈ (run start as).handed) :
    c.tid = c!"*" ∨ c.tid = t ∨ ∃ p, c.tid = p ++ '|' :: t := by
  have := (inv_run inv_start as).right _ h
  simp only [canExec, Bool.or_eq_true, beq_iff_eq, List.isSuffixOf_iff_suffix] at this
  rcases this with (h | h) | ⟨p, h⟩
  · exact .inl h
  · exact .inr (.inl h)
  · exact .inr (.inr ⟨p, h.symm⟩)

/-- **C07, order.** When threads drain only their own queue and the `"*"` queue (which is what the
callers do), then for each queue the commands handed out so far, those about to be, and those still
waiting are together exactly the commands posted to it, in posting order. -/
theorem c07_fifo (as : List Action) (hu : ∀ a ∈ as, Usual a) (k : Tid) :
    ((run start as).handed.map (·.2)).filter (keyIs k) ++
      (drainExec (run start as)).filter (keyIs k) ++ (run start as).queues k =
    (run start as).posted.filter (keyIs k) :=
  (finv_run finv_start as hu).fifo k

/-- **C07, a drain is complete.** When a thread `t` drains its queue and the `"*"` queue and nobody
posts meanwhile, it is handed everything that was waiting in both, in order, and both are left
empty; no other queue changes. -/
theorem c07_drain_complete (as : List Action) (hu : ∀ a ∈ as, Usual a) (t : Tid)
    (ht : queueKey t = t) (hts : t ≠ c!"*") (hidle : (run start as).drain = none) :
    let s := run start as
    let s' := run start (as ++ .begin t [t, c!"*"] ::
      List.replicate ((s.queues t).length + 2 + ((s.queues c!"*").length + 2) + 1) .next)
    s'.handed = s.handed ++ (s.queues t ++ s.queues c!"*").map (fun c => (t, c)) ∧
    s'.queues t = [] ∧ s'.queues c!"*" = [] ∧ s'.drain = none ∧
    ∀ k, k ≠ t → k ≠ c!"*" → s'.queues k = s.queues k := by
  intro s s'
  have hf := finv_run finv_start as hu
  have hstar : queueKey c!"*" = c!"*" := by decide
  have hown : ∀ c ∈ s.queues t, canExec c t = true := fun c hc => canExec_own (hf.home t c hc)
  have hany : ∀ c ∈ s.queues c!"*", canExec c t = true := by
    intro c hc; have := hf.star c hc; simp [canExec, this]
  let d0 : Drain := { curr := t, ids := [t, c!"*"], putting := false, exec := [], back := [] }
  let s0 : State := { s with drain := some d0 }
  have e0 : step s (.begin t [t, c!"*"]) = s0 := by
    simp only [step]
    rw [show s.drain = none from hidle]
  have e1 := take_all s0 d0 t [c!"*"] (s.queues t) rfl rfl rfl rfl (by rw [ht]) hown
  let d1 : Drain := { d0 with ids := [c!"*"], exec := d0.exec ++ s.queues t }
  let s1 : State := { s0 with queues := setQ s0.queues (queueKey t) [], drain := some d1 }
  have hq1 : s1.queues (queueKey c!"*") = s.queues c!"*" := by
    simp only [s1, setQ, hstar, ht]
    rw [if_neg (fun h => hts h.symm)]
  have e2 := take_all s1 d1 c!"*" [] (s.queues c!"*") rfl rfl rfl rfl hq1 hany
  have hrun : s' = run (run (run s0 (List.replicate ((s.queues t).length + 2) .next))
      (List.replicate ((s.queues c!"*").length + 2) .next)) [.next] := by
    simp only [s']
    rw [run_append, show run (run start as) (.begin t [t, c!"*"] :: List.replicate
      ((s.queues t).length + 2 + ((s.queues c!"*").length + 2) + 1) .next) =
      run (step s (.begin t [t, c!"*"])) (List.replicate
      ((s.queues t).length + 2 + ((s.queues c!"*").length + 2) + 1) .next) from rfl, e0,
      ← run_append, ← run_append]
    congr 1
    rw [show ([.next] : List Action) = List.replicate 1 .next from rfl,
      List.replicate_append_replicate, List.replicate_append_replicate, Nat.add_assoc]
  rw [hrun, e1]
  have e2' := e2
  simp only [s1, s0, d1, d0] at e2'
  simp only [s0, d0] at *
  rw [e2']
  refine ⟨?_, ?_, ?_, ?_, ?_⟩
  · simp [run, step]
  · simp [run, step, setQ, ht]
  · simp [run, step, setQ, hstar]
  · simp [run, step]
  · intro k hk hks
    simp [run, step, setQ, ht, hstar, hk, hks]

/-- Non-vacuity: a post for a custom frame of thread `t`, one for `t`, one for `*`, one for another
thread; `t` drains. -/
example :
    let as : List Action := [.post ⟨1, c!"t"⟩, .post ⟨2, c!"u"⟩, .post ⟨3, c!"*"⟩,
      .post ⟨4, c!"__frame__:5|t"⟩]
    (∀ a ∈ as, Usual a) ∧ queueKey c!"t" = c!"t" ∧
    (run start (as ++ .begin c!"t" [c!"t", c!"*"] :: List.replicate 8 .next)).handed =
      [(c!"t", ⟨1, c!"t"⟩), (c!"t", ⟨4, c!"__frame__:5|t"⟩), (c!"t", ⟨3, c!"*"⟩)] ∧
    (run start (as ++ .begin c!"t" [c!"t", c!"*"] :: List.replicate 8 .next)).queues c!"u" =
      [⟨2, c!"u"⟩] := by
  refine ⟨?_, by decide, by decide, by decide⟩
  intro a ha
  simp only [List.mem_cons, List.not_mem_nil, or_false] at ha
  rcases ha with rfl | rfl | rfl | rfl <;> (simp only [Usual]; decide)

/-- Outside the usual drains order is not preserved: a thread that drains another thread's queue
adds the command back behind one that was posted meanwhile (1842-1843). No caller does this. -/
theorem c07_foreign_drain_reorders :
    ∃ as : List Action, (run start as).queues c!"t" = [⟨2, c!"t"⟩, ⟨1, c!"t"⟩] ∧
      (run start as).posted = [⟨1, c!"t"⟩, ⟨2, c!"t"⟩] := by
  refine ⟨[.post ⟨1, c!"t"⟩, .begin c!"u" [c!"t"], .next, .next, .post ⟨2, c!"t"⟩, .next, .next], ?_, ?_⟩
  · decide
  · decide

end CmdQueue
