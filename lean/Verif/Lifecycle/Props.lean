import Verif.Lifecycle.Model
/-! Property C14: suspend-all and resume affect exactly the addressed threads. -/

namespace Lifecycle

namespace Spec

/-- The thread is an application thread that the debugger may stop. -/
def Debuggable (t : Thread) : Prop := t.daemon = false ∧ t.doNotTrace = false

/-- Suspended as a side effect of another thread's stop. -/
def IsSuspended (t : Thread) : Prop :=
  t.info.state = .suspend ∧ t.stopReason = cmdThreadSuspend ∧ t.info.stepCmd = cmdThreadSuspend ∧
  t.info.stepStop = none ∧ t.info.pythonSuspend = true

/-- Running with no step pending. -/
def IsFree (t : Thread) : Prop :=
  t.info.state = .run ∧ t.info.stepCmd = -1 ∧ t.info.origStepCmd = -1 ∧ t.info.stepStop = none

/-- Same thread: the parts that identify it are the same. -/
def Same (t u : Thread) : Prop :=
  t.obj = u.obj ∧ t.id = u.id ∧ t.daemon = u.daemon ∧ t.doNotTrace = u.doNotTrace

/-- `id` addresses the thread with id `tid`: the same id, or an id of the form `...|tid`. -/
def Addresses (id tid : List Char) : Prop := id = tid ∨ ∃ p, id = p ++ '|' :: tid

end Spec
open Spec

theorem mem_updateObjs {threads : List Thread} {i : Nat} {objs : List Nat} {exc : Option Nat}
    {f : Thread → Thread} {t : Thread} (h : threads[i]? = some t) :
    (updateObjs threads objs exc f)[i]? =
      some (if objs.contains t.obj && exc != some t.obj then f t else t) := by
  simp [updateObjs, h]

/-- Objects are distinct. -/
def Distinct (threads : List Thread) : Prop := (threads.map (·.obj)).Nodup

theorem obj_inj {threads : List Thread} (hd : Distinct threads) {t u : Thread} (ht : t ∈ threads)
    (hu : u ∈ threads) (h : t.obj = u.obj) : t = u := by
  unfold Distinct at hd
  induction threads with
  | nil => cases ht
  | cons a l ih =>
    simp only [List.map_cons, List.nodup_cons, List.mem_map, not_exists, not_and] at hd
    simp only [List.mem_cons] at ht hu
    rcases ht with rfl | ht <;> rcases hu with rfl | hu
    · rfl
    · exact absurd h.symm (hd.1 u hu)
    · exact absurd h (hd.1 t ht)
    · exact ih hd.2 ht hu

/-- **C14, suspend all.** Suspending all threads except `exc` keeps the list of threads; every debuggable
thread other than `exc` is suspended; every other thread is unchanged in all respects. -/
theorem c14_suspend_all (threads : List Thread) (hd : Distinct threads) (exc : Option Nat) (i : Nat) (t : Thread)
    (h : threads[i]? = some t) :
    (suspendAll threads exc).length = threads.length ∧
    ∃ u, (suspendAll threads exc)[i]? = some u ∧ Same t u ∧
      (Debuggable t ∧ exc ≠ some t.obj → IsSuspended u ∧ u.info.origStepCmd = t.info.origStepCmd) ∧
      (¬ (Debuggable t ∧ exc ≠ some t.obj) → u = t) := by
  have ht : t ∈ threads := List.mem_of_getElem? h
  refine ⟨by simp [suspendAll, updateObjs], _, mem_updateObjs h, ?_, ?_, ?_⟩
  · split <;> simp [Same, markSuspended]
  · rintro ⟨⟨h1, h2⟩, h3⟩
    have : ((threads.filter (fun t => !t.daemon && !t.doNotTrace)).map (·.obj)).contains t.obj = true := by
      simp only [List.contains_iff_mem, List.mem_map, List.mem_filter]
      exact ⟨t, ⟨ht, by simp [h1, h2]⟩, rfl⟩
    rw [if_pos (by rw [this]; simpa using h3)]
    simp [IsSuspended, markSuspended]
  · intro hn
    rw [if_neg]
    simp only [Bool.and_eq_true, List.contains_iff_mem, List.mem_map, List.mem_filter, bne_iff_ne, ne_eq,
      Bool.not_eq_true', not_and]
    rintro ⟨u, ⟨hu, hu1, hu2⟩, he⟩ h3
    have := obj_inj hd hu ht he
    subst this
    exact hn ⟨⟨hu1, hu2⟩, h3⟩

/-- **C14, suspend one.** A thread marked as suspended is suspended in Python code, for the step that was asked for first or else
for the reason given; a step under way goes on later, and without one the thread will stop as soon as it can. -/
theorem c14_suspend_one (t : Thread) (reason orig : Int) :
    ∃ u, u = markSuspended t reason orig ∧ Same t u ∧ u.info.state = .suspend ∧ u.info.pythonSuspend = true ∧
      u.info.origStepCmd = t.info.origStepCmd ∧
      (orig = -1 → u.stopReason = reason) ∧ (orig ≠ -1 → u.stopReason = orig) ∧
      (t.info.stepCmd ≠ -1 → u.info.stepCmd = t.info.stepCmd ∧ u.info.stepStop = t.info.stepStop) ∧
      (t.info.stepCmd = -1 → u.info.stepCmd = cmdStepInto ∧ u.info.stepStop = none) := by
  refine ⟨_, rfl, ?_⟩
  by_cases h1 : t.info.stepCmd = -1 <;> by_cases h2 : orig = -1 <;> simp [markSuspended, Same, h1, h2]

example : (markSuspended { obj := 1, id := c!"t", info := { stepCmd := 108, stepStop := some 4 } } 111).info.stepStop = some 4 := by decide

/-- **C14, resume all.** Resuming `"*"` puts every application thread except `exc` back to running with
no step pending, and changes no other thread. -/
theorem c14_resume_all (threads : List Thread) (hd : Distinct threads) (exc : Option Nat) (i : Nat) (t : Thread)
    (h : threads[i]? = some t) :
    (resumeThreads threads c!"*" exc).length = threads.length ∧
    ∃ u, (resumeThreads threads c!"*" exc)[i]? = some u ∧ Same t u ∧
      (t.daemon = false ∧ exc ≠ some t.obj → IsFree u) ∧
      (¬ (t.daemon = false ∧ exc ≠ some t.obj) → u = t) := by
  have ht : t ∈ threads := List.mem_of_getElem? h
  simp only [resumeThreads, if_true]
  refine ⟨by simp [updateObjs], _, mem_updateObjs h, ?_, ?_, ?_⟩
  · split <;> simp [Same, runThread]
  · rintro ⟨h1, h3⟩
    have : ((threads.filter (fun t => !t.daemon)).map (·.obj)).contains t.obj = true := by
      simp only [List.contains_iff_mem, List.mem_map, List.mem_filter]
      exact ⟨t, ⟨ht, by simp [h1]⟩, rfl⟩
    rw [if_pos (by rw [this]; simpa using h3)]
    simp [IsFree, runThread]
  · intro hn
    rw [if_neg]
    simp only [Bool.and_eq_true, List.contains_iff_mem, List.mem_map, List.mem_filter, bne_iff_ne, ne_eq,
      Bool.not_eq_true', not_and]
    rintro ⟨u, ⟨hu, hu1⟩, he⟩ h3
    have := obj_inj hd hu ht he
    subst this
    exact hn ⟨hu1, h3⟩

theorem addresses_iff (id tid : List Char) :
    (id == tid || ('|' :: tid).isSuffixOf id) = true ↔ Addresses id tid := by
  simp only [Bool.or_eq_true, beq_iff_eq, List.isSuffixOf_iff_suffix, Addresses]
  constructor
  · rintro (h | ⟨p, h⟩)
    · exact .inl h
    · exact .inr ⟨p, h.symm⟩
  · rintro (h | ⟨p, h⟩)
    · exact .inl h
    · exact .inr ⟨p, h.symm⟩

/-- **C14, resume one.** Resuming an ordinary id that addresses exactly one of the threads puts that
thread back to running with no step pending, and changes no other thread. -/
theorem c14_resume_one (threads : List Thread) (hd : Distinct threads) (id : List Char) (exc : Option Nat)
    (hstar : id ≠ c!"*") (hframe : ¬ c!"__frame__:" <+: id)
    (huniq : ∀ t ∈ threads, ∀ u ∈ threads, Addresses id t.id → Addresses id u.id → t = u)
    (i : Nat) (t : Thread) (h : threads[i]? = some t) :
    (resumeThreads threads id exc).length = threads.length ∧
    ∃ u, (resumeThreads threads id exc)[i]? = some u ∧ Same t u ∧
      (Addresses id t.id ∧ exc ≠ some t.obj → IsFree u) ∧
      (¬ (Addresses id t.id ∧ exc ≠ some t.obj) → u = t) := by
  have ht : t ∈ threads := List.mem_of_getElem? h
  have hp : c!"__frame__:".isPrefixOf id = false := by
    cases hb : c!"__frame__:".isPrefixOf id with
    | false => rfl
    | true => exact absurd (List.isPrefixOf_iff_prefix.1 hb) hframe
  simp only [resumeThreads, hstar, if_false, hp, Bool.false_eq_true]
  refine ⟨by simp [updateObjs], _, mem_updateObjs h, ?_, ?_, ?_⟩
  · split <;> simp [Same, runThread]
  · rintro ⟨h1, h3⟩
    have : (findById threads id).toList.contains t.obj = true := by
      unfold findById
      cases hf : threads.find? (fun t => id == t.id || ('|' :: t.id).isSuffixOf id) with
      | none =>
        have := List.find?_eq_none.1 hf t ht
        exact absurd ((addresses_iff _ _).2 h1) this
      | some u =>
        have hu := List.mem_of_find?_eq_some hf
        have hu2 := List.find?_some hf
        have := huniq t ht u hu h1 ((addresses_iff _ _).1 hu2)
        simp [this]
    rw [if_pos (by rw [this]; simpa using h3)]
    simp [IsFree, runThread]
  · intro hn
    rw [if_neg]
    simp only [Bool.and_eq_true, List.contains_iff_mem, bne_iff_ne, ne_eq, not_and]
    intro hm h3
    unfold findById at hm
    cases hf : threads.find? (fun t => id == t.id || ('|' :: t.id).isSuffixOf id) with
    | none => simp [hf] at hm
    | some u =>
      simp only [hf, Option.map_some, Option.toList_some, List.mem_singleton] at hm
      have hu := List.mem_of_find?_eq_some hf
      have hu2 := List.find?_some hf
      have := obj_inj hd ht hu hm
      subst this
      exact hn ⟨(addresses_iff _ _).1 hu2, h3⟩

/-- **C14, custom frames.** A frame id never resumes a thread. -/
theorem c14_resume_frame (threads : List Thread) (rest : List Char) (exc : Option Nat) :
    resumeThreads threads (c!"__frame__:" ++ rest) exc = threads := by
  have h1 : c!"__frame__:" ++ rest ≠ c!"*" := by simp
  have h2 : c!"__frame__:".isPrefixOf (c!"__frame__:" ++ rest) = true := by simp
  simp only [resumeThreads, h1, if_false, h2, if_true]
  simp [updateObjs]

/-- **C14, round trip.** Resuming `"*"` after suspending all leaves every application thread free to
run, whatever its state was before. -/
theorem c14_suspend_then_resume (threads : List Thread) (hd : Distinct threads) (exc : Option Nat) (i : Nat)
    (t : Thread) (h : threads[i]? = some t) (hn : t.daemon = false) :
    ∃ u, (resumeThreads (suspendAll threads exc) c!"*")[i]? = some u ∧ Same t u ∧ IsFree u := by
  obtain ⟨_, u, hu, hs, _⟩ := c14_suspend_all threads hd exc i t h
  have hd2 : Distinct (suspendAll threads exc) := by
    have : (suspendAll threads exc).map (·.obj) = threads.map (·.obj) := by
      simp only [suspendAll, updateObjs, List.map_map]
      apply List.map_congr_left
      intro x _
      simp only [Function.comp]
      split <;> simp [markSuspended]
    unfold Distinct; rw [this]; exact hd
  obtain ⟨_, v, hv, hs2, hf, _⟩ := c14_resume_all _ hd2 none i u hu
  refine ⟨v, hv, ?_, hf ⟨hs.2.2.1 ▸ hn, by simp⟩⟩
  exact ⟨hs.1.trans hs2.1, hs.2.1.trans hs2.2.1, hs.2.2.1.trans hs2.2.2.1, hs.2.2.2.trans hs2.2.2.2⟩

/-- Non-vacuity: three application threads (one opted out), one debugger thread. -/
example :
    let a : Thread := { obj := 1, id := c!"pid_1" }
    let b : Thread := { obj := 2, id := c!"pid_2", info := { stepCmd := 108, stepStop := some 4 } }
    let c : Thread := { obj := 3, id := c!"pid_3", doNotTrace := true }
    let d : Thread := { obj := 4, id := c!"pid_4", daemon := true }
    Distinct [a, b, c, d] ∧ Addresses c!"__x|pid_2" b.id ∧
    (suspendAll [a, b, c, d] (some 1)).map (·.info.state) = [.run, .suspend, .run, .run] ∧
    (resumeThreads (suspendAll [a, b, c, d] none) c!"pid_2").map (·.info.state) = [.suspend, .run, .run, .run] := by
  refine ⟨by unfold Distinct; decide, .inr ⟨c!"__x", by decide⟩, by decide, by decide⟩

end Lifecycle
