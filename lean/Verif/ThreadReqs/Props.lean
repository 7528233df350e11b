import Verif.ThreadReqs.Model
import Verif.Lifecycle.Props
/-!
C127: requests to pause, continue and step act on the threads they address.
-/

namespace ThreadReqs

open Lifecycle Lifecycle.Spec

/-- the id addresses one of the threads, and only that one -/
def AddressesOne (threads : List Thread) (id : Str) (t : Thread) : Prop :=
  t ∈ threads ∧ Addresses id t.id ∧ ∀ u ∈ threads, Addresses id u.id → u = t

/-- the thread is told to stop as soon as it can, because of a pause -/
def Paused (t : Thread) : Prop :=
  t.info.state = .suspend ∧ t.stopReason = cmdThreadSuspend ∧ t.info.pythonSuspend = true ∧ t.info.stepCmd ≠ -1

/-- an ordinary id -/
def Ordinary (id : Str) : Prop := Py.strip id ≠ c!"*" ∧ ¬ c!"__frame__:" <+: id

theorem findById_one {threads : List Thread} {id : Str} {t : Thread} (h : AddressesOne threads id t) :
    findById threads id = some t.obj := by
  obtain ⟨h1, h2, h3⟩ := h
  unfold findById
  cases hf : threads.find? (fun t => id == t.id || ('|' :: t.id).isSuffixOf id) with
  | none => exact absurd ((addresses_iff _ _).2 h2) (List.find?_eq_none.1 hf t h1)
  | some u =>
    have hu2 := List.find?_some hf
    have := h3 u (List.mem_of_find?_eq_some hf) ((addresses_iff _ _).1 hu2)
    simp [this]

theorem findById_none {threads : List Thread} {id : Str} (h : ∀ t ∈ threads, ¬ Addresses id t.id) :
    findById threads id = none := by
  unfold findById
  rw [Option.map_eq_none_iff, List.find?_eq_none]
  intro t ht hh
  exact h t ht ((addresses_iff _ _).1 hh)

theorem paused_mark (t : Thread) : Paused (markSuspended t cmdThreadSuspend) ∧ Same t (markSuspended t cmdThreadSuspend) := by
  obtain ⟨u, e, h⟩ := c14_suspend_one t cmdThreadSuspend (-1)
  rw [← e]
  refine ⟨⟨h.2.1, h.2.2.2.2.1 rfl, h.2.2.1, ?_⟩, h.1⟩
  by_cases hs : t.info.stepCmd = -1
  · rw [(h.2.2.2.2.2.2.2 hs).1]; decide
  · rw [(h.2.2.2.2.2.2.1 hs).1]; exact hs

theorem paused_of_suspended {t : Thread} (h : IsSuspended t) : Paused t :=
  ⟨h.1, h.2.1, h.2.2.2.2, by rw [h.2.2.1]; decide⟩

theorem distinct_update {threads : List Thread} (hd : Distinct threads) (objs : List Nat) (exc : Option Nat) (f : Thread → Thread)
    (hf : ∀ t, (f t).obj = t.obj) : Distinct (updateObjs threads objs exc f) := by
  have : (updateObjs threads objs exc f).map (·.obj) = threads.map (·.obj) := by
    simp only [updateObjs, List.map_map]
    apply List.map_congr_left
    intro x _
    simp only [Function.comp]
    split
    · exact hf x
    · rfl
  unfold Distinct; rw [this]; exact hd

theorem Same.refl (t : Thread) : Same t t := ⟨rfl, rfl, rfl, rfl⟩
theorem Same.trans {t u v : Thread} (h : Same t u) (h2 : Same u v) : Same t v :=
  ⟨h.1.trans h2.1, h.2.1.trans h2.2.1, h.2.2.1.trans h2.2.2.1, h.2.2.2.trans h2.2.2.2⟩

/-- what `set_suspend` does to each thread -/
theorem setSuspend_thread (db : Db) (hd : Distinct db.threads) (obj : Nat) (others : Bool) (i : Nat) (t : Thread)
    (h : db.threads[i]? = some t) :
    ∃ u, (setSuspend db obj others).threads[i]? = some u ∧ Same t u ∧
      (t.obj = obj → Paused u) ∧
      (t.obj ≠ obj → (others = true ∨ db.single = true) → Debuggable t → Paused u) ∧
      (t.obj ≠ obj → ¬ ((others = true ∨ db.single = true) ∧ Debuggable t) → u = t) := by
  let f : Thread → Thread := fun t => markSuspended t cmdThreadSuspend
  have hd1 : Distinct (updateObjs db.threads [obj] none f) := distinct_update hd _ _ _ fun t => (paused_mark t).2.1.symm
  have h1 : (updateObjs db.threads [obj] none f)[i]? = some (if t.obj = obj then f t else t) := by
    rw [mem_updateObjs h]
    by_cases e : t.obj = obj <;> simp [e]
  unfold setSuspend
  dsimp only
  by_cases ho : (others || db.single) = true
  · rw [if_pos ho]
    obtain ⟨_, u, hu, hs, ha, hb⟩ := c14_suspend_all _ hd1 (some obj) i _ h1
    refine ⟨u, hu, ?_, ?_, ?_, ?_⟩
    · by_cases e : t.obj = obj
      · rw [if_pos e] at hs
        exact Same.trans (paused_mark t).2 hs
      · rw [if_neg e] at hs
        exact hs
    · intro e
      rw [if_pos e] at hb
      have : u = f t := hb (by rintro ⟨_, h⟩; exact h (by rw [← e]; exact congrArg some (paused_mark t).2.1))
      rw [this]
      exact (paused_mark t).1
    · intro e _ hdb
      rw [if_neg e] at ha
      exact paused_of_suspended (ha ⟨hdb, by intro hh; exact e (Option.some.inj hh).symm⟩).1
    · intro e hn
      rw [if_neg e] at hb
      refine hb ?_
      rintro ⟨hdb, _⟩
      exact hn ⟨by simpa using ho, hdb⟩
  · rw [if_neg ho]
    refine ⟨_, h1, ?_, ?_, ?_, ?_⟩
    · by_cases e : t.obj = obj
      · rw [if_pos e]; exact (paused_mark t).2
      · rw [if_neg e]; exact Same.refl t
    · intro e
      rw [if_pos e]
      exact (paused_mark t).1
    · intro _ hh
      exact absurd (by simpa using hh) ho
    · intro e _
      rw [if_neg e]

/-- C127. A pause for one thread stops that thread; the others are left alone, unless one notification is given for all threads:
then all the threads that can be debugged stop. -/
theorem c127_pause_one (db : Db) (hd : Distinct db.threads) (id : Str) (t0 : Thread) (ho : Ordinary id)
    (h0 : AddressesOne db.threads id t0) (i : Nat) (t : Thread) (h : db.threads[i]? = some t) :
    (request db (.pause id)).2 = some .ok ∧
    ∃ u, (request db (.pause id)).1.threads[i]? = some u ∧ Same t u ∧
      (t = t0 ∨ (db.single = true ∧ Debuggable t) → Paused u) ∧
      (¬ (t = t0 ∨ (db.single = true ∧ Debuggable t)) → u = t) := by
  refine ⟨rfl, ?_⟩
  have hreq : (request db (.pause id)).1 = setSuspend db t0.obj false := by
    show requestSuspendThread db id = _
    unfold requestSuspendThread
    dsimp only
    have hp : Py.startsWith id c!"__frame__:" = false := by
      cases hb : Py.startsWith id c!"__frame__:" with
      | false => rfl
      | true => 
        obtain ⟨r, hr⟩ := (Py.startsWith_iff _ _).mp hb
        exact absurd ⟨r, hr⟩ ho.2
    rw [if_neg ho.1, hp, findById_one h0]
    simp [ho.1]
  rw [hreq]
  obtain ⟨u, hu, hs, ha, hb, hc⟩ := setSuspend_thread db hd t0.obj false i t h
  have hobj : t.obj = t0.obj ↔ t = t0 := ⟨fun e => obj_inj hd (List.mem_of_getElem? h) h0.1 e, fun e => by rw [e]⟩
  refine ⟨u, hu, hs, ?_, ?_⟩
  · intro hh
    by_cases e : t = t0
    · exact ha (hobj.mpr e)
    · rcases hh with hh | hh
      · exact absurd hh e
      · exact hb (fun e' => e (hobj.mp e')) (Or.inr hh.1) hh.2
  · intro hh
    refine hc (fun e => hh (Or.inl (hobj.mp e))) ?_
    rintro ⟨h1 | h1, h2⟩
    · cases h1
    · exact hh (Or.inr ⟨h1, h2⟩)

/-- C127. A pause for all threads stops every thread that can be debugged, and changes no thread of the debugger. The only thread
with tracing disabled that is marked is the first one of all the application. -/
theorem c127_pause_all (db : Db) (hd : Distinct db.threads) (id : Str) (hid : Py.strip id = c!"*") (i : Nat) (t : Thread)
    (h : db.threads[i]? = some t) :
    (request db (.pause id)).2 = some .ok ∧
    ∃ u, (request db (.pause id)).1.threads[i]? = some u ∧ Same t u ∧ (Debuggable t → Paused u) ∧
      (¬ Debuggable t → t.daemon = true ∨ (∃ j t', j < i ∧ db.threads[j]? = some t' ∧ t'.daemon = false) → u = t) := by
  refine ⟨rfl, ?_⟩
  show ∃ u, (requestSuspendThread db id).threads[i]? = some u ∧ _
  unfold requestSuspendThread
  dsimp only
  rw [if_pos hid]
  have hm : (((db.threads.filter fun t => !t.daemon).map fun t => some t.obj).filterMap fun x => x) =
      (db.threads.filter fun t => !t.daemon).map (·.obj) := by
    rw [List.filterMap_map]
    induction db.threads.filter fun t => !t.daemon with
    | nil => rfl
    | cons a l ih => simpa using ih
  rw [hm]
  cases hf : db.threads.filter fun t => !t.daemon with
  | nil =>
    refine ⟨t, h, Same.refl t, ?_, fun _ _ => rfl⟩
    intro hdb
    have : t ∈ db.threads.filter fun t => !t.daemon := List.mem_filter.mpr ⟨List.mem_of_getElem? h, by simp [hdb.1]⟩
    rw [hf] at this
    cases this
  | cons f l =>
    rw [List.map_cons]
    obtain ⟨u, hu, hs, ha, hb, hc⟩ := setSuspend_thread db hd f.obj (decide (Py.strip id = c!"*")) i t h
    refine ⟨u, hu, hs, ?_, ?_⟩
    · intro hdb
      by_cases e : t.obj = f.obj
      · exact ha e
      · exact hb e (Or.inl (by simp [hid])) hdb
    · intro hn hh
      refine hc ?_ (fun hh => hn hh.2)
      intro e
      have hff : f ∈ db.threads.filter fun t => !t.daemon := by rw [hf]; exact List.mem_cons_self ..
      have heq : t = f := obj_inj hd (List.mem_of_getElem? h) (List.mem_filter.mp hff).1 e
      subst heq
      rcases hh with hh | ⟨j, t', hj, hjt, hdm⟩
      · have := (List.mem_filter.mp hff).2
        rw [hh] at this
        cases this
      · -- the first application thread is at `i`, but `t'` is before it
        have hpre : t' ∈ db.threads.take i := by
          rw [List.mem_iff_getElem?]
          exact ⟨j, by rw [List.getElem?_take, if_pos hj]; exact hjt⟩
        have hsplit : db.threads.filter (fun t => !t.daemon) =
            (db.threads.take i).filter (fun t => !t.daemon) ++ (db.threads.drop i).filter (fun t => !t.daemon) := by
          rw [← List.filter_append, List.take_append_drop]
        rw [hf] at hsplit
        have hmem : t' ∈ (db.threads.take i).filter (fun t => !t.daemon) := List.mem_filter.mpr ⟨hpre, by simp [hdm]⟩
        cases hx : (db.threads.take i).filter (fun t => !t.daemon) with
        | nil => rw [hx] at hmem; cases hmem
        | cons a as =>
          rw [hx, List.cons_append] at hsplit
          have ea : t = a := (List.cons.inj hsplit).1
          have hin : t ∈ db.threads.take i := by
            have : a ∈ (db.threads.take i).filter (fun t => !t.daemon) := by rw [hx]; exact List.mem_cons_self ..
            rw [ea]
            exact (List.mem_filter.mp this).1
          obtain ⟨k, hk⟩ := List.mem_iff_getElem?.mp hin
          rw [List.getElem?_take] at hk
          by_cases hki : k < i
          · rw [if_pos hki] at hk
            have e1 : (db.threads.map (·.obj))[k]? = some t.obj := by rw [List.getElem?_map, hk]; rfl
            have e2 : (db.threads.map (·.obj))[i]? = some t.obj := by rw [List.getElem?_map, h]; rfl
            have hlt : k < (db.threads.map (·.obj)).length := (List.getElem?_eq_some_iff.mp e1).1
            have := (List.getElem?_inj hlt hd).mp (e1.trans e2.symm)
            omega
          · rw [if_neg hki] at hk; cases hk

/-- C127. A continue request frees all the threads of the application if it says so in its answer; else just the thread it is for. -/
theorem c127_continue (db : Db) (hd : Distinct db.threads) (id : Str) :
    ∃ all, (request db (.continue_ id)).2 = some (.continued all) ∧ (all = true ↔ db.single = true ∨ id = c!"*") ∧
    ∀ (i : Nat) t, db.threads[i]? = some t → ∃ u, (request db (.continue_ id)).1.threads[i]? = some u ∧ Same t u ∧
      (all = true → (t.daemon = false → IsFree u) ∧ (t.daemon = true → u = t)) ∧
      (∀ t0, all = false → ¬ c!"__frame__:" <+: id → AddressesOne db.threads id t0 → (t = t0 → IsFree u) ∧ (t ≠ t0 → u = t)) ∧
      (all = false → (∀ x ∈ db.threads, ¬ Addresses id x.id) → u = t) := by
  by_cases hs : db.single = true ∨ id = c!"*"
  · refine ⟨true, ?_, by simp [hs], ?_⟩
    · show some (Resp.continued ((if db.single = true then c!"*" else id) == c!"*")) = _
      rcases hs with hs | hs
      · rw [if_pos hs]; rfl
      · rw [hs]; split <;> rfl
    · intro i t h
      have e : (if db.single = true then c!"*" else id) = c!"*" := by
        rcases hs with hs | hs
        · rw [if_pos hs]
        · rw [hs]; split <;> rfl
      show ∃ u, (resumeThreads db.threads (if db.single = true then c!"*" else id))[i]? = some u ∧ _
      rw [e]
      obtain ⟨_, u, hu, hsame, ha, hb⟩ := c14_resume_all db.threads hd none i t h
      refine ⟨u, hu, hsame, ?_, fun t0 he => (by cases he), fun he => (by cases he)⟩
      intro _
      refine ⟨fun hdm => ha ⟨hdm, by simp⟩, fun hdm => hb (by rw [hdm]; simp)⟩
  · have hs1 : ¬ db.single = true := fun h => hs (Or.inl h)
    have hs2 : id ≠ c!"*" := fun h => hs (Or.inr h)
    refine ⟨false, ?_, by simp [hs1, hs2], ?_⟩
    · show some (Resp.continued ((if db.single = true then c!"*" else id) == c!"*")) = _
      rw [if_neg hs1]
      simp [hs2]
    · intro i t h
      show ∃ u, (resumeThreads db.threads (if db.single = true then c!"*" else id))[i]? = some u ∧ _
      rw [if_neg hs1]
      have hlen : ∃ u, (resumeThreads db.threads id)[i]? = some u ∧ Same t u := by
        unfold resumeThreads
        dsimp only
        refine ⟨_, mem_updateObjs h, ?_⟩
        have : ∀ b : Bool, Same t (if b = true then runThread t else t) := by
          intro b
          cases b
          · exact Same.refl t
          · exact ⟨rfl, rfl, rfl, rfl⟩
        exact this _
      obtain ⟨u, hu, hsame⟩ := hlen
      refine ⟨u, hu, hsame, fun he => (by cases he), ?_, ?_⟩
      · intro t0 _ hfr h0
        obtain ⟨_, v, hv, _, ha, hb⟩ := c14_resume_one db.threads hd id none hs2 hfr
          (fun a ha b hb h1 h2 => (h0.2.2 a ha h1).trans (h0.2.2 b hb h2).symm) i t h
        rw [hu] at hv
        cases Option.some.inj hv
        refine ⟨fun e => ha ⟨by rw [e]; exact h0.2.1, by simp⟩, fun e => hb ?_⟩
        rintro ⟨h1, _⟩
        exact e (h0.2.2 t (List.mem_of_getElem? h) h1)
      · intro _ hn
        unfold resumeThreads at hu
        dsimp only at hu
        rw [if_neg hs2, findById_none hn] at hu
        have : (if c!"__frame__:".isPrefixOf id then [] else (none : Option Nat).toList) = [] := by split <;> rfl
        rw [this, mem_updateObjs h] at hu
        simpa using hu.symm

/-- the step command asked for: with a filter of libraries, the one that stays in the code of the user -/
def Asked (db : Db) (k : StepKind) (cmd : Int) : Prop :=
  (k = .over ∧ db.libFilter = false ∧ cmd = 108) ∨ (k = .over ∧ db.libFilter = true ∧ cmd = 159) ∨
  (k = .into ∧ db.libFilter = false ∧ cmd = 107) ∨ (k = .into ∧ db.libFilter = true ∧ cmd = 144) ∨
  (k = .out ∧ db.libFilter = false ∧ cmd = 109) ∨ (k = .out ∧ db.libFilter = true ∧ cmd = 160)

/-- C127. A step request posts the step asked for, for the thread it addresses, and changes nothing else; with no such thread it
does nothing. -/
theorem c127_step_posted (db : Db) (k : StepKind) (id : Str) :
    (request db (.step k id)).2 = some .ok ∧
    (∀ t0, AddressesOne db.threads id t0 → ∃ cmd, Asked db k cmd ∧
      (request db (.step k id)).1 = { db with posted := db.posted ++ [(id, cmd)] }) ∧
    ((∀ t ∈ db.threads, ¬ Addresses id t.id) → (request db (.step k id)).1 = db) := by
  refine ⟨rfl, ?_, ?_⟩
  · intro t0 h0
    refine ⟨stepCmdId db.libFilter k, ?_, ?_⟩
    · unfold Asked stepCmdId
      cases k <;> cases db.libFilter <;> simp
    · show requestStep db id _ = _
      unfold requestStep
      rw [findById_one h0]
  · intro hn
    show requestStep db id _ = _
    unfold requestStep
    rw [findById_none hn]

/-- the thread runs with that step -/
def Steps (t : Thread) (cmd : Int) : Prop :=
  t.info.state = .run ∧ t.info.stepCmd = cmd ∧ t.info.origStepCmd = cmd ∧ t.info.stepStop = none

/-- C127. When the first step posted is done, its thread runs with it; the other threads of the application are freed if
stepping resumes all threads, and else left alone. -/
theorem c127_step_done (db : Db) (hd : Distinct db.threads) (id : Str) (cmd : Int) (rest : List (Str × Int))
    (hp : db.posted = (id, cmd) :: rest) (t0 : Thread) (h0 : AddressesOne db.threads id t0) (i : Nat) (t : Thread)
    (h : db.threads[i]? = some t) :
    (request db .doPosted).1.posted = rest ∧
    ∃ u, (request db .doPosted).1.threads[i]? = some u ∧ Same t u ∧ (t = t0 → Steps u cmd) ∧
      (t ≠ t0 → db.stepResumesAll = true → t.daemon = false → IsFree u) ∧
      (t ≠ t0 → (db.stepResumesAll = false ∨ t.daemon = true) → u = t) := by
  have hr : (request db .doPosted).1 = stepInThread { db with posted := rest } id cmd := by
    simp only [request, hp]
  rw [hr]
  refine ⟨rfl, ?_⟩
  let f : Thread → Thread := fun t =>
    { t with info := { t.info with origStepCmd := cmd, stepCmd := cmd, stepStop := none, state := .run } }
  have hfs : ∀ t, Same t (f t) ∧ Steps (f t) cmd := fun t => ⟨⟨rfl, rfl, rfl, rfl⟩, ⟨rfl, rfl, rfl, rfl⟩⟩
  have hd1 : Distinct (updateObjs db.threads [t0.obj] none f) := distinct_update hd _ _ _ fun _ => rfl
  have hobj : t.obj = t0.obj ↔ t = t0 := ⟨fun e => obj_inj hd (List.mem_of_getElem? h) h0.1 e, fun e => by rw [e]⟩
  have h1 : (updateObjs db.threads [t0.obj] none f)[i]? = some (if t = t0 then f t else t) := by
    rw [mem_updateObjs h]
    by_cases e : t = t0
    · simp [e]
    · have : t.obj ≠ t0.obj := fun e' => e (hobj.mp e')
      simp [e, this]
  unfold stepInThread
  dsimp only
  rw [findById_one h0]
  change ∃ u, (if db.stepResumesAll = true then resumeThreads (updateObjs db.threads [t0.obj] none f) c!"*" (some t0.obj)
    else updateObjs db.threads [t0.obj] none f)[i]? = some u ∧ _
  by_cases ha : db.stepResumesAll = true
  · rw [if_pos ha]
    obtain ⟨_, u, hu, hs, hx, hy⟩ := c14_resume_all _ hd1 (some t0.obj) i _ h1
    by_cases e : t = t0
    · rw [if_pos e] at hs hy
      have : u = f t := hy (by rintro ⟨_, h⟩; exact h (by rw [e]))
      refine ⟨u, hu, Same.trans (hfs t).1 hs, ?_, fun h => absurd e h, fun h => absurd e h⟩
      intro _
      rw [this]
      exact (hfs t).2
    · rw [if_neg e] at hs hx hy
      refine ⟨u, hu, hs, fun h => absurd h e, ?_, ?_⟩
      · intro _ _ hdm
        exact hx ⟨hdm, fun hh => e (hobj.mp (Option.some.inj hh).symm)⟩
      · intro _ hh
        refine hy ?_
        rintro ⟨hdm, _⟩
        rcases hh with hh | hh
        · rw [ha] at hh; cases hh
        · rw [hdm] at hh; cases hh
  · rw [if_neg ha]
    refine ⟨_, h1, ?_, ?_, ?_, ?_⟩
    · by_cases e : t = t0
      · rw [if_pos e]; exact (hfs t).1
      · rw [if_neg e]; exact Same.refl t
    · intro e
      rw [if_pos e]
      exact (hfs t).2
    · intro _ hh
      exact absurd hh ha
    · intro e _
      rw [if_neg e]

/-- C127. No request loses or adds a thread or changes which it is, whatever was requested before. -/
theorem c127_threads_kept (db : Db) (rs : List Req) :
    (run db rs).threads.map (fun t => (t.obj, t.id, t.daemon, t.doNotTrace)) =
      db.threads.map (fun t => (t.obj, t.id, t.daemon, t.doNotTrace)) := by
  have hu : ∀ (ts : List Thread) objs exc (f : Thread → Thread), (∀ t, Same t (f t)) →
      (updateObjs ts objs exc f).map (fun t => (t.obj, t.id, t.daemon, t.doNotTrace)) =
        ts.map (fun t => (t.obj, t.id, t.daemon, t.doNotTrace)) := by
    intro ts objs exc f hf
    simp only [updateObjs, List.map_map]
    apply List.map_congr_left
    intro x _
    simp only [Function.comp]
    split
    · obtain ⟨h1, h2, h3, h4⟩ := hf x
      rw [← h1, ← h2, ← h3, ← h4]
    · rfl
  have hrun : ∀ ts id exc, (resumeThreads ts id exc).map (fun t => (t.obj, t.id, t.daemon, t.doNotTrace)) =
        ts.map (fun t => (t.obj, t.id, t.daemon, t.doNotTrace)) :=
    fun ts id exc => hu ts _ exc _ fun _ => ⟨rfl, rfl, rfl, rfl⟩
  have hsus : ∀ ts exc, (suspendAll ts exc).map (fun t => (t.obj, t.id, t.daemon, t.doNotTrace)) =
        ts.map (fun t => (t.obj, t.id, t.daemon, t.doNotTrace)) :=
    fun ts exc => hu ts _ exc _ fun _ => ⟨rfl, rfl, rfl, rfl⟩
  have hset : ∀ db obj b, (setSuspend db obj b).threads.map (fun t => (t.obj, t.id, t.daemon, t.doNotTrace)) =
        db.threads.map (fun t => (t.obj, t.id, t.daemon, t.doNotTrace)) := by
    intro db obj b
    unfold setSuspend
    dsimp only
    split
    · rw [hsus, hu _ _ _ _ fun t => (paused_mark t).2]
    · rw [hu _ _ _ _ fun t => (paused_mark t).2]
  have hreq : ∀ db r, (request db r).1.threads.map (fun t => (t.obj, t.id, t.daemon, t.doNotTrace)) =
        db.threads.map (fun t => (t.obj, t.id, t.daemon, t.doNotTrace)) := by
    intro db r
    cases r with
    | pause id =>
      show (requestSuspendThread db id).threads.map _ = _
      unfold requestSuspendThread
      dsimp only
      split
      · rfl
      · exact hset _ _ _
    | continue_ id => exact hrun _ _ _
    | step k id =>
      show (requestStep db id _).threads.map _ = _
      unfold requestStep
      split <;> rfl
    | doPosted =>
      cases hp : db.posted with
      | nil => simp only [request, hp]
      | cons e rest =>
        simp only [request, hp]
        unfold stepInThread
        dsimp only
        split
        · rw [hrun]
          exact hu _ _ _ _ fun _ => ⟨rfl, rfl, rfl, rfl⟩
        · exact hu _ _ _ _ fun _ => ⟨rfl, rfl, rfl, rfl⟩
  unfold run
  induction rs generalizing db with
  | nil => rfl
  | cons r rs ih => rw [List.foldl_cons, ih, hreq]

/-- C127. A pause for a thread that does not exist does nothing, and is answered as if it were done. -/
theorem c127_unknown_witness :
    request { threads := [{ obj := 1, id := c!"pid_1" }] } (.pause c!"pid_2") =
      ({ threads := [{ obj := 1, id := c!"pid_1" }] }, some .ok) := by
  decide +kernel

/-- C127. A pause for all threads marks the first thread even if it is not traced. -/
theorem c127_untraced_witness :
    ((request { threads := [{ obj := 1, id := c!"pid_1", doNotTrace := true }, { obj := 2, id := c!"pid_2" }] }
      (.pause c!"*")).1.threads.map (·.info.state)) = [.suspend, .suspend] := by
  decide +kernel

/-! ### Examples -/

/-- three threads of the application and one of the debugger -/
def exDb : Db :=
  { threads := [{ obj := 4, id := c!"pid_4", daemon := true }, { obj := 1, id := c!"pid_1" },
      { obj := 2, id := c!"pid_2", info := { stepCmd := 108, stepStop := some 4 } }, { obj := 3, id := c!"pid_3", doNotTrace := true }] }

example : Distinct exDb.threads ∧ Ordinary c!"pid_2" := by
  refine ⟨by unfold Distinct; decide, by decide +kernel, ?_⟩
  rw [← List.isPrefixOf_iff_prefix]
  decide

example : (run exDb [.pause c!"pid_2"]).threads.map (·.info.state) = [.run, .run, .suspend, .run] ∧
    (run { exDb with single := true } [.pause c!"pid_2"]).threads.map (·.info.state) = [.run, .suspend, .suspend, .run] ∧
    (run exDb [.pause c!" * "]).threads.map (·.info.state) = [.run, .suspend, .suspend, .run] ∧
    (run exDb [.pause c!"*", .step .over c!"pid_1", .doPosted]).threads.map (·.info.stepCmd) = [-1, 108, -1, -1] ∧
    (run { exDb with stepResumesAll := false } [.pause c!"*", .continue_ c!"pid_1"]).threads.map (·.info.state) =
      [.run, .run, .suspend, .run] := by
  decide +kernel

end ThreadReqs
