import Verif.Locks.Spec

/-! A rank for every lock, a level for every function: the ranks of what a function takes are not
below its level, and inside a region they are above the rank of its lock. -/

namespace Locks

def rank (cfg : Cfg) : Kind → Nat
  | .setTrace => 0
  | .main => 1
  | .redirections => 2
  | .disposed | .waitCalled | .fsNotify | .running => 3
  | .suspendThreads => 4
  | .timeoutTracker => 5
  | .timeoutThread => 6
  | .notification => 7
  | .callbacks | .customFrames => 8
  | .framesTracker => 9
  | .modules | .hitCondition | .skippedStepIn | .anyThread | .helperLib => 10
  | .additionalInfo => 11
  | .updateInfos => 12
  | .threadId | .limbo => 13
  | .stream => 15
  | .showDebug => 16
  | .logInit => if cfg.verbose then 17 else 14

/-- What may be taken while a lock of this kind is held. -/
def next (cfg : Cfg) (k : Kind) : Nat :=
  if k.reentrant then rank cfg k else rank cfg k + 1

def lvl (cfg : Cfg) : Fn → Nat
  | .settrace => 0
  | .onRequest | .processInternalCommands | .cancelAsync | .dispose | .doWaitSuspend
  | .traceDispatch | .readerThread | .writerThread | .commandThread | .checkAliveThread
  | .settraceRegion | .stoptrace => 1
  | .redirectStream | .redirectRegion | .startRedirect | .checkOutputRedirect | .evaluate
  | .replRegion | .onRequestRegion | .doInternalCommand | .internalCommandsRegion => 2
  | .notifyCreated | .notifyNotAlive | .setEnableNotifications | .listThreads
  | .setupAutoReload => 3
  | .setSuspend | .evaluateBody => 4
  | .onPause | .callOnTimeout | .timeoutHandleExit => 5
  | .callOnTimeoutRegion | .processHandles | .killTimeoutThread | .timeoutThread => 6
  | .incrementSuspendTime | .onThreadSuspend | .onThreadResume | .notifyAfterTimeout
  | .processHandlesRegion | .unblockThreads | .evaluateSuspendAgain => 7
  | .customFrameAdd | .customFrameUpdate | .onThreadResumeRegion | .addOnResumed => 8
  | .getFramesList | .findFrame | .trackFrames | .untrackAll | .createSuspendCommand
  | .createSuspendRegion | .exceptionInfo | .onThreadSuspendRegion | .getThreadStack
  | .waitCustomFramesRegion => 9
  | .hitCondition | .trackModule | .notifySkipped | .helperLib => 10
  | .setAdditionalInfo | .setTraceForFrames | .notifyCreatedRegion | .notifyNotAliveRegion
  | .markSuspended | .resumeThreads | .suspendAll | .setSuspendRegion
  | .internalCommandsThreads | .settraceCustomFrames => 11
  | .setAdditionalInfoRegion | .updateSteppingInfo | .removeAdditionalInfo => 12
  | .enumerateThreads | .getThreadId | .customFrameRegion | .autoReloadRegion | .startThread
  | .cancelAsyncRegion => 13
  | .customFrameUpdateRegion => if cfg.verbose then 15 else 14
  | .stdWrite | .userCode | .trackRegion | .trackModuleRegion => 15
  | .notifySkippedRegion => if cfg.verbose then 16 else 14
  | .streamRegion | .netCommand | .waitKilledRegion => if cfg.verbose then 16 else 20
  | .log | .showDebugRegion | .dummyThreadRegion | .updateInfosRegion | .disposeRegion
  | .helperLibRegion => if cfg.verbose then 17 else 14
  | .logInitRegion => if cfg.verbose then 20 else 15
  | .nothing => 20

/-- The check of one entry of a body, for a function of level `n`. -/
def okAct (cfg : Cfg) (n : Nat) : Act → Bool
  | .lock k r => n ≤ rank cfg k && next cfg k ≤ lvl cfg r
  | .call f => n ≤ lvl cfg f

theorem bodies_ok (cfg : Cfg) (h : cfg.quiet) (f : Fn) :
    ∀ a ∈ body cfg f, okAct cfg (lvl cfg f) a = true := by
  obtain ⟨v, r, e⟩ := cfg
  cases v <;> cases r <;> cases e <;>
    first
    | (exfalso; simp [Cfg.quiet] at h; done)
    | (clear h; cases f <;> decide)

theorem rank_reentrant (cfg : Cfg) (k k' : Kind) (hk : k.reentrant = true)
    (h : rank cfg k = rank cfg k') : k = k' := by
  obtain ⟨v, r, e⟩ := cfg
  cases v <;> cases k <;> simp [Kind.reentrant] at hk <;> cases k' <;> simp [rank] at h ⊢

theorem rank_lt (cfg : Cfg) (k : Kind) : rank cfg k < 18 := by
  obtain ⟨v, r, e⟩ := cfg
  cases v <;> cases k <;> simp [rank]

/-! ## The invariant -/

def floor (cfg : Cfg) : List Frame → Nat
  | [] => 0
  | fr :: rest =>
    match fr.lock with
    | none => floor cfg rest
    | some l => max (next cfg l.kind) (floor cfg rest)

def Typed (cfg : Cfg) : List Frame → Prop
  | [] => True
  | fr :: rest => floor cfg (fr :: rest) ≤ lvl cfg fr.fn ∧ Typed cfg rest

structure ThreadOk (cfg : Cfg) (x : Thread) : Prop where
  typed : Typed cfg x.stack
  rank : ∀ l r, x.want = some (l, r) → floor cfg x.stack ≤ rank cfg l.kind
  region : ∀ l r, x.want = some (l, r) → next cfg l.kind ≤ lvl cfg r
  same : ∀ l r, x.want = some (l, r) → l.kind.reentrant = true →
    ∀ h ∈ x.held, h.kind = l.kind → h = l

structure Inv (cfg : Cfg) (s : State) : Prop where
  threads : ∀ t, ThreadOk cfg (s.thread t)
  held : ∀ t l, l ∈ (s.thread t).held → s.owner l = some t
  count : ∀ t l, s.owner l = some t → s.count l = (s.thread t).held.count l ∧ 0 < s.count l
  free : ∀ l, s.owner l = none → s.count l = 0

theorem le_floor (cfg : Cfg) (st : List Frame) (l : Lock) (h : l ∈ st.filterMap (·.lock)) :
    next cfg l.kind ≤ floor cfg st := by
  induction st with
  | nil => simp at h
  | cons fr rest ih =>
    unfold floor
    cases hl : fr.lock with
    | none =>
      simp only [List.filterMap_cons, hl] at h
      exact ih h
    | some m =>
      simp only [List.filterMap_cons, hl, List.mem_cons] at h
      rcases h with rfl | h
      · exact Nat.le_max_left _ _
      · exact Nat.le_trans (ih h) (Nat.le_max_right _ _)

theorem inv_start (cfg : Cfg) : Inv cfg start := by
  refine ⟨fun t => ⟨trivial, ?_, ?_, ?_⟩, ?_, ?_, ?_⟩ <;> simp [start, Thread.held]

/-- A step which changes neither a lock nor what the thread holds. -/
theorem inv_setThread {cfg : Cfg} {s : State} {t : Nat} {x : Thread} (hi : Inv cfg s)
    (hx : ThreadOk cfg x) (hh : x.held = (s.thread t).held) : Inv cfg (setThread s t x) := by
  refine ⟨fun u => ?_, fun u l => ?_, fun u l => ?_, fun l => hi.free l⟩
  · simp only [setThread]
    split
    · exact hx
    · exact hi.threads u
  · simp only [setThread]
    split
    · next h => subst h; rw [hh]; exact hi.held u l
    · exact hi.held u l
  · simp only [setThread]
    split
    · next h => subst h; rw [hh]; exact hi.count u l
    · exact hi.count u l

theorem inv_step {cfg : Cfg} (hc : cfg.quiet) {s s' : State} (hi : Inv cfg s)
    (hs : Step cfg s s') : Inv cfg s' := by
  cases hs with
  | enter t f idle free =>
    refine inv_setThread hi ⟨⟨?_, trivial⟩, by simp, by simp, by simp⟩ ?_
    · simp [floor]
    · simp [Thread.held, idle]
  | call t fr rest f top free mem =>
    have hT := (hi.threads t).typed
    rw [top] at hT
    have hok := bodies_ok cfg hc fr.fn _ mem
    simp only [okAct, decide_eq_true_eq] at hok
    refine inv_setThread hi ⟨⟨?_, hT⟩, by simp, by simp, by simp⟩ ?_
    · exact Nat.le_trans (by simpa [floor] using hT.1) hok
    · simp [Thread.held, top]
  | request t fr rest l r top free mem same =>
    have hT := (hi.threads t).typed
    rw [top] at hT
    have hok := bodies_ok cfg hc fr.fn _ mem
    simp only [okAct, Bool.and_eq_true, decide_eq_true_eq] at hok
    refine inv_setThread hi ⟨hT, ?_, ?_, ?_⟩ ?_
    · intro l' r' h; simp only [Option.some.injEq, Prod.mk.injEq] at h
      obtain ⟨rfl, rfl⟩ := h
      exact Nat.le_trans hT.1 hok.1
    · intro l' r' h; simp only [Option.some.injEq, Prod.mk.injEq] at h
      obtain ⟨rfl, rfl⟩ := h
      exact hok.2
    · intro l' r' h; simp only [Option.some.injEq, Prod.mk.injEq] at h
      obtain ⟨rfl, rfl⟩ := h
      intro hr m hm
      have : m ∈ (s.thread t).held := by simpa [Thread.held, top] using hm
      exact same hr m this
    · simp [Thread.held, top]
  | grant t l r want ok =>
    have hX := hi.threads t
    have hcount : s.count l = (s.thread t).held.count l := by
      rcases ok with h | h
      · rw [hi.free l h]
        symm
        rw [List.count_eq_zero]
        intro hm
        have := hi.held t l hm
        rw [h] at this
        exact nomatch this
      · exact (hi.count t l h.1).1
    have hheld : (⟨⟨r, some l⟩ :: (s.thread t).stack, none⟩ : Thread).held
        = l :: (s.thread t).held := by simp [Thread.held]
    have howner : ∀ u, s.owner l = some u → u = t := by
      intro u hu
      rcases ok with h | h
      · rw [h] at hu; exact nomatch hu
      · rw [h.1] at hu; exact (Option.some.inj hu).symm
    refine ⟨fun u => ?_, fun u m => ?_, fun u m => ?_, fun m => ?_⟩
    · simp only [setThread]
      split
      · refine ⟨⟨?_, hX.typed⟩, by simp, by simp, by simp⟩
        simp only [floor]
        refine Nat.max_le.2 ⟨hX.region l r want, ?_⟩
        have h1 := hX.rank l r want
        have h2 := hX.region l r want
        have : rank cfg l.kind ≤ next cfg l.kind := by unfold next; split <;> omega
        omega
      · exact hi.threads u
    · simp only [setThread, setLock]
      intro hm
      by_cases hu : u = t
      · subst hu
        simp only [if_true] at hm
        rw [hheld] at hm
        by_cases hml : m = l
        · simp [hml]
        · rw [if_neg hml]
          exact hi.held u m (by simpa [hml] using hm)
      · simp only [hu, if_false] at hm
        have h1 := hi.held u m hm
        by_cases hml : m = l
        · subst hml
          exact absurd (howner u h1) hu
        · rw [if_neg hml]; exact h1
    · simp only [setThread, setLock]
      intro ho
      by_cases hml : m = l
      · subst hml
        simp only [if_true] at ho ⊢
        have hu : u = t := (Option.some.inj ho).symm
        subst hu
        simp only [if_true]
        rw [hheld, List.count_cons_self, hcount]
        exact ⟨rfl, by omega⟩
      · rw [if_neg hml] at ho
        rw [if_neg hml]
        have h1 := hi.count u m ho
        by_cases hu : u = t
        · subst hu
          simp only [if_true]
          rw [hheld, List.count_cons_of_ne (Ne.symm hml)]
          exact h1
        · simp only [hu, if_false]; exact h1
    · simp only [setThread, setLock]
      intro ho
      by_cases hml : m = l
      · simp [hml] at ho
      · rw [if_neg hml] at ho ⊢
        exact hi.free m ho
  | ret t f rest top free =>
    have hT := (hi.threads t).typed
    rw [top] at hT
    refine inv_setThread hi ⟨hT.2, by simp, by simp, by simp⟩ ?_
    simp [Thread.held, top]
  | leave t f l rest top free =>
    have hT := (hi.threads t).typed
    rw [top] at hT
    have hheld : (s.thread t).held = l :: (⟨rest, none⟩ : Thread).held := by
      simp [Thread.held, top]
    have hown : s.owner l = some t := hi.held t l (by rw [hheld]; simp)
    have hcnt := hi.count t l hown
    rw [hheld, List.count_cons_self] at hcnt
    -- what the state of the locks is afterwards
    have howner : ∀ m, m ≠ l → (release s l).owner m = s.owner m := by
      intro m hm; unfold release; split <;> simp [setLock, hm]
    have hcount : ∀ m, m ≠ l → (release s l).count m = s.count m := by
      intro m hm; unfold release; split <;> simp [setLock, hm]
    have hthread : (release s l).thread = s.thread := by unfold release; split <;> rfl
    refine ⟨fun u => ?_, fun u m => ?_, fun u m => ?_, fun m => ?_⟩
    · simp only [setThread, hthread]
      split
      · exact ⟨hT.2, by simp, by simp, by simp⟩
      · exact hi.threads u
    · simp only [setThread, hthread]
      intro hm
      by_cases hu : u = t
      · subst hu
        simp only [if_true] at hm
        by_cases hml : m = l
        · subst hml
          have : 0 < (⟨rest, none⟩ : Thread).held.count m := List.count_pos_iff.2 hm
          unfold release
          rw [if_neg (by omega)]
          simp [setLock, hown]
        · rw [howner m hml]
          exact hi.held u m (by rw [hheld]; exact List.mem_cons_of_mem _ hm)
      · simp only [hu, if_false] at hm
        have h1 := hi.held u m hm
        by_cases hml : m = l
        · subst hml
          rw [hown] at h1
          exact absurd (Option.some.inj h1).symm hu
        · rw [howner m hml]; exact h1
    · simp only [setThread, hthread]
      intro ho
      by_cases hml : m = l
      · subst hml
        unfold release at ho ⊢
        split at ho
        · simp [setLock] at ho
        · next hgt =>
          rw [if_neg hgt]
          simp only [setLock, if_true] at ho ⊢
          rw [hown] at ho
          have hu : u = t := (Option.some.inj ho).symm
          subst hu
          simp only [if_true]
          omega
      · rw [howner m hml] at ho
        rw [hcount m hml]
        have h1 := hi.count u m ho
        by_cases hu : u = t
        · subst hu
          simp only [if_true]
          rw [hheld, List.count_cons_of_ne (Ne.symm hml)] at h1
          exact h1
        · simp only [hu, if_false]; exact h1
    · show (release s l).owner m = none → (release s l).count m = 0
      intro ho
      by_cases hml : m = l
      · subst hml
        unfold release at ho ⊢
        split at ho
        · next h => rw [if_pos h]; simp [setLock]
        · simp [setLock, hown] at ho
      · rw [howner m hml] at ho
        rw [hcount m hml]
        exact hi.free m ho

theorem inv_reachable {cfg : Cfg} (hc : cfg.quiet) {s : State} (h : Reachable cfg s) :
    Inv cfg s := by
  induction h with
  | start => exact inv_start cfg
  | step _ hs ih => exact inv_step hc ih hs

/-! ## Ranks grow along a chain of waiting threads -/

theorem grow {cfg : Cfg} {s : State} (hi : Inv cfg s) {t u : Nat} {l l' : Lock} {r r' : Fn}
    (ht : (s.thread t).want = some (l, r)) (ho : s.owner l = some u) (hb : ¬ grantable s t l)
    (hu : (s.thread u).want = some (l', r')) (hb' : ¬ grantable s u l') :
    rank cfg l.kind < rank cfg l'.kind := by
  have hm : l ∈ (s.thread u).held := by
    have := hi.count u l ho
    exact List.count_pos_iff.1 (by omega)
  have h1 := le_floor cfg _ l hm
  have h2 := (hi.threads u).rank l' r' hu
  by_cases hr : l.kind.reentrant = true
  · have hle : rank cfg l.kind ≤ rank cfg l'.kind := by
      simp only [next, hr, if_true] at h1; omega
    rcases Nat.lt_or_ge (rank cfg l.kind) (rank cfg l'.kind) with h | h
    · exact h
    · exfalso
      have hk := rank_reentrant cfg l.kind l'.kind hr (by omega)
      have : l = l' := (hi.threads u).same l' r' hu (hk ▸ hr) l hm hk
      subst this
      exact hb' (Or.inr ⟨ho, hr⟩)
  · simp only [next, hr] at h1
    simp only [Bool.false_eq_true, if_false] at h1
    omega

theorem chain_end {cfg : Cfg} {s : State} (hi : Inv cfg s) :
    ∀ n t, (∀ l r, (s.thread t).want = some (l, r) → 18 - rank cfg l.kind ≤ n) →
      ∃ u, Chain s t u ∧ CanMove s u := by
  intro n
  induction n with
  | zero =>
    intro t h
    cases hw : (s.thread t).want with
    | none => exact ⟨t, .refl t, .inl hw⟩
    | some lr =>
      have := h lr.1 lr.2 hw
      have := rank_lt cfg lr.1.kind
      omega
  | succ n ih =>
    intro t h
    by_cases hm : CanMove s t
    · exact ⟨t, .refl t, hm⟩
    · cases hw : (s.thread t).want with
      | none => exact absurd (.inl hw) hm
      | some lr =>
        obtain ⟨l, r⟩ := lr
        have hb : ¬ grantable s t l := fun hg => hm (.inr ⟨l, r, hw, hg⟩)
        cases ho : s.owner l with
        | none => exact absurd (.inl ho) hb
        | some u =>
          by_cases hmu : CanMove s u
          · exact ⟨u, .step ⟨l, r, hw, ho, hb⟩ (.refl u), hmu⟩
          · obtain ⟨v, hv, hv'⟩ := ih u (by
              intro l' r' hu
              have := grow hi hw ho hb hu (fun hg => hmu (.inr ⟨l', r', hu, hg⟩))
              have := h l r hw
              omega)
            exact ⟨v, .step ⟨l, r, hw, ho, hb⟩ hv, hv'⟩

end Locks
