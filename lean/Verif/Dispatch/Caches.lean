import Verif.Dispatch.Step
/-!
C22: the skip caches and the per-frame tracers over whole histories of trace events (of any number of threads) and
configuration changes.

Source: `/repo/pydevd.py` `_clear_caches` (1308-1324), `on_breakpoints_changed` (1171-1189),
`set_tracing_for_untraced_contexts` (1191-1227), `set_trace_for_frame_and_parents` (2377-2424),
`consolidate_breakpoints` (1862-1868), `set_exclude_filters` and the like (1446-1456);
`/repo/_pydevd_bundle/pydevd_api.py` `set_function_breakpoints` (757-765).

Each event and each configuration change is one atomic step, as the claim says ("provided breakpoint changes are
seen before the event starts"); `c22_race` shows what an interleaving inside an event does.
-/

namespace Dispatch

/-- `frame.f_trace`: the thread tracer (`PyDB.trace_dispatch`), a `PyDBFrame` method, or nothing / `NO_FTRACE`. -/
inductive Tr where
  | thread | trace | exceptions | off
deriving DecidableEq, Repr

structure Hist where
  cfg : Cfg
  cache : Cache := {}
  tr : Frame → Tr := fun _ => .off
  /-- the frame is being executed (it is in some thread's stack) -/
  live : Frame → Bool := fun _ => false

/-- The parts of the configuration that filtering depends on. -/
structure Filters where
  filtersOn : Bool
  filter : Code → Bool → Bool
  fileType : Code → Option FileType
  inScope : Code → Bool

inductive Act where
  /-- a trace event of the interpreter; `i` is the event's thread's information -/
  | event (i : Info) (stopLine : Option Nat) (cur : Entry) (back : Stack) (ev : Ev) (ans : Answers)
  /-- breakpoints were added (or replaced): caches cleared, running frames traced again -/
  | setBps (bps : Nat → Option (List (Nat × Bp)))
  /-- breakpoints were removed: the frames stay as they are -/
  | removeBps (bps : Nat → Option (List (Nat × Bp))) (clear : Bool)
  | setFuncBps (bps : List Char → Option Bp)
  /-- filters changed: caches cleared only -/
  | setFilters (f : Filters)
  /-- options that have no effect on the caches -/
  | options (excBreaks showReturn : Bool) (hook : Option (Code → Bool))
  /-- `set_trace_for_frame_and_parents` of the frames of some stack (on suspension, on a step, ...) -/
  | retrace (which : Frame → Bool)

/-- The answer of the tracer installed for the event (`trace_trampoline` of CPython: a `call` goes to the thread's
tracer, the others to the frame's). -/
def answer (s : Hist) (i : Info) (stopLine : Option Nat) (cur : Entry) (back : Stack) (ev : Ev) (ans : Answers) : Outcome :=
  match (if ev = .call then Tr.thread else s.tr cur.frame) with
  | .thread => threadCall s.cfg s.cache i stopLine cur back ev ans
  | .trace => dispatch s.cfg s.cache i stopLine cur back ev ans
  | .exceptions => traceException i ev ans
  | .off => { ret := .off, info := i }

/-- The frame's tracer after the event. A `call` answered with `None` leaves the previous one. -/
def nextTr (old : Tr) (ev : Ev) : Ret → Tr
  | .trace => .trace
  | .exceptions => .exceptions
  | .off => if ev = .call then old else .off

/-- `set_trace_for_frame_and_parents` (2377-2424) of every frame satisfying `which`. -/
def retraced (s : Hist) (which : Frame → Bool) : Frame → Tr :=
  fun f => if which f && s.cfg.fileType f.code = none then .thread else s.tr f

def withFilters (cfg : Cfg) (g : Filters) : Cfg :=
  { cfg with filtersOn := g.filtersOn, filter := g.filter, fileType := g.fileType, inScope := g.inScope }

def hstep (s : Hist) : Act → Hist
  | .event i sl cur back ev ans =>
    let o := answer s i sl cur back ev ans
    { s with
      cache := o.writes.foldl Cache.write s.cache
      tr := fun f => if f = cur.frame then nextTr (s.tr f) ev o.ret else s.tr f
      live := fun f => if f = cur.frame then (if ev = .call then true else if ev = .ret then false else s.live f) else s.live f }
  | .setBps bps => { s with cfg := { s.cfg with bps }, cache := {}, tr := retraced s s.live }
  | .removeBps bps clear => { s with cfg := { s.cfg with bps }, cache := if clear then {} else s.cache }
  | .setFuncBps funcBps => { s with cfg := { s.cfg with funcBps }, cache := {}, tr := retraced s s.live }
  | .setFilters f =>
    { s with cfg := withFilters s.cfg f, cache := {} }
  | .options excBreaks showReturn hook => { s with cfg := { s.cfg with excBreaks, showReturn, hook } }
  | .retrace which => { s with tr := retraced s which }

def hrun (s : Hist) (as : List Act) : Hist := as.foldl hstep s

/-! ### Specification -/

/-- The filters themselves (not a cache) exclude the code. -/
def FilteredOut (cfg : Cfg) (c : Code) : Prop :=
  cfg.fileType c = some .pydev ∨ (cfg.fileType c = some .lib ∧ cfg.inScope c = false) ∨
    (cfg.filtersOn = true ∧ cfg.filter c false = true)

/-- The line of the file has a breakpoint. -/
def HasBp (cfg : Cfg) (c : Code) (l : Nat) : Prop := ∃ bs b, cfg.bps c.file = some bs ∧ (l, b) ∈ bs

/-- No line of the function has a breakpoint. -/
def NoBp (cfg : Cfg) (c : Code) : Prop := ∀ l ∈ c.lines, ¬HasBp cfg c l

/-- What the environment guarantees of each action. `P` are the code objects of the program. -/
def HOk (P : Code → Prop) (s : Hist) : Act → Prop
  | .event i _ cur back ev _ =>
    P cur.frame.code ∧ (∀ e ∈ back, P e.frame.code) ∧ i.ipy = false ∧ i.cmd ≠ .smart ∧
    (ev ≠ .call → s.live cur.frame = true) ∧
    (ev = .line → cur.line ∈ cur.frame.code.lines) ∧
    (ev = .call → cur.frame.code.gen = false → cur.line = cur.frame.code.firstLine)
  | .setBps bps =>
    -- frames of library files are not traced again
    ∀ f, s.live f = true → s.cfg.fileType f.code ≠ none →
      FilteredOut s.cfg f.code ∨ NoBp { s.cfg with bps } f.code
  | .removeBps bps _ => ∀ f, P f → ∀ l, HasBp { s.cfg with bps } f l → HasBp s.cfg f l
  | .setFuncBps _ => True
  | .setFilters g =>
    -- frames that are running keep the tracing they have
    ∀ f, s.live f = true → FilteredOut s.cfg f.code → FilteredOut (withFilters s.cfg g) f.code
  | .options .. => True
  | .retrace _ => True

def HValid (P : Code → Prop) : Hist → List Act → Prop
  | _, [] => True
  | s, a :: as => HOk P s a ∧ HValid P (hstep s a) as

/-! ### Lookup of breakpoints -/

theorem lookupBp_none_iff (cfg : Cfg) (c : Code) (l : Nat) : lookupBp (cfg.bps c.file) l = none ↔ ¬HasBp cfg c l := by
  unfold lookupBp HasBp
  cases cfg.bps c.file with
  | none => simp
  | some bs =>
    simp only [Option.map_eq_none_iff, List.find?_eq_none, beq_iff_eq, Option.some.injEq]
    constructor
    · rintro h ⟨bs', b, rfl, hm⟩
      exact h _ hm rfl
    · rintro h ⟨l', b⟩ hm rfl
      exact h ⟨bs, b, rfl, hm⟩

theorem hasBpIn_false_iff (cfg : Cfg) (c : Code) (bs : List (Nat × Bp)) (hb : cfg.bps c.file = some bs) :
    hasBpIn c bs = false ↔ NoBp cfg c := by
  unfold hasBpIn NoBp HasBp
  rw [List.any_eq_false]
  simp only [List.contains_iff_mem]
  constructor
  · rintro h l hl ⟨bs', b, hb', hm⟩
    rw [hb] at hb'; cases hb'
    exact h _ hm hl
  · rintro h ⟨l, b⟩ hm hl
    exact h l hl ⟨bs, b, hb, hm⟩

/-! ### Soundness of the cache writes -/

/-- What a cache entry claims, for every code of the program with that key. -/
def WriteOk (P : Code → Prop) (cfg : Cfg) : Write → Prop
  | .skip k _ => ∀ c, P c → c.key = k → FilteredOut cfg c ∨ (NoBp cfg c ∧ (c.gen = false → cfg.funcBps c.name = none))
  | .frame k has => has = false → ∀ c, P c → c.key = k → NoBp cfg c
  | .line k l => ∀ c, P c → c.key = k → ¬HasBp cfg c l

structure CacheOk (P : Code → Prop) (cfg : Cfg) (cache : Cache) : Prop where
  skips : ∀ c w, P c → cache.skips c.key = some w →
    FilteredOut cfg c ∨ (w ≠ 1 ∧ NoBp cfg c ∧ (c.gen = false → cfg.funcBps c.name = none))
  frames : ∀ c, P c → cache.frames c.key = some false → NoBp cfg c
  lines : ∀ c l, P c → cache.lines c.key l = true → ¬HasBp cfg c l

/-- `skip k 1` only for filtered code -/
def SkipOk (P : Code → Prop) (cfg : Cfg) : Write → Prop
  | .skip k w => w = 1 → ∀ c, P c → c.key = k → FilteredOut cfg c
  | _ => True

theorem CacheOk.write {P cfg cache w} (h : CacheOk P cfg cache) (hw : WriteOk P cfg w) (hs : SkipOk P cfg w) :
    CacheOk P cfg (cache.write w) := by
  cases w with
  | skip k why =>
    refine ⟨fun c w hP hc => ?_, h.frames, h.lines⟩
    simp only [Cache.write] at hc
    split at hc
    · rename_i hk
      simp only [Option.some.injEq] at hc
      by_cases h1 : why = 1
      · exact .inl (hs h1 c hP hk)
      · rcases hw c hP hk with h2 | h2
        · exact .inl h2
        · exact .inr ⟨by rw [← hc]; exact h1, h2⟩
    · exact h.skips c w hP hc
  | frame k has =>
    refine ⟨h.skips, fun c hP hc => ?_, h.lines⟩
    simp only [Cache.write] at hc
    split at hc
    · rename_i hk
      exact hw (Option.some.inj hc) c hP hk
    · exact h.frames c hP hc
  | line k l =>
    refine ⟨h.skips, h.frames, fun c l' hP hc => ?_⟩
    simp only [Cache.write] at hc
    split at hc
    · rename_i hk
      rw [hk.2]
      exact hw c hP hk.1
    · exact h.lines c l' hP hc

theorem CacheOk.writes {P cfg cache} {ws : List Write} (h : CacheOk P cfg cache) (hw : ∀ w ∈ ws, WriteOk P cfg w ∧ SkipOk P cfg w) :
    CacheOk P cfg (ws.foldl Cache.write cache) := by
  induction ws generalizing cache with
  | nil => exact h
  | cons w ws ih =>
    exact ih (h.write (hw w (by simp)).1 (hw w (by simp)).2) (fun w' hw' => hw w' (by simp [hw']))

theorem CacheOk.empty (P cfg) : CacheOk P cfg {} :=
  ⟨fun _ _ _ h => (by cases h), fun _ _ h => (by cases h), fun _ _ _ h => (by cases h)⟩

/-! ### One event -/

/-- Different code objects of the program differ in more than the file they are in. -/
def Distinct (P : Code → Prop) : Prop := ∀ c c', P c → P c' → c.key = c'.key → c = c'

theorem skipPhase_ok {P : Code → Prop} {cfg : Cfg} {cache : Cache} {c : Code} {l : Nat} {can : Bool} {fb : Option Bp}
    (hD : Distinct P) (hc : CacheOk P cfg cache) (hP : P c) :
    (∀ w ∈ (skipPhase cfg cache c l can fb).2, WriteOk P cfg w ∧ SkipOk P cfg w) ∧
    (∀ r, (skipPhase cfg cache c l can fb).1 = .stop r → fb = none ∧ can = true ∧
      ((r = .trace ∧ ¬HasBp cfg c l) ∨ NoBp cfg c)) := by
  unfold skipPhase
  split
  · simp
  · rename_i hfb
    have hfb : fb = none := by simpa using hfb
    subst hfb
    split
    · rename_i hb
      have : NoBp cfg c := fun l _ => by rintro ⟨bs, b, h, _⟩; rw [hb] at h; cases h
      cases can <;> simp [this]
    · rename_i hb
      have : NoBp cfg c := fun l _ => by rintro ⟨bs, b, h, hm⟩; rw [hb] at h; cases h; cases hm
      cases can <;> simp [this]
    · rename_i bs hne hb
      split
      · rename_i hl
        simp only [Bool.and_eq_true] at hl
        refine ⟨by simp, ?_⟩
        intro r hr
        simp only [Skip.stop.injEq] at hr
        exact ⟨rfl, hl.1, .inl ⟨hr.symm, hc.lines c l hP hl.2⟩⟩
      · split
        · rename_i has hf
          cases has with
          | true => simp
          | false =>
            have := hc.frames c hP hf
            cases can <;> simp [this]
        · have hw : WriteOk P cfg (.frame c.key (hasBpIn c bs)) := by
            intro hf c' hP' hk
            have := hD c' c hP' hP hk
            subst this
            exact (hasBpIn_false_iff cfg _ bs hb).1 hf
          cases hh : hasBpIn c bs with
          | true => rw [hh] at hw; simp [hw, SkipOk]
          | false =>
            have hn := (hasBpIn_false_iff cfg c bs hb).1 hh
            rw [hh] at hw
            cases can <;> simp [hn, hw, SkipOk]

theorem act_writes (cfg : Cfg) (i : Info) (cmd : Cmd) (kind : Kind) (cur : Entry) (back : Stack) (dec : StepDec)
    (w : List Write) (effs : List Eff) : (act cfg i cmd kind cur back dec w effs).writes = w := by
  unfold act
  simp only
  repeat' split
  all_goals rfl

theorem act_ret {cfg : Cfg} {i : Info} {cmd : Cmd} {kind : Kind} {cur : Entry} {back : Stack} {dec : StepDec}
    {w : List Write} {effs : List Eff} (hq : cfg.quitting = false) (hdec : dec ≠ .off) (hk : kind ≠ .ret) :
    (act cfg i cmd kind cur back dec w effs).ret = .trace := by
  unfold act
  cases dec with
  | off => exact absurd rfl hdec
  | stop b =>
    simp only [hq, if_neg hk]
    split
    · rfl
    · split <;> rfl

theorem stepDecision_ne_off {cfg : Cfg} {i : Info} {cmd : Cmd} {stop : Option Frame} {sl : Option Nat} {kind : Kind}
    {cur : Entry} {back : Stack} (hy : i.ipy = false) (hs : cmd ≠ .smart) :
    stepDecision cfg i cmd stop sl kind cur back ≠ .off := by
  unfold stepDecision
  split
  · simp
  · cases cmd <;> first | exact absurd rfl hs | simp | skip
    all_goals (unfold stepInto; cases kind <;> simp [hy] <;> cases back <;> simp <;> split <;> simp)

theorem decide_ok {P : Code → Prop} {cfg : Cfg} {cls : Cls} {cmd : Cmd} {stop : Option Frame} {sl : Option Nat}
    {cur : Entry} {back : Stack} {ans : Answers} {w : List Write} (hD : Distinct P) (hP : P cur.frame.code)
    (hq : cfg.quitting = false) (hy : cls.info.ipy = false) (hs : cmd ≠ .smart)
    (hw : ∀ w' ∈ w, WriteOk P cfg w' ∧ SkipOk P cfg w') :
    (∀ w' ∈ (decide' cfg cls cmd stop sl cur back ans w).writes, WriteOk P cfg w' ∧ SkipOk P cfg w') ∧
    (cls.kind ≠ .ret → (decide' cfg cls cmd stop sl cur back ans w).ret = .trace) := by
  have hact : ∀ w effs, cls.kind ≠ .ret → (act cfg cls.info cmd cls.kind cur back
      (stepDecision cfg cls.info cmd stop sl cls.kind cur back) w effs).ret = .trace :=
    fun w effs hk => act_ret hq (stepDecision_ne_off hy hs) hk
  unfold decide'
  simp only
  split
  · split
    · exact ⟨hw, fun _ => rfl⟩
    · split
      · exact ⟨hw, fun _ => rfl⟩
      · split
        · exact ⟨hw, fun _ => rfl⟩
        · exact ⟨by rw [act_writes]; exact hw, hact _ _⟩
  · rename_i hb
    split
    · exact ⟨hw, fun _ => rfl⟩
    · rename_i hsus
      refine ⟨?_, hact _ _⟩
      rw [act_writes]
      split
      · rename_i hk
        intro w' hw'
        rw [List.mem_append] at hw'
        rcases hw' with h | h
        · exact hw w' h
        · rw [List.mem_singleton] at h
          subst h
          refine ⟨?_, trivial⟩
          intro c hPc hkey
          have := hD c _ hPc hP hkey
          subst this
          unfold theBp at hb
          cases hf : cls.funcBp with
          | some b => rw [hf] at hb; cases hb
          | none =>
            rw [hf] at hb
            simp only [hk, decide_true, Bool.true_and, hsus, Bool.not_false, if_true] at hb
            exact (lookupBp_none_iff _ _ _).1 (by simpa [hsus] using hb)
      · exact hw

theorem classify_funcBp {cfg : Cfg} {i : Info} {cur : Entry} {back : Stack} {ans : Answers} {cls : Cls}
    (hl : cur.frame.code.gen = false → cur.line = cur.frame.code.firstLine)
    (h : classify cfg i cur back .call ans = .inr cls) :
    cur.frame.code.gen = false ∧ cls.funcBp = cfg.funcBps cur.frame.code.name := by
  unfold classify at h
  split at h
  · cases h
  · rename_i hg
    simp only [Bool.not_eq_true] at hg
    simp only [Sum.inr.injEq] at h
    subst h
    simp [hg, hl hg]

theorem classify_inl_ret {cfg : Cfg} {i : Info} {cur : Entry} {back : Stack} {ev : Ev} {ans : Answers} {o : Outcome}
    (h : classify cfg i cur back ev ans = .inl o) : o.ret = .trace ∧ o.writes = [] := by
  unfold classify at h
  repeat' split at h
  all_goals first
    | (cases h; done)
    | (simp only [Sum.inl.injEq] at h; subst h; exact ⟨rfl, rfl⟩)

theorem dispatch_ok {P : Code → Prop} {cfg : Cfg} {cache : Cache} {i : Info} {sl : Option Nat} {cur : Entry}
    {back : Stack} {ev : Ev} {ans : Answers} (hD : Distinct P) (hc : CacheOk P cfg cache) (hP : P cur.frame.code)
    (hd : cfg.disposed = false) (hq : cfg.quitting = false) (hy : i.ipy = false) (hs : i.cmd ≠ .smart)
    (hl : ev = .call → cur.frame.code.gen = false → cur.line = cur.frame.code.firstLine) :
    (∀ w ∈ (dispatch cfg cache i sl cur back ev ans).writes, WriteOk P cfg w ∧ SkipOk P cfg w) ∧
    (ev ≠ .ret → (dispatch cfg cache i sl cur back ev ans).ret ≠ .trace →
      NoBp cfg cur.frame.code ∧
      (ev = .call → cur.frame.code.gen = false → cfg.funcBps cur.frame.code.name = none)) := by
  unfold dispatch
  rw [hd]
  simp only [Bool.false_eq_true, if_false]
  cases hcl : classify cfg i cur back ev ans with
  | inl o =>
    simp only
    obtain ⟨h1, h2⟩ := classify_inl_ret hcl
    rw [h1, h2]
    simp
  | inr cls =>
    simp only
    obtain ⟨hk, _, hy', hfk, _⟩ := classify_spec hcl
    have hkr : ev ≠ .ret → cls.kind ≠ .ret := by
      intro he hkk
      rw [hkk] at hk
      cases ev <;> simp [kindOf] at hk he
    split
    · have := decide_ok (sl := sl) (stop := i.stop) (back := back) (ans := ans) (w := []) hD hP hq (by rw [hy', hy]) hs (by simp)
      refine ⟨this.1, fun he hne => absurd (this.2 (hkr he)) hne⟩
    · obtain ⟨h1, h2⟩ := skipPhase_ok (l := cur.line) (can := canSkip cfg cls.info i.cmd i.stop cur back) (fb := cls.funcBp) hD hc hP
      split
      · rename_i r w hsk
        rw [hsk] at h1 h2
        refine ⟨h1, fun he hne => ?_⟩
        obtain ⟨h3, _, h4⟩ := h2 r rfl
        rcases h4 with ⟨h4, _⟩ | h4
        · exact absurd h4 hne
        · refine ⟨h4, ?_⟩
          rintro rfl hg
          have := (classify_funcBp (hl rfl) hcl).2
          rw [← this, h3]
      · rename_i w hsk
        rw [hsk] at h1
        have := decide_ok (sl := sl) (stop := i.stop) (back := back) (ans := ans) (w := w) hD hP hq (by rw [hy', hy]) hs h1
        refine ⟨this.1, fun he hne => absurd (this.2 (hkr he)) hne⟩

theorem filterDrops_ok {P : Code → Prop} {cfg : Cfg} {i : Info} {cur : Entry} {back : Stack} (hD : Distinct P)
    (hP : P cur.frame.code) (hB : ∀ e ∈ back, P e.frame.code) :
    (∀ w ∈ (filterDrops cfg i cur back).2, WriteOk P cfg w ∧ SkipOk P cfg w) ∧
    ((filterDrops cfg i cur back).1 = true → FilteredOut cfg cur.frame.code) := by
  have hw : ∀ c, P c → FilteredOut cfg c → WriteOk P cfg (.skip c.key 1) ∧ SkipOk P cfg (.skip c.key 1) := by
    intro c hPc hf
    constructor
    · intro c' hP' hk; have := hD c' c hP' hPc hk; subst this; exact .inl hf
    · intro _ c' hP' hk; have := hD c' c hP' hPc hk; subst this; exact hf
  unfold filterDrops
  simp only
  split
  · rename_i ft
    have hf : FilteredOut cfg cur.frame.code := .inl ft
    simp [hf, hw _ hP hf]
  · split
    · rename_i ft
      simp only [Bool.and_eq_true, decide_eq_true_eq, Bool.not_eq_true'] at ft
      have hf : FilteredOut cfg cur.frame.code := .inr (.inl ft)
      simp [hf, hw _ hP hf]
    · split
      · rename_i ft
        simp only [Bool.and_eq_true] at ft
        have hf : FilteredOut cfg cur.frame.code := .inr (.inr ft)
        have hk := hw _ hP hf
        split
        · rename_i b rest
          split
          · split
            · rename_i hbf
              have hb := hw _ (hB b (by simp)) (.inr (.inr ⟨ft.1, hbf⟩))
              simp only [List.mem_cons, List.not_mem_nil, or_false]
              refine ⟨?_, fun _ => hf⟩
              rintro w (rfl | rfl)
              · exact hk
              · exact hb
            · simp [hk]
          · simp [hk, hf]
        · simp [hk, hf]
      · simp

theorem cacheDrops_ok {P : Code → Prop} {cfg : Cfg} {cache : Cache} {i : Info} {cur : Entry} {back : Stack}
    (hc : CacheOk P cfg cache) (hP : P cur.frame.code) (h : cacheDrops cache i cur back = true) :
    FilteredOut cfg cur.frame.code ∨ (NoBp cfg cur.frame.code ∧
      (cur.frame.code.gen = false → cfg.funcBps cur.frame.code.name = none)) := by
  unfold cacheDrops at h
  split at h
  · cases h
  · rename_i w hw
    exact (hc.skips _ w hP hw).imp_right (·.2)

theorem threadCall_ok {P : Code → Prop} {cfg : Cfg} {cache : Cache} {i : Info} {sl : Option Nat} {cur : Entry}
    {back : Stack} {ev : Ev} {ans : Answers} (hD : Distinct P) (hc : CacheOk P cfg cache) (hP : P cur.frame.code)
    (hB : ∀ e ∈ back, P e.frame.code)
    (hd : cfg.disposed = false) (hq : cfg.quitting = false) (hy : i.ipy = false) (hs : i.cmd ≠ .smart)
    (hl : ev = .call → cur.frame.code.gen = false → cur.line = cur.frame.code.firstLine) :
    (∀ w ∈ (threadCall cfg cache i sl cur back ev ans).writes, WriteOk P cfg w ∧ SkipOk P cfg w) ∧
    (ev ≠ .ret → (threadCall cfg cache i sl cur back ev ans).ret ≠ .trace →
      FilteredOut cfg cur.frame.code ∨ NoBp cfg cur.frame.code) := by
  unfold threadCall
  rw [hd]
  simp only [Bool.false_eq_true, if_false]
  split
  · rename_i h
    refine ⟨by simp, fun _ _ => ?_⟩
    rcases cacheDrops_ok hc hP h with h | h
    · exact .inl h
    · exact .inr h.1
  · obtain ⟨h1, h2⟩ := filterDrops_ok (cfg := cfg) (i := i) hD hP hB
    split
    · rename_i w hf
      rw [hf] at h1 h2
      exact ⟨h1, fun _ _ => .inl (h2 rfl)⟩
    · rename_i w hf
      rw [hf] at h1
      obtain ⟨h3, h4⟩ := dispatch_ok (sl := sl) (back := back) (ev := ev) (ans := ans) hD hc hP hd hq hy hs hl
      refine ⟨?_, fun he hne => .inr (h4 he hne).1⟩
      intro w' hw'
      simp only [List.mem_append] at hw'
      rcases hw' with (hw' | hw') | hw'
      · exact h1 w' hw'
      · exact h3 w' hw'
      · split at hw'
        · rename_i hoff
          rw [List.mem_singleton] at hw'
          subst hw'
          refine ⟨?_, by intro h; cases h⟩
          intro c hPc hk
          have := hD c _ hPc hP hk
          subst this
          have := h4 (by rw [hoff.2]; simp) (by rw [hoff.1]; simp)
          exact .inr ⟨this.1, this.2 hoff.2⟩
        · cases hw'

/-! ### The invariant -/

structure HInv (P : Code → Prop) (s : Hist) : Prop where
  disposed : s.cfg.disposed = false
  quitting : s.cfg.quitting = false
  cache : CacheOk P s.cfg s.cache
  tr : ∀ f, P f.code → s.live f = true → s.tr f = .off ∨ s.tr f = .exceptions → FilteredOut s.cfg f.code ∨ NoBp s.cfg f.code

theorem hinv_step {P : Code → Prop} (hD : Distinct P) {s : Hist} {a : Act} (h : HInv P s) (ok : HOk P s a) :
    HInv P (hstep s a) := by
  cases a with
  | event i sl cur back ev ans =>
    obtain ⟨hP, hB, hy, hs, hlive, hline, hfirst⟩ := ok
    have key : (∀ w ∈ (answer s i sl cur back ev ans).writes, WriteOk P s.cfg w ∧ SkipOk P s.cfg w) ∧
        (ev ≠ .ret → (answer s i sl cur back ev ans).ret ≠ .trace → FilteredOut s.cfg cur.frame.code ∨ NoBp s.cfg cur.frame.code) := by
      unfold answer
      split
      · exact threadCall_ok hD h.cache hP hB h.disposed h.quitting hy hs hfirst
      · obtain ⟨h1, h2⟩ := dispatch_ok (sl := sl) (back := back) (ev := ev) (ans := ans) hD h.cache hP h.disposed h.quitting hy hs hfirst
        exact ⟨h1, fun he hne => .inr (h2 he hne).1⟩
      · rename_i ht
        have hc : ev ≠ .call := by rintro rfl; simp at ht
        rw [if_neg hc] at ht
        refine ⟨?_, fun _ _ => h.tr _ hP (hlive hc) (.inr ht)⟩
        unfold traceException
        split <;> (try split) <;> simp
      · rename_i ht
        have hc : ev ≠ .call := by rintro rfl; simp at ht
        rw [if_neg hc] at ht
        exact ⟨by simp, fun _ _ => h.tr _ hP (hlive hc) (.inl ht)⟩
    refine ⟨h.disposed, h.quitting, h.cache.writes key.1, ?_⟩
    intro f hPf hlf htf
    simp only [hstep] at hlf htf
    by_cases hf : f = cur.frame
    · subst hf
      simp only [if_true] at hlf htf
      by_cases hr : ev = .ret
      · subst hr; simp at hlf
      · refine key.2 hr ?_
        intro htr
        rw [htr] at htf
        simp [nextTr] at htf
    · rw [if_neg hf] at hlf htf
      exact h.tr f hPf hlf htf
  | setBps bps =>
    refine ⟨h.disposed, h.quitting, CacheOk.empty _ _, ?_⟩
    intro f hPf hlf htf
    simp only [hstep, retraced] at hlf htf
    by_cases hft : s.cfg.fileType f.code = none
    · simp [hft, hlf] at htf
    · exact ok f hlf hft
  | removeBps bps clear =>
    have hmono : ∀ c, P c → NoBp s.cfg c → NoBp { s.cfg with bps } c :=
      fun c hP hn l hl hb => hn l hl (ok c hP l hb)
    refine ⟨h.disposed, h.quitting, ?_, ?_⟩
    · simp only [hstep]
      cases clear with
      | true => exact CacheOk.empty _ _
      | false =>
        refine ⟨?_, ?_, ?_⟩
        · intro c w hP hc
          rcases h.cache.skips c w hP hc with h1 | h1
          · exact .inl h1
          · exact .inr ⟨h1.1, hmono c hP h1.2.1, h1.2.2⟩
        · intro c hP hc; exact hmono c hP (h.cache.frames c hP hc)
        · intro c l hP hc hb; exact h.cache.lines c l hP hc (ok c hP l hb)
    · intro f hPf hlf htf
      exact (h.tr f hPf hlf htf).imp_right (hmono _ hPf)
  | setFuncBps bps =>
    refine ⟨h.disposed, h.quitting, CacheOk.empty _ _, ?_⟩
    intro f hPf hlf htf
    simp only [hstep, retraced] at hlf htf
    split at htf
    · simp at htf
    · exact h.tr f hPf hlf htf
  | setFilters g =>
    refine ⟨h.disposed, h.quitting, CacheOk.empty _ _, ?_⟩
    intro f hPf hlf htf
    rcases h.tr f hPf hlf htf with h1 | h1
    · exact .inl (ok f hlf h1)
    · exact .inr h1
  | options e r hk =>
    exact ⟨h.disposed, h.quitting, ⟨h.cache.skips, h.cache.frames, h.cache.lines⟩, h.tr⟩
  | retrace which =>
    refine ⟨h.disposed, h.quitting, h.cache, ?_⟩
    intro f hPf hlf htf
    simp only [hstep, retraced] at hlf htf
    split at htf
    · simp at htf
    · exact h.tr f hPf hlf htf

theorem hinv_run {P : Code → Prop} (hD : Distinct P) {as : List Act} {s : Hist} (h : HInv P s) (v : HValid P s as) :
    HInv P (hrun s as) := by
  induction as generalizing s with
  | nil => exact h
  | cons a as ih => exact ih (hinv_step hD h v.1) v.2

theorem hinv_start (P : Code → Prop) {cfg : Cfg} (hd : cfg.disposed = false) (hq : cfg.quitting = false) :
    HInv P { cfg } := ⟨hd, hq, CacheOk.empty _ _, fun _ _ h => by cases h⟩

/-! ### The property -/

theorem dispatch_hit_line {P : Code → Prop} {cfg : Cfg} {cache : Cache} {i : Info} {sl : Option Nat} {cur : Entry}
    {back : Stack} {ans : Answers} {b : Bp} (hD : Distinct P) (hc : CacheOk P cfg cache) (hP : P cur.frame.code)
    (hd : cfg.disposed = false) (hsus : i.suspended = false) (hl : cur.line ∈ cur.frame.code.lines)
    (hb : lookupBp (cfg.bps cur.frame.code.file) cur.line = some b) :
    Eff.hit b ∈ (dispatch cfg cache i sl cur back .line ans).effects := by
  have hhas : HasBp cfg cur.frame.code cur.line := by
    apply Classical.byContradiction
    intro h
    rw [(lookupBp_none_iff cfg _ _).2 h] at hb
    cases hb
  rw [dispatch_line _ _ _ _ _ _ _ hd]
  obtain ⟨_, h2⟩ := skipPhase_ok (l := cur.line) (can := canSkip cfg i i.cmd i.stop cur back) (fb := none) hD hc hP
  split
  · rename_i r w hsk
    rw [hsk] at h2
    obtain ⟨_, _, h3 | h3⟩ := h2 r rfl
    · exact absurd hhas h3.2
    · exact absurd hhas (h3 _ hl)
  · rw [decide_hit]
    simp [theBp, hsus, hb]

/-- In every history of trace events (of any threads, with any stepping other than smart step into), breakpoint,
function breakpoint, filter and option changes, a line event on a line that has a breakpoint at that moment, in
code that the filters do not exclude, reaches that breakpoint: neither cache nor disabled tracer hides it. -/
theorem c22_partial {P : Code → Prop} (hD : Distinct P) {cfg : Cfg} (hd : cfg.disposed = false)
    (hq : cfg.quitting = false) {as : List Act} {i : Info} {sl : Option Nat} {cur : Entry} {back : Stack}
    {ans : Answers} {b : Bp} (v : HValid P { cfg } (as ++ [.event i sl cur back .line ans]))
    (hsus : i.suspended = false) (hf : ¬FilteredOut (hrun { cfg } as).cfg cur.frame.code)
    (hb : lookupBp ((hrun { cfg } as).cfg.bps cur.frame.code.file) cur.line = some b) :
    Eff.hit b ∈ (answer (hrun { cfg } as) i sl cur back .line ans).effects := by
  have split' : ∀ (as : List Act) s a, HValid P s (as ++ [a]) → HValid P s as ∧ HOk P (hrun s as) a := by
    intro as
    induction as with
    | nil => intro s a h; exact ⟨trivial, h.1⟩
    | cons x xs ih => intro s a h; have := ih _ _ h.2; exact ⟨⟨h.1, this.1⟩, this.2⟩
  obtain ⟨v1, hP, hB, hy, hs, hlive, hline, hfirst⟩ := split' _ _ _ v
  have inv := hinv_run hD (hinv_start P hd hq) v1
  have hdisp := dispatch_hit_line (sl := sl) (back := back) (ans := ans) hD inv.cache hP inv.disposed hsus (hline rfl) hb
  have hnn : ¬NoBp (hrun { cfg } as).cfg cur.frame.code := by
    intro hn
    have := (lookupBp_none_iff _ _ _).2 (hn _ (hline rfl))
    rw [this] at hb; cases hb
  unfold answer
  simp only [reduceCtorEq, if_false]
  split
  · unfold threadCall
    rw [inv.disposed]
    simp only [Bool.false_eq_true, if_false]
    split
    · rename_i h
      rcases cacheDrops_ok inv.cache hP h with h | h
      · exact absurd h hf
      · exact absurd h.1 hnn
    · obtain ⟨_, h2⟩ := filterDrops_ok (cfg := (hrun { cfg } as).cfg) (i := i) hD hP hB
      split
      · rename_i w hw
        rw [hw] at h2
        exact absurd (h2 rfl) hf
      · exact List.mem_append_right _ hdisp
  · exact hdisp
  · rename_i ht
    rcases inv.tr _ hP (hlive (by simp)) (.inr ht) with h | h
    · exact absurd h hf
    · exact absurd h hnn
  · rename_i ht
    rcases inv.tr _ hP (hlive (by simp)) (.inl ht) with h | h
    · exact absurd h hf
    · exact absurd h hnn

/-- The same for function breakpoints, at the call of a function that is not a generator or coroutine. -/
theorem c22_function_partial {P : Code → Prop} (hD : Distinct P) {cfg : Cfg} (hd : cfg.disposed = false)
    (hq : cfg.quitting = false) {as : List Act} {i : Info} {sl : Option Nat} {cur : Entry} {back : Stack}
    {ans : Answers} {b : Bp} (v : HValid P { cfg } (as ++ [.event i sl cur back .call ans]))
    (hg : cur.frame.code.gen = false) (hf : ¬FilteredOut (hrun { cfg } as).cfg cur.frame.code)
    (hb : (hrun { cfg } as).cfg.funcBps cur.frame.code.name = some b) :
    Eff.hit b ∈ (answer (hrun { cfg } as) i sl cur back .call ans).effects := by
  have split' : ∀ (as : List Act) s a, HValid P s (as ++ [a]) → HValid P s as ∧ HOk P (hrun s as) a := by
    intro as
    induction as with
    | nil => intro s a h; exact ⟨trivial, h.1⟩
    | cons x xs ih => intro s a h; have := ih _ _ h.2; exact ⟨⟨h.1, this.1⟩, this.2⟩
  obtain ⟨v1, hP, hB, hy, hs, hlive, hline, hfirst⟩ := split' _ _ _ v
  have inv := hinv_run hD (hinv_start P hd hq) v1
  unfold answer
  simp only [if_true]
  unfold threadCall
  rw [inv.disposed]
  simp only [Bool.false_eq_true, if_false]
  split
  · rename_i h
    rcases cacheDrops_ok inv.cache hP h with h | h
    · exact absurd h hf
    · rw [h.2 hg] at hb; cases hb
  · obtain ⟨_, h2⟩ := filterDrops_ok (cfg := (hrun { cfg } as).cfg) (i := i) hD hP hB
    split
    · rename_i w hw
      rw [hw] at h2
      exact absurd (h2 rfl) hf
    · simp only
      unfold dispatch
      rw [inv.disposed]
      simp only [Bool.false_eq_true, if_false]
      cases hcl : classify (hrun { cfg } as).cfg i cur back .call ans with
      | inl o =>
        unfold classify at hcl
        rw [hg] at hcl
        simp at hcl
      | inr cls =>
        have hfb := (classify_funcBp (hfirst rfl) hcl).2
        rw [hb] at hfb
        obtain ⟨hk, _⟩ := classify_spec hcl
        simp only [kindOf, Option.some.injEq] at hk
        have hsk : ∀ can, skipPhase (hrun { cfg } as).cfg (hrun { cfg } as).cache cur.frame.code cur.line can cls.funcBp = (.go, []) := by
          intro can; unfold skipPhase; rw [hfb]; rfl
        simp only [← hk, reduceCtorEq, if_false, hsk]
        refine List.mem_append_right _ ?_
        rw [decide_hit]
        simp [theBp, hfb]

/-- C23 over histories: with a step into in progress, the call of any function the filters let through keeps the
function traced (so that its first line stops, `c23_into_line`), whatever is remembered about it. -/
theorem c23_into_callee_traced {P : Code → Prop} (hD : Distinct P) {cfg : Cfg} (hd : cfg.disposed = false)
    (hq : cfg.quitting = false) {as : List Act} {i : Info} {sl : Option Nat} {cur : Entry} {back : Stack}
    {ans : Answers} (v : HValid P { cfg } (as ++ [.event i sl cur back .call ans]))
    (hi : i.cmd = .into ∨ (i.cmd = .intoMy ∧ (hrun { cfg } as).cfg.filter cur.frame.code true = false))
    (hf : ¬FilteredOut (hrun { cfg } as).cfg cur.frame.code) :
    (hstep (hrun { cfg } as) (.event i sl cur back .call ans)).tr cur.frame = .trace := by
  have split' : ∀ (as : List Act) s a, HValid P s (as ++ [a]) → HValid P s as ∧ HOk P (hrun s as) a := by
    intro as
    induction as with
    | nil => intro s a h; exact ⟨trivial, h.1⟩
    | cons x xs ih => intro s a h; have := ih _ _ h.2; exact ⟨⟨h.1, this.1⟩, this.2⟩
  obtain ⟨v1, hP, hB, hy, hs, hlive, hline, hfirst⟩ := split' _ _ _ v
  have inv := hinv_run hD (hinv_start P hd hq) v1
  have hdrop : cacheDrops (hrun { cfg } as).cache i cur back = false := by
    unfold cacheDrops
    split
    · rfl
    · rename_i w hw
      rcases inv.cache.skips _ w hP hw with h | h
      · exact absurd h hf
      · have hn : ¬ i.cmd = .none := by rcases hi with h | h <;> simp [h]
        rw [if_neg hn, if_neg h.1]
  have hfd : (filterDrops (hrun { cfg } as).cfg i cur back).1 = false := by
    cases h : (filterDrops (hrun { cfg } as).cfg i cur back).1 with
    | false => rfl
    | true => exact absurd ((filterDrops_ok (cfg := (hrun { cfg } as).cfg) (i := i) hD hP hB).2 h) hf
  have hret : (dispatch (hrun { cfg } as).cfg (hrun { cfg } as).cache i sl cur back .call ans).ret = .trace := by
    unfold dispatch
    rw [inv.disposed]
    simp only [Bool.false_eq_true, if_false]
    cases hcl : classify (hrun { cfg } as).cfg i cur back .call ans with
    | inl o => exact (classify_inl_ret hcl).1
    | inr cls =>
      obtain ⟨hk, _, hy', _, hii⟩ := classify_spec hcl
      simp only [kindOf, Option.some.injEq] at hk
      have hcan : canSkip (hrun { cfg } as).cfg cls.info i.cmd i.stop cur back = false := by
        unfold canSkip
        rcases hi with h | ⟨h, h'⟩
        · simp [h]
        · simp [h, h']
      simp only [← hk, reduceCtorEq, if_false, hcan]
      obtain ⟨h1, h2⟩ := skipPhase_ok (l := cur.line) (can := false) (fb := cls.funcBp) hD inv.cache hP
      split
      · rename_i r w hsk
        rw [hsk] at h2
        have := (h2 r rfl).2.1
        cases this
      · rename_i w hsk
        rw [hsk] at h1
        exact (decide_ok (sl := sl) (stop := i.stop) (back := back) (ans := ans) (w := w) hD hP inv.quitting
          (by rw [hy', hy]) hs h1).2 (by rw [← hk]; simp)
  simp only [hstep, if_true, answer]
  unfold threadCall
  rw [inv.disposed, hdrop]
  simp only [Bool.false_eq_true, if_false]
  split
  · rename_i w hw
    rw [hw] at hfd; cases hfd
  · simp only [hret]
    rfl

/-! ### What the hypotheses rule out -/

def wBp : Bp := {}
def wCode : Code := { file := 1, name := c!"f", firstLine := 10, lines := [10, 11, 12] }
def wCfg : Cfg := { bps := fun f => if f = 1 then some [(12, wBp)] else none }
def wFrame : Frame := ⟨1, wCode⟩

/-- the hypotheses are met: a breakpoint added while the frame runs untraced is hit -/
def wActs : List Act :=
  [.event {} none ⟨wFrame, 10, 0⟩ [] .call {}, .setBps (fun f => if f = 1 then some [(12, wBp)] else none)]

example : HValid (fun c => c = wCode) { cfg := {} } (wActs ++ [.event {} none ⟨wFrame, 12, 0⟩ [] .line {}]) := by
  refine ⟨?_, ?_, ?_, trivial⟩
  · simp [HOk, wFrame, wCode]
  · intro f _ hne; exact absurd rfl hne
  · refine ⟨rfl, by simp, rfl, by simp, fun _ => ?_, by simp [wFrame, wCode], by simp⟩
    simp [hstep]
example : (hrun { cfg := {} } [.event {} none ⟨wFrame, 10, 0⟩ [] .call {}]).tr wFrame = .off := by decide
example : (answer (hrun { cfg := {} } wActs) {} none ⟨wFrame, 12, 0⟩ [] .line {}).effects =
    [.hit wBp, .suspend wFrame true false] := by decide

/-- a function skipped for lack of breakpoints (`skips = 2`) and stepped into afterwards -/
def wSkipped : List Act := [.event {} none ⟨wFrame, 10, 0⟩ [] .call {}, .event {} none ⟨wFrame, 12, 0⟩ [] .ret {}]
example : (hrun { cfg := {} } wSkipped).cache.skips wCode.key = some 2 := by decide
example : HValid (fun c => c = wCode) { cfg := {} } (wSkipped ++ [.event { cmd := .into } none ⟨⟨2, wCode⟩, 10, 0⟩ [] .call {}]) := by
  refine ⟨?_, ?_, ?_, trivial⟩
  · simp [HOk, wFrame, wCode]
  · simp [HOk, wFrame, wCode, hstep]
  · simp [HOk, wCode]

/-- Two files with the same function at the same line: their code objects are equal as dictionary keys, so what is
remembered of one hides the breakpoint in the other. -/
theorem c22_identical_files :
    let other : Frame := ⟨2, { wCode with file := 2 }⟩
    let s := hrun { cfg := wCfg } [.event {} none ⟨other, 10, 0⟩ [] .call {}, .event {} none ⟨wFrame, 10, 0⟩ [] .call {}]
    lookupBp (s.cfg.bps 1) 12 = some wBp ∧ (answer s {} none ⟨wFrame, 12, 0⟩ [] .line {}).effects = [] := by
  decide

/-- A breakpoint added while an event is being processed: the event's cache write comes after the caches were
cleared, and hides the breakpoint from then on. -/
theorem c22_race :
    let s0 : Hist := { cfg := {} }
    let o := answer s0 {} none ⟨wFrame, 10, 0⟩ [] .call {}
    let s1 := hstep s0 (.setBps wCfg.bps)
    let s2 : Hist := { s1 with cache := o.writes.foldl Cache.write s1.cache }
    let s3 := hstep s2 (.event {} none ⟨⟨3, wCode⟩, 10, 0⟩ [] .call {})
    lookupBp (s3.cfg.bps 1) 12 = some wBp ∧ (answer s3 {} none ⟨⟨3, wCode⟩, 12, 0⟩ [] .line {}).effects = [] := by
  decide

/-- Smart step into disables the tracing of a callee that is not the target, with the breakpoints in it. -/
theorem c22_smart_step_hides_breakpoint :
    let caller : Frame := ⟨7, { wCode with name := c!"main", firstLine := 1, lines := [1, 2] }⟩
    let i : Info := { cmd := .smart, stop := some caller, funcName := c!"g", nextLine := 2 }
    let back : Stack := [⟨caller, 2, 0⟩]
    let s := hrun { cfg := wCfg } [.event i (some 2) ⟨wFrame, 10, 0⟩ back .call {}, .event i (some 2) ⟨wFrame, 11, 0⟩ back .line {}]
    lookupBp (s.cfg.bps 1) 12 = some wBp ∧ (answer s i (some 2) ⟨wFrame, 12, 0⟩ back .line {}).effects = [] := by
  decide

/-- Widening the filters while a filtered function runs does not trace it again. -/
theorem c22_filters_widened :
    let s := hrun { cfg := { wCfg with filtersOn := true, filter := fun _ _ => true } }
      [.event {} none ⟨wFrame, 10, 0⟩ [] .call {},
       .setFilters { filtersOn := false, filter := fun _ _ => false, fileType := fun _ => none, inScope := fun _ => true }]
    lookupBp (s.cfg.bps 1) 12 = some wBp ∧ s.cfg.filter wCode false = false ∧
    (answer s {} none ⟨wFrame, 12, 0⟩ [] .line {}).effects = [] := by
  decide

/-- A breakpoint added in a library file in the project scope while one of its functions runs is not seen by that
frame. -/
theorem c22_library_not_retraced :
    let s := hrun { cfg := { fileType := fun _ => some .lib } }
      [.event {} none ⟨wFrame, 10, 0⟩ [] .call {}, .setBps wCfg.bps]
    lookupBp (s.cfg.bps 1) 12 = some wBp ∧ (answer s {} none ⟨wFrame, 12, 0⟩ [] .line {}).effects = [] := by
  decide

end Dispatch
