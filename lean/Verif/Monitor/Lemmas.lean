import Verif.Monitor.Spec

namespace Monitor

open Py

def HeadBump (q : List Op) : Prop := q.head? = some .bump

def isWrite : Op → Bool
  | .write .. | .unset .. | .drop .. | .clear | .writeFn .. => true
  | _ => false

def isTraceOf (op : Op) (P : Code → Prop) : Prop :=
  match op with
  | .trace _ c => P c
  | _ => True

/-- every change of the breakpoints is followed by a new `mtime`, and the frames to be traced are those of the program -/
def Wf (E : Env) : List Op → Prop
  | [] => True
  | op :: q => (isWrite op = true → HeadBump q) ∧ isTraceOf op (· ∈ E.prog) ∧ Wf E q

/-- the information about `c`, computed from the current breakpoints -/
def infoOf (E : Env) (s : State) (c : Code) : Info :=
  build E c s.mtime (fileBps s c.file) (Dict.get s.fnBreaks c.name)

def PcOk (s : State) (d : Code) : Pc → Prop
  | .mtimed _ m => m ≤ s.mtime
  | .breaks _ m bs => m ≤ s.mtime ∧ (m = s.mtime → HeadBump s.queue ∨ bs = fileBps s d.file)
  | .fns _ m bs fn => m ≤ s.mtime ∧
      (m = s.mtime → HeadBump s.queue ∨ (bs = fileBps s d.file ∧ fn = Dict.get s.fnBreaks d.name))
  | _ => True

structure Base (E : Env) (s : State) : Prop where
  mem : ∀ t d, d ∈ s.stack t → d ∈ E.prog
  wait : ∀ d ∈ s.waiting, d ∈ E.prog
  tids : ∀ t, s.stack t ≠ [] → t ∈ E.tids
  top : ∀ t, s.pc t ≠ .idle → s.stack t ≠ []
  cacheLe : ∀ k i, s.cache k = some i → i.mtime ≤ s.mtime
  cacheOk : ∀ k i, s.cache k = some i → i.mtime = s.mtime → HeadBump s.queue ∨ ∀ d ∈ E.prog, d.key = k → i = infoOf E s d
  pcOk : ∀ t d rest, s.stack t = d :: rest → PcOk s d (s.pc t)
  wf : Wf E s.queue

theorem base_start (E : Env) : Base E start := by
  constructor <;> simp [start, Wf, PcOk]

theorem wf_map {E : Env} (s : State) (t : Nat) (q : List Op) (h : Wf E q) (hm : ∀ d ∈ s.stack t, d ∈ E.prog) :
    Wf E (traces s t ++ q) := by
  simp only [traces]
  revert hm
  induction s.stack t with
  | nil => intro _; simpa using h
  | cons c cs ih =>
    intro hm
    simp only [List.map_cons, List.cons_append, Wf, isWrite, isTraceOf]
    exact ⟨by simp, hm c (by simp), ih (fun d hd => hm d (by simp [hd]))⟩

theorem wf_flatMap {E : Env} (s : State) (ts : List Nat) (q : List Op) (h : Wf E q) (hm : ∀ t, ∀ d ∈ s.stack t, d ∈ E.prog) :
    Wf E (ts.flatMap (traces s) ++ q) := by
  induction ts with
  | nil => simpa using h
  | cons t ts ih => simp only [List.flatMap_cons, List.append_assoc]; exact wf_map s t _ ih (hm t)

theorem wf_ops (E : Env) (cmd : Cmd) : Wf E (ops cmd) := by
  cases cmd <;> simp [ops, changed, clearCaches, Wf, isWrite, HeadBump, isTraceOf]

theorem build_mtime (E : Env) (c : Code) (m : Nat) (bs : Bps) (fn : Option Nat) : (build E c m bs fn).mtime = m := by
  simp only [build]; repeat' split
  all_goals rfl

theorem infoNow_eq {E : Env} {s : State} (b : Base E s) (c : Code) (hc : c ∈ E.prog) (hq : ¬ HeadBump s.queue) :
    infoNow E s c = infoOf E s c := by
  simp only [infoNow]
  split
  · rename_i i hi
    split
    · rename_i hm
      rcases b.cacheOk _ _ hi hm with h | h
      · exact absurd h hq
      · exact h c hc rfl
    · rfl
  · rfl

theorem infoNow_le (E : Env) (s : State) (c : Code) : (infoNow E s c).mtime = s.mtime := by
  simp only [infoNow]
  split
  · split
    · assumption
    · exact build_mtime ..
  · exact build_mtime ..

/-- changing only what `Base` does not speak about -/
theorem base_congr {E : Env} {s s' : State} (b : Base E s) (h1 : s'.mtime = s.mtime) (h2 : s'.breaks = s.breaks)
    (h3 : s'.fnBreaks = s.fnBreaks) (h4 : s'.cache = s.cache) (h5 : s'.stack = s.stack) (h6 : s'.waiting = s.waiting)
    (h7 : s'.pc = s.pc) (h8 : Wf E s'.queue) (h9 : HeadBump s.queue → HeadBump s'.queue) : Base E s' := by
  have hf : ∀ f, fileBps s' f = fileBps s f := by intro f; simp [fileBps, h2]
  refine ⟨?_, ?_, ?_, ?_, ?_, ?_, ?_, h8⟩
  · rw [h5]; exact b.mem
  · rw [h6]; exact b.wait
  · rw [h5]; exact b.tids
  · rw [h5, h7]; exact b.top
  · rw [h4, h1]; exact b.cacheLe
  · rw [h4, h1]; intro k i hi hm
    rcases b.cacheOk k i hi hm with h | h
    · exact .inl (h9 h)
    · right; intro d hd hk; rw [h d hd hk]; simp [infoOf, hf, h1, h3]
  · rw [h5, h7]; intro t d rest ht
    have := b.pcOk t d rest ht
    revert this
    cases s.pc t <;> simp only [PcOk, hf, h1, h3] <;> grind

/-- a new position of a thread -/
theorem base_setPc {E : Env} {s : State} (b : Base E s) (t : Nat) (p : Pc) (h1 : p ≠ .idle → s.stack t ≠ [])
    (h2 : ∀ d rest, s.stack t = d :: rest → PcOk s d p) : Base E (setPc s t p) := by
  refine ⟨b.mem, b.wait, b.tids, ?_, b.cacheLe, b.cacheOk, ?_, b.wf⟩
  · intro u hu
    simp only [setPc] at hu ⊢
    split at hu
    · rename_i h; subst h; exact h1 hu
    · exact b.top u hu
  · intro u d rest hu
    have : s.stack u = d :: rest := hu
    simp only [setPc]
    split
    · rename_i h; subst h; exact (by have := h2 d rest this; revert this; cases p <;> simp [PcOk, fileBps])
    · have := b.pcOk u d rest this
      revert this; cases s.pc u <;> simp [PcOk, fileBps]

/-- storing information in the cache -/
theorem base_setCache {E : Env} {s : State} (b : Base E s) (k : Key) (i : Info) (h1 : i.mtime ≤ s.mtime)
    (h2 : i.mtime = s.mtime → HeadBump s.queue ∨ ∀ d ∈ E.prog, d.key = k → i = infoOf E s d) : Base E (setCache s k i) := by
  refine ⟨b.mem, b.wait, b.tids, b.top, ?_, ?_, ?_, b.wf⟩
  · intro k' j hj
    simp only [setCache] at hj ⊢
    split at hj
    · cases hj; exact h1
    · exact b.cacheLe k' j hj
  · intro k' j hj hm
    simp only [setCache] at hj hm
    split at hj
    · rename_i hk; cases hj; rw [hk]; exact h2 hm
    · exact b.cacheOk k' j hj hm
  · intro u d rest hu
    have := b.pcOk u d rest hu
    revert this; simp only [setCache]; cases s.pc u <;> simp [PcOk, fileBps]

theorem base_setStack {E : Env} {s : State} (b : Base E s) (t : Nat) (cs : List Code) (w : List Code) (hi : s.pc t = .idle)
    (h1 : ∀ d ∈ cs, d ∈ E.prog) (h2 : t ∈ E.tids) (h3 : ∀ d ∈ w, d ∈ E.prog) :
    Base E { setStack s t cs with waiting := w } := by
  refine ⟨?_, h3, ?_, ?_, b.cacheLe, b.cacheOk, ?_, b.wf⟩
  · intro u d hd
    simp only [setStack] at hd
    split at hd
    · exact h1 d hd
    · exact b.mem u d hd
  · intro u hu
    simp only [setStack] at hu
    split at hu
    · rename_i h; exact h ▸ h2
    · exact b.tids u hu
  · intro u hu
    simp only [setStack] at hu ⊢
    split
    · rename_i h; subst h; exact absurd hi hu
    · exact b.top u hu
  · intro u d rest hu
    simp only [setStack] at hu ⊢
    split at hu
    · rename_i h; subst h; simp [hi, PcOk]
    · have := b.pcOk u d rest hu
      revert this; cases s.pc u <;> simp [PcOk, fileBps]

theorem startDone_fields (s : State) (t : Nat) (c : Code) (i : Info) :
    let s' := startDone s t c i
    s'.mtime = s.mtime ∧ s'.breaks = s.breaks ∧ s'.fnBreaks = s.fnBreaks ∧ s'.cache = s.cache ∧ s'.stack = s.stack ∧
      s'.waiting = s.waiting ∧ s'.pc = s.pc ∧ s'.queue = s.queue ∧ s'.active = s.active ∧ s'.lineOff = s.lineOff := by
  simp only [startDone, lineEvents, offStart]
  repeat' split
  all_goals simp

theorem lineDone_fields (s : State) (t : Nat) (c : Code) (l : Nat) (i : Info) :
    let s' := lineDone s t c l i
    s'.mtime = s.mtime ∧ s'.breaks = s.breaks ∧ s'.fnBreaks = s.fnBreaks ∧ s'.cache = s.cache ∧ s'.stack = s.stack ∧
      s'.waiting = s.waiting ∧ s'.pc = s.pc ∧ s'.queue = s.queue ∧ s'.active = s.active ∧ s'.startOff = s.startOff ∧
      s'.lineOn = s.lineOn := by
  simp only [lineDone, offLine]
  repeat' split
  all_goals simp

theorem startDone_startOff (s : State) (t : Nat) (c : Code) (i : Info) (d : Code) :
    (startDone s t c i).startOff d =
      if d = c ∧ (i.skip = true ∨ (i.fn = none ∧ ¬ Traced s t i ∧ s.stepping = false)) then true else s.startOff d := by
  simp only [startDone, lineEvents, offStart]
  cases i.skip <;> cases i.fn <;> by_cases h : Traced s t i <;> cases s.stepping <;> by_cases hd : d = c <;> simp [h, hd]

theorem startDone_lineOn (s : State) (t : Nat) (c : Code) (i : Info) (d : Code) :
    (startDone s t c i).lineOn d = if d = c ∧ i.skip = false ∧ Traced s t i then true else s.lineOn d := by
  simp only [startDone, lineEvents, offStart]
  cases i.skip <;> cases i.fn <;> by_cases h : Traced s t i <;> cases s.stepping <;> by_cases hd : d = c <;> simp [h, hd]

theorem lineDone_lineOff (s : State) (t : Nat) (c : Code) (l : Nat) (i : Info) (d : Code) (k : Nat) :
    (lineDone s t c l i).lineOff d k =
      if d = c ∧ k = l ∧ ((i.skip = true ∨ i.filtered = true) ∨
        (Py.Dict.get i.bps l = none ∧ s.pausing t = false ∧ i.bps = [] ∧ s.stepping = false)) then true else s.lineOff d k := by
  simp only [lineDone, offLine]
  cases i.skip <;> cases i.filtered <;> cases Py.Dict.get i.bps l <;> cases s.pausing t <;> cases s.stepping <;>
    by_cases hb : i.bps = [] <;> simp [hb] <;> grind

theorem build_excluded (E : Env) (c : Code) (m : Nat) (bs bs' : Bps) (fn fn' : Option Nat)
    (h : E.skip c = true ∨ E.filtered c = true) : build E c m bs fn = build E c m bs' fn' := by
  simp only [build]; grind

theorem base_handle {E : Env} {s s' : State} (hd : Distinct E) (b : Base E s) (t : Nat) (c : Code) (rest : List Code)
    (hs : s.stack t = c :: rest) (h : handle E s t c = some s') : Base E s' := by
  have hc : c ∈ E.prog := b.mem t c (by simp [hs])
  have hne : s.stack t ≠ [] := by simp [hs]
  have hcd : ∀ d r, s.stack t = d :: r → d = c := by intro d r h; rw [hs] at h; exact (List.cons.inj h).1.symm
  have hp := b.pcOk t c rest hs
  unfold handle at h
  split at h <;> rename_i hpc
  · cases h
  · split at h
    · cases h
      refine base_setPc b t _ (fun _ => hne) ?_
      intro d r _; split <;> simp [PcOk]
    · cases h
      exact base_setPc b t _ (fun _ => hne) (by intro d r _; simp [PcOk])
  · cases h
    exact base_setPc b t _ (fun _ => hne) (by intro d r _; simp [PcOk])
  · rw [hpc] at hp
    simp only [PcOk] at hp
    split at h
    · cases h
      refine base_setPc (base_setCache b _ _ (by rw [build_mtime]; exact hp) ?_) t _ (fun _ => hne) (by intro d r _; simp [PcOk])
      intro hm
      right
      intro d hdp hk
      have := hd d hdp c hc hk; subst this
      rw [build_mtime] at hm; subst hm
      simp only [infoOf]
      exact build_excluded E _ _ _ _ _ _ (by assumption)
    · cases h
      refine base_setPc b t _ (fun _ => hne) ?_
      intro d r hdr
      have := hcd d r hdr; subst this
      exact ⟨hp, fun _ => .inr rfl⟩
  · rw [hpc] at hp
    simp only [PcOk] at hp
    cases h
    refine base_setPc b t _ (fun _ => hne) ?_
    intro d r hdr
    have := hcd d r hdr; subst this
    refine ⟨hp.1, fun hm => ?_⟩
    rcases hp.2 hm with h | h
    · exact .inl h
    · exact .inr ⟨h, rfl⟩
  · rw [hpc] at hp
    simp only [PcOk] at hp
    cases h
    refine base_setPc (base_setCache b _ _ (by rw [build_mtime]; exact hp.1) ?_) t _ (fun _ => hne) (by intro d r _; simp [PcOk])
    intro hm
    rw [build_mtime] at hm
    rcases hp.2 hm with h | ⟨h, h'⟩
    · exact .inl h
    · right; intro d hdp hk
      have := hd d hdp c hc hk; subst this
      simp [infoOf, hm, h, h']
  · cases h
    obtain ⟨g1, g2, g3, g4, g5, g6, g7, g8, -⟩ := startDone_fields s t c ‹Info›
    refine base_setPc (base_congr b g1 g2 g3 g4 g5 g6 g7 (by rw [g8]; exact b.wf) (by rw [g8]; exact id)) t _ (by simp) (by simp [PcOk])
  · cases h
    obtain ⟨g1, g2, g3, g4, g5, g6, g7, g8, -⟩ := lineDone_fields s t c ‹Nat› ‹Info›
    refine base_setPc (base_congr b g1 g2 g3 g4 g5 g6 g7 (by rw [g8]; exact b.wf) (by rw [g8]; exact id)) t _ (by simp) (by simp [PcOk])

theorem base_bump {E : Env} {s : State} (b : Base E s) (q : List Op) (hq : Wf E q) :
    Base E { s with mtime := s.mtime + 1, queue := q } := by
  refine ⟨b.mem, b.wait, b.tids, b.top, ?_, ?_, ?_, hq⟩
  · intro k i hi; have := b.cacheLe k i hi; simp only; omega
  · intro k i hi hm; have := b.cacheLe k i hi; simp only at hm; omega
  · intro t d rest ht
    have := b.pcOk t d rest ht
    revert this
    simp only
    cases s.pc t <;> simp only [PcOk] <;> grind

/-- a change of the breakpoints; the next step is a new `mtime` -/
theorem base_write {E : Env} {s : State} (b : Base E s) (bk : List (Nat × Bps)) (fn : List (Nat × Nat)) (q : List Op) (hq : Wf E q)
    (hb : HeadBump q) : Base E { s with breaks := bk, fnBreaks := fn, queue := q } := by
  refine ⟨b.mem, b.wait, b.tids, b.top, b.cacheLe, fun _ _ _ _ => .inl hb, ?_, hq⟩
  intro t d rest ht
  have := b.pcOk t d rest ht
  revert this
  simp only
  cases s.pc t <;> simp only [PcOk] <;> grind

theorem traceFrame_fields (E : Env) (s : State) (t : Nat) (c : Code) :
    let s' := traceFrame E s t c
    s'.mtime = s.mtime ∧ s'.breaks = s.breaks ∧ s'.fnBreaks = s.fnBreaks ∧ s'.cache = (setCache s c.key (infoNow E s c)).cache ∧
      s'.stack = s.stack ∧ s'.waiting = s.waiting ∧ s'.pc = s.pc ∧ s'.queue = s.queue ∧ s'.active = s.active ∧
      s'.startOff = s.startOff ∧ s'.lineOff = s.lineOff := by
  simp only [traceFrame]
  repeat' split
  all_goals exact ⟨rfl, rfl, rfl, rfl, rfl, rfl, rfl, rfl, rfl, rfl, rfl⟩

theorem base_trace {E : Env} {s : State} (hd : Distinct E) (b : Base E s) (t : Nat) (c : Code) (hc : c ∈ E.prog)
    (hq : ¬ HeadBump s.queue) : Base E (traceFrame E s t c) := by
  have key : Base E (setCache s c.key (infoNow E s c)) := by
    refine base_setCache b _ _ (Nat.le_of_eq (infoNow_le E s c)) (fun _ => .inr ?_)
    intro d hdp hk
    have := hd d hdp c hc hk; subst this
    exact infoNow_eq b d hdp hq
  obtain ⟨g1, g2, g3, g4, g5, g6, g7, g8, -⟩ := traceFrame_fields E s t c
  exact base_congr key g1 g2 g3 g4 g5 g6 g7 (by rw [g8]; exact b.wf) (by rw [g8]; exact id)

/-- dropping the first step of the command, which is not a new `mtime` -/
theorem base_next {E : Env} {s s' : State} (b : Base E s) (op : Op) (rest : List Op) (hq : s.queue = op :: rest) (hop : op ≠ .bump)
    (h1 : s'.mtime = s.mtime) (h2 : s'.breaks = s.breaks)
    (h3 : s'.fnBreaks = s.fnBreaks) (h4 : s'.cache = s.cache) (h5 : s'.stack = s.stack) (h6 : s'.waiting = s.waiting)
    (h7 : s'.pc = s.pc) (h8 : Wf E s'.queue) : Base E s' :=
  base_congr b h1 h2 h3 h4 h5 h6 h7 h8 (by intro h; rw [hq] at h; simp [HeadBump] at h; exact absurd h hop)

theorem base_exec {E : Env} {s : State} (hd : Distinct E) (b : Base E s) (op : Op) (rest : List Op) (hq : s.queue = op :: rest) :
    Base E (exec E s op rest) := by
  have hw := b.wf
  rw [hq] at hw
  obtain ⟨w1, w2, w3⟩ := hw
  cases op with
  | write f bs => exact base_write b _ _ rest w3 (w1 rfl)
  | unset f l => exact base_write b _ _ rest w3 (w1 rfl)
  | drop f => exact base_write b _ _ rest w3 (w1 rfl)
  | clear => exact base_write b _ _ rest w3 (w1 rfl)
  | writeFn d => exact base_write b _ _ rest w3 (w1 rfl)
  | bump => exact base_bump b rest w3
  | update r => exact base_next b _ rest hq (by simp) rfl rfl rfl rfl rfl rfl rfl w3
  | restart => exact base_next b _ rest hq (by simp) rfl rfl rfl rfl rfl rfl rfl w3
  | snapshot => exact base_next b _ rest hq (by simp) rfl rfl rfl rfl rfl rfl rfl (wf_flatMap s _ _ w3 b.mem)
  | snapshotOf t => exact base_next b _ rest hq (by simp) rfl rfl rfl rfl rfl rfl rfl (wf_map s _ _ w3 (b.mem t))
  | trace t c =>
    have hb := base_trace hd b t c w2 (by simp [hq, HeadBump])
    have hq' : (traceFrame E s t c).queue = .trace t c :: rest := by
      obtain ⟨_, _, _, _, _, _, _, g8, _⟩ := traceFrame_fields E s t c
      rw [g8, hq]
    exact base_next hb _ rest hq' (by simp) rfl rfl rfl rfl rfl rfl rfl w3
  | mark t => exact base_next b _ rest hq (by simp) rfl rfl rfl rfl rfl rfl rfl w3

theorem base_step {E : Env} {s s' : State} (hd : Distinct E) (b : Base E s) (a : Action) (h : step E s a = some s') : Base E s' := by
  cases a with
  | begin cmd =>
    simp only [step] at h
    split at h
    · rename_i hq
      cases h
      exact base_congr b rfl rfl rfl rfl rfl rfl rfl (wf_ops E cmd) (by rw [hq]; simp [HeadBump])
    · cases h
  | work =>
    simp only [step] at h
    split at h
    · cases h
    · rename_i op rest hq; cases h; exact base_exec hd b op rest hq
  | call t c =>
    simp only [step] at h
    split at h
    · rename_i hc
      have hs : Base E (setStack s t (c :: s.stack t)) := base_setStack b t _ s.waiting hc.1
        (by intro d hd; rcases List.mem_cons.1 hd with h | h; exact h ▸ hc.2.1; exact b.mem t d h) hc.2.2 b.wait
      cases h
      split
      · exact base_setPc hs t _ (by intro _; simp [setStack]) (by intro d r _; simp [PcOk])
      · exact hs
    · cases h
  | ret t =>
    simp only [step] at h
    split at h
    · cases h
    · rename_i c cs hs
      split at h
      · rename_i hi
        cases h
        exact base_setStack b t _ s.waiting hi (fun d hd => b.mem t d (by simp [hs, hd])) (b.tids t (by simp [hs])) b.wait
      · cases h
  | yield t =>
    simp only [step] at h
    split at h
    · cases h
    · rename_i c cs hs
      split at h
      · rename_i hi
        cases h
        exact base_setStack b t _ _ hi (fun d hd => b.mem t d (by simp [hs, hd])) (b.tids t (by simp [hs]))
          (by intro d hd; rcases List.mem_cons.1 hd with h | h; exact b.mem t d (by simp [hs, h]); exact b.wait d h)
      · cases h
  | resume t c =>
    simp only [step] at h
    split at h
    · rename_i hc
      cases h
      exact base_setStack b t _ _ hc.1
        (by intro d hd; rcases List.mem_cons.1 hd with h | h; exact h ▸ b.wait c hc.2.1; exact b.mem t d h) hc.2.2
        (fun d hd => b.wait d (List.mem_of_mem_erase hd))
    · cases h
  | run t l =>
    simp only [step] at h
    split at h
    · cases h
    · rename_i c cs hs
      split at h
      · cases h
        split
        · exact base_setPc b t _ (by intro _; simp [hs]) (by intro d r _; simp [PcOk])
        · exact b
      · cases h
  | handle t =>
    simp only [step] at h
    split at h
    · cases h
    · rename_i c cs hs
      exact base_handle hd b t c cs hs h
  | stepping v => cases h; exact base_congr b rfl rfl rfl rfl rfl rfl rfl b.wf id
  | enable c => cases h; exact base_congr b rfl rfl rfl rfl rfl rfl rfl b.wf id

theorem base_run {E : Env} {s s' : State} (hd : Distinct E) (b : Base E s) (acts : List Action) (h : run E s acts = some s') :
    Base E s' := by
  induction acts generalizing s with
  | nil => cases h; exact b
  | cons a as ih =>
    simp only [run] at h
    split at h
    · rename_i s1 h1; exact ih (base_step hd b a h1) h
    · cases h

end Monitor
