import Verif.Terminate.Spec

/-!
Invariants of the termination of child processes.
-/

namespace Terminate

open Spec

/-- Descendants as the routine sees them. -/
abbrev Desc (cfg : Cfg) (ps : List Proc) (d : Nat) : Prop := Descends (fun n => skips cfg n = true) cfg.root ps d

theorem Spec.Descends.mono {sp : Nat → Prop} {r : Nat} {ps ps' : List Proc}
    (h : ∀ p ∈ ps, ∃ p' ∈ ps', p'.pid = p.pid ∧ p'.creator = p.creator) {d : Nat}
    (hd : Descends sp r ps d) : Descends sp r ps' d := by
  induction hd with
  | child p hp hc hs =>
    obtain ⟨p', hp', h1, h2⟩ := h p hp
    rw [← h1]
    exact .child p' hp' (h2 ▸ hc) (h1 ▸ hs)
  | further q p _ hp hc hs ih =>
    obtain ⟨p', hp', h1, h2⟩ := h p hp
    rw [← h1]
    exact .further q p' ih hp' (h2 ▸ hc) (h1 ▸ hs)

theorem Spec.Descends.weaken {sp sp' : Nat → Prop} {r : Nat} {ps : List Proc} (h : ∀ n, sp' n → sp n) {d : Nat}
    (hd : Descends sp r ps d) : Descends sp' r ps d := by
  induction hd with
  | child p hp hc hs => exact .child p hp hc (fun x => hs (h _ x))
  | further q p _ hp hc hs ih => exact .further q p ih hp hc (fun x => hs (h _ x))

theorem Spec.Descends.mem {sp : Nat → Prop} {r : Nat} {ps : List Proc} {d : Nat} (hd : Descends sp r ps d) :
    ∃ p ∈ ps, p.pid = d ∧ ¬ sp d := by
  cases hd with
  | child p hp hc hs => exact ⟨p, hp, rfl, hs⟩
  | further q p _ hp hc hs => exact ⟨p, hp, rfl, hs⟩

/-- The table changes without a fork. -/
structure Evolve (ps ps' : List Proc) : Prop where
  fwd : ∀ p ∈ ps, ∃ p' ∈ ps', p'.pid = p.pid ∧ p'.creator = p.creator
  bwd : ∀ p' ∈ ps', ∃ p ∈ ps, p.pid = p'.pid ∧ p.creator = p'.creator ∧ (p.alive = false → p'.alive = false) ∧
    (p.stopped = true → p'.stopped = true)
  uniq : (∀ p ∈ ps, ∀ q ∈ ps, p.pid = q.pid → p = q) → ∀ p ∈ ps', ∀ q ∈ ps', p.pid = q.pid → p = q

theorem Evolve.ofMap (f : Proc → Proc) (ps : List Proc)
    (h : ∀ p, (f p).pid = p.pid ∧ (f p).creator = p.creator ∧ (p.alive = false → (f p).alive = false) ∧
      (p.stopped = true → (f p).stopped = true)) : Evolve ps (ps.map f) where
  fwd p hp := ⟨f p, List.mem_map_of_mem hp, (h p).1, (h p).2.1⟩
  bwd p' hp' := by
    obtain ⟨p, hp, rfl⟩ := List.mem_map.1 hp'
    exact ⟨p, hp, (h p).1.symm, (h p).2.1.symm, (h p).2.2.1, (h p).2.2.2⟩
  uniq hu p hp q hq hpq := by
    obtain ⟨p0, hp0, rfl⟩ := List.mem_map.1 hp
    obtain ⟨q0, hq0, rfl⟩ := List.mem_map.1 hq
    rw [(h p0).1, (h q0).1] at hpq
    rw [hu p0 hp0 q0 hq0 hpq]

theorem evolve_stop (x : Nat) (ps : List Proc) : Evolve ps (stop x ps) := by
  apply Evolve.ofMap
  intro p
  split <;> simp

theorem evolve_die (x : Nat) (ps : List Proc) : Evolve ps (die x ps) := by
  apply Evolve.ofMap
  intro p
  repeat' split
  all_goals simp

theorem evolve_reap (x : Nat) (ps : List Proc) :
    Evolve ps (ps.map (fun q => if q.pid = x ∧ ¬ q.alive then { q with reaped := true } else q)) := by
  apply Evolve.ofMap
  intro p
  split <;> simp

theorem Evolve.desc {ps ps' : List Proc} (h : Evolve ps ps') {sp : Nat → Prop} {r d : Nat} :
    Descends sp r ps' d ↔ Descends sp r ps d := by
  constructor
  · apply Descends.mono
    intro p hp
    obtain ⟨q, hq, h1, h2, _⟩ := h.bwd p hp
    exact ⟨q, hq, h1, h2⟩
  · exact Descends.mono h.fwd

/-- Facts about the table alone. -/
structure TableInv (cfg : Cfg) (ps : List Proc) : Prop where
  uniq : ∀ p ∈ ps, ∀ q ∈ ps, p.pid = q.pid → p = q
  pos : ∀ p ∈ ps, p.pid ≠ 0
  waited : ∀ p ∈ ps, p.reaped = true → p.alive = false
  creators : ∀ p ∈ ps, p.creator = 0 ∨ ∃ q ∈ ps, q.pid = p.creator
  par : ∀ p ∈ ps, p.ppid = p.creator ∨ (p.ppid = 0 ∧ ∃ q ∈ ps, q.pid = p.creator ∧ q.alive = false)
  deadpar : ∀ p ∈ ps, ∀ q ∈ ps, q.alive = false → p.creator = q.pid → p.ppid = 0
  here : ∃ p ∈ ps, p.pid = cfg.root ∧ p.alive = true
  notOwn : ¬ Descends (fun _ => False) cfg.root ps cfg.root

def Dead (ps : List Proc) (d : Nat) : Prop := ∀ p ∈ ps, p.pid = d → p.alive = false
def Halted (ps : List Proc) (d : Nat) : Prop := ∀ p ∈ ps, p.pid = d → p.stopped = true ∨ p.alive = false
/-- The children of `r` are dead or in `l`. -/
def Handled (cfg : Cfg) (ps : List Proc) (r : Nat) (l : List Nat) : Prop :=
  ∀ p ∈ ps, p.creator = r → skips cfg p.pid = false → p.alive = false ∨ p.pid ∈ l
/-- The children of the process itself that were there when it was last listed are in `l`. -/
def RootListed (cfg : Cfg) (asked : List Proc) (l : List Nat) : Prop :=
  ∀ p ∈ asked, p.creator = cfg.root → skips cfg p.pid = false → p.reaped = false → p.pid ∈ l

theorem Dead.evolve {ps ps' : List Proc} (h : Evolve ps ps') {d : Nat} (hd : Dead ps d) : Dead ps' d := by
  intro p hp he
  obtain ⟨q, hq, h1, _, h3, _⟩ := h.bwd p hp
  exact h3 (hd q hq (h1.trans he))

theorem Halted.evolve {ps ps' : List Proc} (h : Evolve ps ps') {d : Nat} (hd : Halted ps d) : Halted ps' d := by
  intro p hp he
  obtain ⟨q, hq, h1, _, h3, h4⟩ := h.bwd p hp
  exact (hd q hq (h1.trans he)).imp h4 h3

theorem Handled.evolve {cfg : Cfg} {ps ps' : List Proc} (h : Evolve ps ps') {d : Nat} {l : List Nat}
    (hd : Handled cfg ps d l) : Handled cfg ps' d l := by
  intro p hp he hs
  obtain ⟨q, hq, h1, h2, h3, _⟩ := h.bwd p hp
  rw [← h1] at hs ⊢
  exact (hd q hq (h2.trans he) hs).imp h3 id

theorem Handled.mono {cfg : Cfg} {ps : List Proc} {r : Nat} {l l' : List Nat} (hd : Handled cfg ps r l)
    (h : ∀ x ∈ l, x ∈ l' ∨ Dead ps x) : Handled cfg ps r l' := by
  intro p hp he hs
  rcases hd p hp he hs with h1 | h1
  · exact .inl h1
  · rcases h _ h1 with h2 | h2
    · exact .inr h2
    · exact .inl (h2 p hp rfl)

/-- The children of every dead process are dead or in `l`. -/
def Closed (cfg : Cfg) (ps : List Proc) (l : List Nat) : Prop :=
  ∀ q ∈ ps, q.alive = false → Handled cfg ps q.pid l

/-- What holds where the routine is. -/
def AtPc (cfg : Cfg) (s : State) : Prop :=
  match s.pc with
  | .begin n => Closed cfg s.procs [] ∧ n ≤ 50 ∧
      (n < 50 → RootListed cfg s.asked s.found ∧ 49 ≤ s.askedForks + n)
  | .query n pid todo out => Closed cfg s.procs [] ∧ n < 50 ∧
      ((pid = cfg.root ∧ todo = [] ∧ out = [] ∧
          (n < 49 → RootListed cfg s.asked s.found ∧ 49 ≤ s.askedForks + n + 1)) ∨
       (pid ∈ out ∧ (∀ r ∈ out, Halted s.procs r ∧ (r ≠ pid → Handled cfg s.procs r (out ++ todo))) ∧
        (∀ r ∈ out ++ todo, Desc cfg s.procs r) ∧ RootListed cfg s.asked (out ++ todo) ∧
        ((∀ r ∈ out ++ todo, r ∈ s.found) ∨ 49 ≤ s.askedForks + n)))
  | .visit n todo out => Closed cfg s.procs [] ∧ n < 50 ∧
      (∀ r ∈ out, Halted s.procs r ∧ Handled cfg s.procs r (out ++ todo)) ∧
      (∀ r ∈ out ++ todo, Desc cfg s.procs r) ∧ RootListed cfg s.asked (out ++ todo) ∧
      ((∀ r ∈ out ++ todo, r ∈ s.found) ∨ 49 ≤ s.askedForks + n)
  | .killing n rest fn => Closed cfg s.procs rest ∧ n < 50 ∧
      (∀ r ∈ rest, Halted s.procs r ∧ Handled cfg s.procs r rest) ∧
      (∀ r ∈ rest, Desc cfg s.procs r) ∧ RootListed cfg s.asked (rest ++ s.found) ∧
      ((fn = false ∧ ∀ r ∈ rest, r ∈ s.found) ∨ 49 ≤ s.askedForks + n)
  | .settled => Closed cfg s.procs [] ∧ RootListed cfg s.asked s.found
  | .exhausted => 49 ≤ s.askedForks

structure Inv (cfg : Cfg) (s : State) : Prop where
  table : TableInv cfg s.procs
  found : ∀ d ∈ s.found, Desc cfg s.procs d ∧ Dead s.procs d
  /-- the table when the process was last listed -/
  asked : ∀ p ∈ s.asked, ∃ q ∈ s.procs, q.pid = p.pid ∧ q.creator = p.creator ∧ (p.reaped = true → q.alive = false)
  forks : s.askedForks ≤ s.forks
  /-- without a fork since then, its children are the ones listed -/
  same : (s.pc ≠ .begin 50 ∧ (∀ pid todo out, s.pc = .query 49 pid todo out → pid ≠ cfg.root)) →
    s.forks = s.askedForks →
    ∀ p ∈ s.procs, p.creator = cfg.root → ∃ q ∈ s.asked, q.pid = p.pid ∧ q.creator = p.creator ∧
      (q.reaped = true → p.reaped = true)
  atPc : AtPc cfg s

theorem root_not_desc {cfg : Cfg} {ps : List Proc} (h : TableInv cfg ps) : ¬ Desc cfg ps cfg.root :=
  fun hd => h.notOwn (hd.weaken (fun _ => False.elim))

theorem zero_not_desc {cfg : Cfg} {ps : List Proc} (h : TableInv cfg ps) : ¬ Desc cfg ps 0 := by
  intro hd
  obtain ⟨p, hp, h0, _⟩ := hd.mem
  exact h.pos p hp h0

theorem tableInv_stop {cfg : Cfg} {ps : List Proc} (h : TableInv cfg ps) (x : Nat) : TableInv cfg (stop x ps) := by
  have ev := evolve_stop x ps
  have hb : ∀ p' ∈ stop x ps, ∃ p ∈ ps, p.pid = p'.pid ∧ p.creator = p'.creator ∧ p.alive = p'.alive ∧
      p.ppid = p'.ppid ∧ p.reaped = p'.reaped := by
    intro p' hp'
    obtain ⟨p, hp, rfl⟩ := List.mem_map.1 hp'
    refine ⟨p, hp, ?_⟩
    split <;> simp
  have hf : ∀ p ∈ ps, ∃ p' ∈ stop x ps, p.pid = p'.pid ∧ p.creator = p'.creator ∧ p.alive = p'.alive ∧
      p.ppid = p'.ppid ∧ p.reaped = p'.reaped := by
    intro p hp
    refine ⟨_, List.mem_map_of_mem hp, ?_⟩
    split <;> simp
  refine ⟨ev.uniq h.uniq, ?_, ?_, ?_, ?_, ?_, ?_, fun hd => h.notOwn (ev.desc.1 hd)⟩
  · intro p hp
    obtain ⟨q, hq, h1, _⟩ := hb p hp
    exact h1 ▸ h.pos q hq
  · intro p hp hr
    obtain ⟨q, hq, h1, h2, h3, h4, h5⟩ := hb p hp
    exact h3 ▸ h.waited q hq (h5.trans hr)
  · intro p hp
    obtain ⟨q, hq, h1, h2, h3, h4, h5⟩ := hb p hp
    rcases h.creators q hq with h0 | ⟨r, hr, hrc⟩
    · exact .inl (h2 ▸ h0)
    · obtain ⟨r', hr', g1, _⟩ := hf r hr
      exact .inr ⟨r', hr', by rw [← g1, hrc, h2]⟩
  · intro p hp
    obtain ⟨q, hq, h1, h2, h3, h4, h5⟩ := hb p hp
    rcases h.par q hq with h0 | ⟨h0, r, hr, hrc, hra⟩
    · exact .inl (by rw [← h4, ← h2, h0])
    · obtain ⟨r', hr', g1, g2, g3, _⟩ := hf r hr
      exact .inr ⟨by rw [← h4, h0], r', hr', by rw [← g1, hrc, h2], by rw [← g3, hra]⟩
  · intro p hp q hq ha hc
    obtain ⟨p0, hp0, h1, h2, h3, h4, h5⟩ := hb p hp
    obtain ⟨q0, hq0, g1, g2, g3, g4, g5⟩ := hb q hq
    rw [← h4]
    exact h.deadpar p0 hp0 q0 hq0 (g3.trans ha) (by rw [h2, hc, g1])
  · obtain ⟨p, hp, h1, h2⟩ := h.here
    obtain ⟨p', hp', g1, g2, g3, _⟩ := hf p hp
    exact ⟨p', hp', by rw [← g1, h1], by rw [← g3, h2]⟩

theorem tableInv_reap {cfg : Cfg} {ps : List Proc} (h : TableInv cfg ps) (x : Nat) :
    TableInv cfg (ps.map (fun q => if q.pid = x ∧ ¬ q.alive then { q with reaped := true } else q)) := by
  have ev := evolve_reap x ps
  have hb : ∀ p' ∈ ps.map (fun q => if q.pid = x ∧ ¬ q.alive then { q with reaped := true } else q), ∃ p ∈ ps,
      p.pid = p'.pid ∧ p.creator = p'.creator ∧ p.alive = p'.alive ∧
      p.ppid = p'.ppid ∧ (p'.reaped = true → p.reaped = true ∨ p.alive = false) := by
    intro p' hp'
    obtain ⟨p, hp, rfl⟩ := List.mem_map.1 hp'
    refine ⟨p, hp, ?_⟩
    split
    · rename_i hc
      simp at hc
      simp [hc.2]
    · simp
      exact fun h => .inl h
  have hf : ∀ p ∈ ps, ∃ p' ∈ ps.map (fun q => if q.pid = x ∧ ¬ q.alive then { q with reaped := true } else q),
      p.pid = p'.pid ∧ p.creator = p'.creator ∧ p.alive = p'.alive ∧ p.ppid = p'.ppid := by
    intro p hp
    refine ⟨_, List.mem_map_of_mem hp, ?_⟩
    split <;> simp
  refine ⟨ev.uniq h.uniq, ?_, ?_, ?_, ?_, ?_, ?_, fun hd => h.notOwn (ev.desc.1 hd)⟩
  · intro p hp
    obtain ⟨q, hq, h1, _⟩ := hb p hp
    exact h1 ▸ h.pos q hq
  · intro p hp hr
    obtain ⟨q, hq, h1, h2, h3, h4, h5⟩ := hb p hp
    rw [← h3]
    rcases h5 hr with h6 | h6
    · exact h.waited q hq h6
    · exact h6
  · intro p hp
    obtain ⟨q, hq, h1, h2, h3, h4, h5⟩ := hb p hp
    rcases h.creators q hq with h0 | ⟨r, hr, hrc⟩
    · exact .inl (h2 ▸ h0)
    · obtain ⟨r', hr', g1, _⟩ := hf r hr
      exact .inr ⟨r', hr', by rw [← g1, hrc, h2]⟩
  · intro p hp
    obtain ⟨q, hq, h1, h2, h3, h4, h5⟩ := hb p hp
    rcases h.par q hq with h0 | ⟨h0, r, hr, hrc, hra⟩
    · exact .inl (by rw [← h4, ← h2, h0])
    · obtain ⟨r', hr', g1, g2, g3, _⟩ := hf r hr
      exact .inr ⟨by rw [← h4, h0], r', hr', by rw [← g1, hrc, h2], by rw [← g3, hra]⟩
  · intro p hp q hq ha hc
    obtain ⟨p0, hp0, h1, h2, h3, h4, h5⟩ := hb p hp
    obtain ⟨q0, hq0, g1, g2, g3, g4, g5⟩ := hb q hq
    rw [← h4]
    exact h.deadpar p0 hp0 q0 hq0 (g3.trans ha) (by rw [h2, hc, g1])
  · obtain ⟨p, hp, h1, h2⟩ := h.here
    obtain ⟨p', hp', g1, g2, g3, _⟩ := hf p hp
    exact ⟨p', hp', by rw [← g1, h1], by rw [← g3, h2]⟩

theorem mem_die {x : Nat} {ps : List Proc} {p' : Proc} (h : p' ∈ die x ps) :
    ∃ p ∈ ps, p.pid = p'.pid ∧ p.creator = p'.creator ∧ p.reaped = p'.reaped ∧
      p'.ppid = (if p.ppid = x then 0 else p.ppid) ∧ p'.alive = (if p.pid = x then false else p.alive) := by
  obtain ⟨p, hp, rfl⟩ := List.mem_map.1 h
  refine ⟨p, hp, ?_⟩
  repeat' split
  all_goals simp_all

theorem die_mem {x : Nat} {ps : List Proc} {p : Proc} (h : p ∈ ps) :
    ∃ p' ∈ die x ps, p.pid = p'.pid ∧ p.creator = p'.creator ∧ p.reaped = p'.reaped ∧
      p'.ppid = (if p.ppid = x then 0 else p.ppid) ∧ p'.alive = (if p.pid = x then false else p.alive) := by
  refine ⟨_, List.mem_map_of_mem h, ?_⟩
  repeat' split
  all_goals simp_all

theorem tableInv_die {cfg : Cfg} {ps : List Proc} (h : TableInv cfg ps) (x : Nat) (hx : x ≠ cfg.root) :
    TableInv cfg (die x ps) := by
  have ev := evolve_die x ps
  refine ⟨ev.uniq h.uniq, ?_, ?_, ?_, ?_, ?_, ?_, fun hd => h.notOwn (ev.desc.1 hd)⟩
  · intro p hp
    obtain ⟨q, hq, h1, _⟩ := mem_die hp
    exact h1 ▸ h.pos q hq
  · intro p hp hr
    obtain ⟨q, hq, h1, h2, h3, h4, h5⟩ := mem_die hp
    rw [h5]
    split
    · rfl
    · exact h.waited q hq (h3.trans hr)
  · intro p hp
    obtain ⟨q, hq, h1, h2, _⟩ := mem_die hp
    rcases h.creators q hq with h0 | ⟨r, hr, hrc⟩
    · exact .inl (h2 ▸ h0)
    · obtain ⟨r', hr', g1, _⟩ := die_mem (x := x) hr
      exact .inr ⟨r', hr', by rw [← g1, hrc, h2]⟩
  · intro p hp
    obtain ⟨q, hq, h1, h2, h3, h4, h5⟩ := mem_die hp
    rcases h.par q hq with h0 | ⟨h0, r, hr, hrc, hra⟩
    · by_cases hq' : q.ppid = x
      · rw [if_pos hq'] at h4
        rcases h.creators q hq with hz | ⟨r, hr, hrc⟩
        · exact .inl (by rw [h4, ← h2, hz])
        · obtain ⟨r', hr', g1, g2, g3, g4, g5⟩ := die_mem (x := x) hr
          refine .inr ⟨h4, r', hr', by rw [← g1, hrc, h2], ?_⟩
          rw [g5, if_pos (by rw [hrc, ← h0, hq'])]
      · rw [if_neg hq'] at h4
        exact .inl (by rw [h4, ← h2, h0])
    · obtain ⟨r', hr', g1, g2, g3, g4, g5⟩ := die_mem (x := x) hr
      refine .inr ⟨?_, r', hr', by rw [← g1, hrc, h2], ?_⟩
      · rw [h4, h0]
        split <;> rfl
      · rw [g5, hra]
        split <;> rfl
  · intro p hp q hq ha hc
    obtain ⟨p0, hp0, h1, h2, h3, h4, h5⟩ := mem_die hp
    obtain ⟨q0, hq0, g1, g2, g3, g4, g5⟩ := mem_die hq
    rw [h4]
    split
    · rfl
    · rename_i hne
      by_cases hqd : q0.alive = false
      · exact h.deadpar p0 hp0 q0 hq0 hqd (by rw [h2, hc, g1])
      · have hqx : q0.pid = x := by
          by_cases hqx : q0.pid = x
          · exact hqx
          · rw [if_neg hqx, ha] at g5
            exact absurd g5.symm hqd
        rcases h.par p0 hp0 with h0 | ⟨h0, _⟩
        · exact absurd (by rw [h0, h2, hc, ← g1, hqx]) hne
        · exact h0
  · obtain ⟨p, hp, h1, h2⟩ := h.here
    obtain ⟨p', hp', g1, g2, g3, g4, g5⟩ := die_mem (x := x) hp
    refine ⟨p', hp', by rw [← g1, h1], ?_⟩
    rw [g5, if_neg (by rw [h1]; exact Ne.symm hx), h2]

theorem desc_fork {sp : Nat → Prop} {r : Nat} {ps : List Proc} {n : Proc}
    (hc : ∀ p ∈ ps, p.creator ≠ n.pid) {d : Nat} (h : Descends sp r (ps ++ [n]) d) :
    d = n.pid ∨ Descends sp r ps d := by
  induction h with
  | child p hp hcr hs =>
    rcases List.mem_append.1 hp with hp | hp
    · exact .inr (.child p hp hcr hs)
    · simp at hp
      exact .inl (by rw [hp])
  | further q p _ hp hcr hs ih =>
    rcases List.mem_append.1 hp with hp | hp
    · rcases ih with ih | ih
      · exact absurd (hcr.trans ih) (hc p hp)
      · exact .inr (.further q p ih hp hcr hs)
    · simp at hp
      exact .inl (by rw [hp])

theorem tableInv_fork {cfg : Cfg} {ps : List Proc} (h : TableInv cfg ps) {p c : Nat} (hc0 : c ≠ 0)
    (hfresh : ∀ q ∈ ps, q.pid ≠ c) (hpar : ∃ q ∈ ps, q.pid = p ∧ q.alive = true) :
    TableInv cfg (ps ++ [⟨c, p, p, true, false, false⟩]) := by
  have hcr : ∀ q ∈ ps, q.creator ≠ c := by
    intro q hq he
    rcases h.creators q hq with h0 | ⟨r, hr, hrc⟩
    · exact hc0 (he ▸ h0)
    · exact hfresh r hr (hrc.trans he)
  obtain ⟨w, hw, hwp, hwa⟩ := hpar
  constructor
  · intro a ha b hb hab
    simp only [List.mem_append, List.mem_singleton] at ha hb
    rcases ha with ha | ha <;> rcases hb with hb | hb
    · exact h.uniq a ha b hb hab
    · subst hb
      exact absurd hab (hfresh a ha)
    · subst ha
      exact absurd hab.symm (hfresh b hb)
    · rw [ha, hb]
  · intro a ha
    simp only [List.mem_append, List.mem_singleton] at ha
    rcases ha with ha | ha
    · exact h.pos a ha
    · subst ha
      exact hc0
  · intro a ha hr
    simp only [List.mem_append, List.mem_singleton] at ha
    rcases ha with ha | ha
    · exact h.waited a ha hr
    · subst ha
      simp at hr
  · intro a ha
    simp only [List.mem_append, List.mem_singleton] at ha
    rcases ha with ha | ha
    · rcases h.creators a ha with h0 | ⟨r, hr, hrc⟩
      · exact .inl h0
      · exact .inr ⟨r, List.mem_append_left _ hr, hrc⟩
    · subst ha
      exact .inr ⟨w, List.mem_append_left _ hw, hwp⟩
  · intro a ha
    simp only [List.mem_append, List.mem_singleton] at ha
    rcases ha with ha | ha
    · rcases h.par a ha with h0 | ⟨h0, r, hr, hrc⟩
      · exact .inl h0
      · exact .inr ⟨h0, r, List.mem_append_left _ hr, hrc⟩
    · subst ha
      exact .inl rfl
  · intro a ha b hb hba hab
    simp only [List.mem_append, List.mem_singleton] at ha hb
    rcases hb with hb | hb
    · rcases ha with ha | ha
      · exact h.deadpar a ha b hb hba hab
      · subst ha
        have := h.uniq w hw b hb (hwp.trans hab)
        rw [this, hba] at hwa
        simp at hwa
    · subst hb
      simp at hba
  · obtain ⟨a, ha, h1⟩ := h.here
    exact ⟨a, List.mem_append_left _ ha, h1⟩
  · intro hd
    rcases desc_fork (n := ⟨c, p, p, true, false, false⟩) hcr hd with h1 | h1
    · obtain ⟨a, ha, h2, _⟩ := h.here
      exact hfresh a ha (h2.trans h1)
    · exact h.notOwn h1

/-- A change of the table without a fork keeps what holds at the place the routine is. -/
theorem AtPc.evolve {cfg : Cfg} {s : State} {ps : List Proc} (ev : Evolve s.procs ps)
    (hcl : ∀ l, Closed cfg s.procs l → Closed cfg ps l) (h : AtPc cfg s) : AtPc cfg { s with procs := ps } := by
  obtain ⟨procs, pc, found, asked, forks, askedForks⟩ := s
  unfold AtPc at h ⊢
  dsimp only at h ev hcl ⊢
  split
  · exact ⟨hcl _ h.1, h.2⟩
  · refine ⟨hcl _ h.1, h.2.1, h.2.2.imp id ?_⟩
    rintro ⟨h1, h2, h3, h4⟩
    exact ⟨h1, fun r hr => ⟨(h2 r hr).1.evolve ev, fun hne => ((h2 r hr).2 hne).evolve ev⟩,
      fun r hr => ev.desc.2 (h3 r hr), h4⟩
  · obtain ⟨h0, h1, h2, h3, h4⟩ := h
    exact ⟨hcl _ h0, h1, fun r hr => ⟨(h2 r hr).1.evolve ev, (h2 r hr).2.evolve ev⟩,
      fun r hr => ev.desc.2 (h3 r hr), h4⟩
  · obtain ⟨h0, h1, h2, h3, h4⟩ := h
    exact ⟨hcl _ h0, h1, fun r hr => ⟨(h2 r hr).1.evolve ev, (h2 r hr).2.evolve ev⟩,
      fun r hr => ev.desc.2 (h3 r hr), h4⟩
  · exact ⟨hcl _ h.1, h.2⟩
  · exact h

theorem closed_reap {cfg : Cfg} {ps : List Proc} {x : Nat} {l : List Nat} (h : Closed cfg ps l) :
    Closed cfg (ps.map (fun q => if q.pid = x ∧ ¬ q.alive then { q with reaped := true } else q)) l := by
  intro q' hq' ha
  have ev := evolve_reap x ps
  obtain ⟨q, hq, rfl⟩ := List.mem_map.1 hq'
  have h1 : (if q.pid = x ∧ ¬ q.alive then { q with reaped := true } else q).pid = q.pid := by split <;> rfl
  have h2 : (if q.pid = x ∧ ¬ q.alive then { q with reaped := true } else q).alive = q.alive := by split <;> rfl
  rw [h1]
  rw [h2] at ha
  exact (h q hq ha).evolve ev

theorem closed_die {cfg : Cfg} {ps : List Proc} {x : Nat} {l : List Nat} (h : Closed cfg ps l)
    (hx : Handled cfg ps x l) : Closed cfg (die x ps) l := by
  intro q' hq' ha
  have ev := evolve_die x ps
  obtain ⟨q, hq, h1, h2, h3, h4, h5⟩ := mem_die hq'
  rw [← h1]
  by_cases hqx : q.pid = x
  · rw [hqx]
    exact hx.evolve ev
  · rw [if_neg hqx] at h5
    exact (h q hq (h5.symm.trans ha)).evolve ev

section Fork

variable {cfg : Cfg} {ps : List Proc} {p c : Nat}

theorem Dead.fork {d : Nat} (h : Dead ps d) (hd : d ≠ c) : Dead (ps ++ [⟨c, p, p, true, false, false⟩]) d := by
  intro a ha he
  simp only [List.mem_append, List.mem_singleton] at ha
  rcases ha with ha | ha
  · exact h a ha he
  · subst ha
    exact absurd he.symm hd

theorem Halted.fork {d : Nat} (h : Halted ps d) (hd : d ≠ c) :
    Halted (ps ++ [⟨c, p, p, true, false, false⟩]) d := by
  intro a ha he
  simp only [List.mem_append, List.mem_singleton] at ha
  rcases ha with ha | ha
  · exact h a ha he
  · subst ha
    exact absurd he.symm hd

theorem Handled.fork {d : Nat} {l : List Nat} (h : Handled cfg ps d l) (hd : d ≠ p) :
    Handled cfg (ps ++ [⟨c, p, p, true, false, false⟩]) d l := by
  intro a ha he
  simp only [List.mem_append, List.mem_singleton] at ha
  rcases ha with ha | ha
  · exact h a ha he
  · subst ha
    exact absurd he.symm hd

theorem Spec.Descends.fork {sp : Nat → Prop} {r d : Nat} (h : Descends sp r ps d) (n : Proc) :
    Descends sp r (ps ++ [n]) d :=
  h.mono (fun a ha => ⟨a, List.mem_append_left _ ha, rfl, rfl⟩)

theorem AtPc.fork {s : State} {c p : Nat} (ht : TableInv cfg s.procs) (hfresh : ∀ q ∈ s.procs, q.pid ≠ c)
    (hpar : ∃ q ∈ s.procs, q.pid = p ∧ q.alive = true ∧ q.stopped = false) (n : Nat)
    (h : AtPc cfg s) :
    AtPc cfg { s with procs := s.procs ++ [⟨c, p, p, true, false, false⟩], forks := n } := by
  obtain ⟨procs, pc, found, asked, forks, askedForks⟩ := s
  obtain ⟨w, hw, hwp, hwa, hws⟩ := hpar
  have hdc : ∀ d, Desc cfg procs d → d ≠ c := by
    intro d hd he
    obtain ⟨a, ha, h1, _⟩ := hd.mem
    exact hfresh a ha (h1.trans he)
  have hhp : ∀ d, Halted procs d → d ≠ p := by
    intro d hd he
    rcases hd w hw (hwp.trans he.symm) with h1 | h1
    · dsimp only at *
      simp [hws] at h1
    · simp [hwa] at h1
  have hcl : ∀ l, Closed cfg procs l → Closed cfg (procs ++ [⟨c, p, p, true, false, false⟩]) l := by
    intro l hl q hq hqa
    simp only [List.mem_append, List.mem_singleton] at hq
    rcases hq with hq | hq
    · refine (hl q hq hqa).fork ?_
      intro he
      have := ht.uniq q hq w hw (he.trans hwp.symm)
      rw [this, hwa] at hqa
      simp at hqa
    · subst hq
      simp at hqa
  unfold AtPc at h ⊢
  dsimp only at h ⊢
  split
  · exact ⟨hcl _ h.1, h.2⟩
  · refine ⟨hcl _ h.1, h.2.1, h.2.2.imp id ?_⟩
    rintro ⟨h1, h2, h3, h4⟩
    refine ⟨h1, fun r hr => ?_, fun r hr => (h3 r hr).fork _, h4⟩
    have hd := h3 r (List.mem_append_left _ hr)
    exact ⟨(h2 r hr).1.fork (hdc r hd), fun hne => ((h2 r hr).2 hne).fork (hhp r (h2 r hr).1)⟩
  · obtain ⟨h0, h1, h2, h3, h4⟩ := h
    refine ⟨hcl _ h0, h1, fun r hr => ?_, fun r hr => (h3 r hr).fork _, h4⟩
    have hd := h3 r (List.mem_append_left _ hr)
    exact ⟨(h2 r hr).1.fork (hdc r hd), (h2 r hr).2.fork (hhp r (h2 r hr).1)⟩
  · obtain ⟨h0, h1, h2, h3, h4⟩ := h
    refine ⟨hcl _ h0, h1, fun r hr => ?_, fun r hr => (h3 r hr).fork _, h4⟩
    exact ⟨(h2 r hr).1.fork (hdc r (h3 r hr)), (h2 r hr).2.fork (hhp r (h2 r hr).1)⟩
  · exact ⟨hcl _ h.1, h.2⟩
  · exact h

end Fork

/-- An event of the environment that is not a fork keeps the invariant. -/
theorem Inv.evolve {cfg : Cfg} {s : State} (h : Inv cfg s) {ps : List Proc} (ev : Evolve s.procs ps)
    (ht : TableInv cfg ps) (hcl : ∀ l, Closed cfg s.procs l → Closed cfg ps l)
    (hr : ∀ p' ∈ ps, ∃ p ∈ s.procs, p.pid = p'.pid ∧ p.creator = p'.creator ∧
      (p.reaped = true → p'.reaped = true)) :
    Inv cfg { s with procs := ps } where
  table := ht
  found d hd := ⟨ev.desc.2 (h.found d hd).1, (h.found d hd).2.evolve ev⟩
  asked p hp := by
    obtain ⟨q, hq, h1, h2, h3⟩ := h.asked p hp
    obtain ⟨q', hq', g1, g2⟩ := ev.fwd q hq
    refine ⟨q', hq', g1.trans h1, g2.trans h2, fun hpr => ?_⟩
    obtain ⟨q0, hq0, k1, k2, k3, k4⟩ := ev.bwd q' hq'
    have : q0 = q := h.table.uniq q0 hq0 q hq (k1.trans g1)
    subst this
    exact k3 (h3 hpr)
  forks := h.forks
  same hpc hf p' hp' hc := by
    obtain ⟨p, hp, h1, h2, h3⟩ := hr p' hp'
    obtain ⟨q, hq, g1, g2, g3⟩ := h.same hpc hf p hp (h2.trans hc)
    exact ⟨q, hq, g1.trans h1, g2.trans h2, fun x => h3 (g3 x)⟩
  atPc := h.atPc.evolve ev hcl

theorem Inv.reap {cfg : Cfg} {s : State} (h : Inv cfg s) (x : Nat) : Inv cfg (step cfg s (.reap x)) := by
  refine h.evolve (evolve_reap x s.procs) (tableInv_reap h.table x) (fun l hl => closed_reap hl) ?_
  intro p' hp'
  obtain ⟨p, hp, rfl⟩ := List.mem_map.1 hp'
  refine ⟨p, hp, ?_⟩
  split <;> simp

theorem Inv.exit {cfg : Cfg} {s : State} (h : Inv cfg s) (x : Nat) : Inv cfg (step cfg s (.exit x)) := by
  simp only [step]
  split
  · rename_i hc
    obtain ⟨h1, ⟨w, hw, hwx, hwa, hws⟩, h3⟩ := hc
    refine h.evolve (evolve_die x s.procs) (tableInv_die h.table x h1) (fun l hl => closed_die hl ?_) ?_
    · intro p hp hpc hsk
      by_cases hpa : p.alive = true
      · exfalso
        rcases h.table.par p hp with g | ⟨_, q, hq, hqc, hqa⟩
        · exact h3 p hp hpa (g.trans hpc)
        · have := h.table.uniq q hq w hw (by rw [hqc, hpc, hwx])
          subst this
          simp [hqa] at hwa
      · exact .inl (by simpa using hpa)
    · intro p' hp'
      obtain ⟨p, hp, g1, g2, g3, _⟩ := mem_die hp'
      exact ⟨p, hp, g1, g2, fun x => g3 ▸ x⟩
  · exact h

theorem Inv.fork {cfg : Cfg} {s : State} (h : Inv cfg s) (p c : Nat) : Inv cfg (step cfg s (.fork p c)) := by
  simp only [step]
  split
  · rename_i hc
    obtain ⟨hc0, hfresh, w, hw, hwp, hwa, hws⟩ := hc
    have hdc : ∀ d, Desc cfg s.procs d → d ≠ c := by
      intro d hd he
      obtain ⟨a, ha, h1, _⟩ := hd.mem
      exact hfresh a ha (h1.trans he)
    constructor
    · exact tableInv_fork h.table hc0 hfresh ⟨w, hw, hwp, hwa⟩
    · intro d hd
      exact ⟨(h.found d hd).1.fork _, (h.found d hd).2.fork (hdc d (h.found d hd).1)⟩
    · intro a ha
      obtain ⟨q, hq, g⟩ := h.asked a ha
      exact ⟨q, List.mem_append_left _ hq, g⟩
    · have := h.forks
      dsimp only
      split <;> omega
    · intro hpc hf a ha hac
      have hle := h.forks
      dsimp only at hpc hf ha ⊢
      split at hf
      · omega
      · rename_i hpr
        simp only [List.mem_append, List.mem_singleton] at ha
        rcases ha with ha | ha
        · exact h.same hpc hf a ha hac
        · subst ha
          exact absurd hac hpr
    · exact h.atPc.fork h.table hfresh ⟨w, hw, hwp, hwa, by simpa using hws⟩ _
  · exact h

end Terminate
