import Verif.Terminate.Lemmas

/-!
Termination of child processes: C94 and C95.
-/

namespace Terminate

open Spec

theorem mem_children {cfg : Cfg} {pid x : Nat} {ps : List Proc} :
    x ∈ children cfg pid ps ↔ ∃ p ∈ ps, p.ppid = pid ∧ p.reaped = false ∧ skips cfg p.pid = false ∧ p.pid = x := by
  simp [children, and_assoc]

theorem alive_child {cfg : Cfg} {ps : List Proc} (h : TableInv cfg ps) {p w : Proc} (hp : p ∈ ps) (hw : w ∈ ps)
    (hwa : w.alive = true) (hc : p.creator = w.pid) : p.ppid = w.pid := by
  rcases h.par p hp with g | ⟨_, q, hq, hqc, hqa⟩
  · exact g.trans hc
  · have := h.uniq q hq w hw (hqc.trans hc)
    subst this
    simp [hqa] at hwa

theorem child_of_ppid {cfg : Cfg} {ps : List Proc} (h : TableInv cfg ps) {p : Proc} (hp : p ∈ ps) {r : Nat}
    (hr : r ≠ 0) (hpp : p.ppid = r) : p.creator = r := by
  rcases h.par p hp with g | ⟨g, _⟩
  · exact g ▸ hpp
  · exact absurd (hpp.symm.trans g) hr

theorem Closed.mono {cfg : Cfg} {ps : List Proc} {l l' : List Nat} (hd : Closed cfg ps l)
    (h : ∀ x ∈ l, x ∈ l' ∨ Dead ps x) : Closed cfg ps l' :=
  fun q hq ha => (hd q hq ha).mono h

theorem RootListed.mono {cfg : Cfg} {ps : List Proc} {l l' : List Nat} (hd : RootListed cfg ps l)
    (h : ∀ x ∈ l, x ∈ l') : RootListed cfg ps l' :=
  fun p hp h1 h2 h3 => h _ (hd p hp h1 h2 h3)

theorem closed_stop {cfg : Cfg} {ps : List Proc} {x : Nat} {l : List Nat} (h : Closed cfg ps l) :
    Closed cfg (stop x ps) l := by
  intro q' hq' ha
  have ev := evolve_stop x ps
  obtain ⟨q, hq, rfl⟩ := List.mem_map.1 hq'
  have h1 : (if q.pid = x then { q with stopped := true } else q).pid = q.pid := by split <;> rfl
  have h2 : (if q.pid = x then { q with stopped := true } else q).alive = q.alive := by split <;> rfl
  rw [h1]
  rw [h2] at ha
  exact (h q hq ha).evolve ev

theorem Inv.tick {cfg : Cfg} {s : State} (h : Inv cfg s) : Inv cfg (tick cfg s) := by
  obtain ⟨procs, pc, found, asked, forks, askedForks⟩ := s
  obtain ⟨ht, hfound, hasked, hforks, hsame, hpc⟩ := h
  have hroot0 : cfg.root ≠ 0 := by
    obtain ⟨w, hw, h1, _⟩ := ht.here
    exact h1 ▸ ht.pos w hw
  unfold AtPc at hpc
  dsimp only at ht hfound hasked hforks hsame hpc
  cases pc with
  | begin n =>
    cases n with
    | zero =>
      refine ⟨ht, hfound, hasked, hforks, fun _ => hsame ⟨by simp, by simp⟩, ?_⟩
      exact (hpc.2.2 (by omega)).2
    | succ n =>
      refine ⟨ht, hfound, hasked, hforks, ?_, ?_⟩
      · rintro ⟨h1, h2⟩
        refine hsame ⟨?_, by simp⟩
        rintro ⟨⟩
        exact h2 cfg.root [] [] rfl rfl
      · refine ⟨hpc.1, by have := hpc.2.1; omega, .inl ⟨rfl, rfl, rfl, fun hn => ?_⟩⟩
        have := hpc.2.2 (by omega)
        exact ⟨this.1, by have h2 := this.2; show 49 ≤ askedForks + n + 1; omega⟩
  | query n pid todo out =>
    obtain ⟨hcl, hn, hpc⟩ := hpc
    simp only [Terminate.tick]
    by_cases hpr : pid = cfg.root
    · subst hpr
      rcases hpc with ⟨_, rfl, rfl, hq⟩ | ⟨hpo, h2, h3, _⟩
      · rw [if_pos rfl]
        refine ⟨ht, hfound, ?_, Nat.le_refl _, ?_, hcl, hn, by simp, ?_, ?_, ?_⟩
        · intro p hp
          exact ⟨p, hp, rfl, rfl, ht.waited p hp⟩
        · intro _ _ p hp _
          exact ⟨p, hp, rfl, rfl, id⟩
        · intro r hr
          simp only [List.nil_append, List.append_nil] at hr
          obtain ⟨p, hp, h1, h2, h3, rfl⟩ := mem_children.1 hr
          exact .child p hp (child_of_ppid ht hp hroot0 h1) (by simp [h3])
        · intro p hp h1 h2 h3
          simp only [List.nil_append, List.append_nil]
          obtain ⟨w, hw, hwr, hwa⟩ := ht.here
          exact mem_children.2 ⟨p, hp, hwr ▸ alive_child ht hp hw hwa (h1.trans hwr.symm), h3, h2, rfl⟩
        · by_cases h49 : n < 49
          · obtain ⟨g1, g2⟩ := hq h49
            by_cases hf : forks = askedForks
            · refine .inl ?_
              intro r hr
              simp only [List.nil_append, List.append_nil] at hr
              obtain ⟨p, hp, h1, h2, h3, rfl⟩ := mem_children.1 hr
              obtain ⟨q, hq, k1, k2, k3⟩ := hsame ⟨by simp, by
                intro _ _ _ he
                simp only [Pc.query.injEq] at he
                omega⟩ hf p hp (child_of_ppid ht hp hroot0 h1)
              rw [← k1]
              refine g1 q hq (k2.trans (child_of_ppid ht hp hroot0 h1)) (k1 ▸ h3) ?_
              cases hqr : q.reaped with
              | false => rfl
              | true => rw [k3 hqr] at h2; simp at h2
            · refine .inr ?_
              dsimp only
              omega
          · exact .inr (by dsimp only; omega)
      · exact absurd (h3 _ (List.mem_append_left _ hpo)) (root_not_desc ht)
    · rw [if_neg hpr]
      rcases hpc with ⟨h1, _⟩ | ⟨hpo, h2, h3, h4, h5⟩
      · exact absurd h1 hpr
      · have hpd : Desc cfg procs pid := h3 _ (List.mem_append_left _ hpo)
        have hp0 : pid ≠ 0 := fun he => zero_not_desc ht (he ▸ hpd)
        obtain ⟨w, hw, hwp, _⟩ := hpd.mem
        refine ⟨ht, hfound, hasked, hforks, fun _ => hsame ⟨by simp, ?_⟩, hcl, hn, ?_, ?_, ?_, ?_⟩
        · intro _ _ _ he
          simp only [Pc.query.injEq] at he
          exact he.2.1 ▸ hpr
        · intro r hr
          refine ⟨(h2 r hr).1, ?_⟩
          by_cases hrp : r = pid
          · subst hrp
            intro p hp hc hs
            cases hwa : w.alive with
            | true =>
              cases hpa : p.alive with
              | false => exact .inl rfl
              | true =>
                refine .inr ?_
                have hpp := alive_child ht hp hw hwa (hc.trans hwp.symm)
                have : p.pid ∈ children cfg r procs := by
                  refine mem_children.2 ⟨p, hp, hpp.trans hwp, ?_, hs, rfl⟩
                  cases hpr : p.reaped with
                  | false => rfl
                  | true => rw [ht.waited p hp hpr] at hpa; simp at hpa
                simp [this]
            | false =>
              rcases hcl w hw hwa p hp (hc.trans hwp.symm) hs with g | g
              · exact .inl g
              · simp at g
          · refine ((h2 r hr).2 hrp).mono ?_
            intro x hx
            refine .inl ?_
            simp only [List.mem_append] at hx ⊢
            rcases hx with hx | hx
            · exact .inl hx
            · exact .inr (.inr hx)
        · intro r hr
          simp only [List.mem_append] at hr
          rcases hr with hr | hr | hr
          · exact h3 r (List.mem_append_left _ hr)
          · obtain ⟨p, hp, g1, g2, g3, rfl⟩ := mem_children.1 hr
            exact .further pid p hpd hp (child_of_ppid ht hp hp0 g1) (by simp [g3])
          · exact h3 r (List.mem_append_right _ hr)
        · refine h4.mono ?_
          intro x hx
          simp only [List.mem_append] at hx ⊢
          rcases hx with hx | hx
          · exact .inl hx
          · exact .inr (.inr hx)
        · refine h5.imp ?_ id
          intro hq r hr
          simp only [List.mem_append] at hr
          rcases hr with hr | hr | hr
          · exact hq r (List.mem_append_left _ hr)
          · exfalso
            obtain ⟨p, hp, g1, g2, g3, rfl⟩ := mem_children.1 hr
            have hwd := (hfound pid (hq pid (List.mem_append_left _ hpo))).2 w hw hwp
            have := ht.deadpar p hp w hw hwd ((child_of_ppid ht hp hp0 g1).trans hwp.symm)
            exact hp0 (g1.symm.trans this)
          · exact hq r (List.mem_append_right _ hr)
  | visit n todo out =>
    obtain ⟨hcl, hn, h2, h3, h4, h5⟩ := hpc
    cases todo with
    | nil =>
      simp only [List.append_nil] at h2 h3 h4 h5
      refine ⟨ht, hfound, hasked, hforks, fun _ => hsame ⟨by simp, by simp⟩, hcl.mono (by simp), hn, h2, h3,
        h4.mono (fun x hx => List.mem_append_left _ hx), ?_⟩
      exact h5.imp (fun g => ⟨rfl, g⟩) id
    | cons p todo =>
      have ev := evolve_stop p procs
      have hlist : out ++ p :: todo = out ++ [p] ++ todo := by simp
      rw [hlist] at h2 h3 h4 h5
      refine ⟨tableInv_stop ht p, fun d hd => ⟨ev.desc.2 (hfound d hd).1, (hfound d hd).2.evolve ev⟩, ?_, hforks,
        ?_, closed_stop hcl, hn, .inr ⟨by simp, ?_, fun r hr => ev.desc.2 (h3 r hr), h4, h5⟩⟩
      · intro a ha
        obtain ⟨q, hq, g1, g2, g3⟩ := hasked a ha
        obtain ⟨q', hq', k1, k2⟩ := ev.fwd q hq
        refine ⟨q', hq', k1.trans g1, k2.trans g2, fun hr => ?_⟩
        obtain ⟨q0, hq0, m1, m2, m3, m4⟩ := ev.bwd q' hq'
        have : q0 = q := ht.uniq q0 hq0 q hq (m1.trans k1)
        subst this
        exact m3 (g3 hr)
      · intro _ hf a' ha' hac
        obtain ⟨a, ha, rfl⟩ := List.mem_map.1 ha'
        have e1 : (if a.pid = p then { a with stopped := true } else a).pid = a.pid := by split <;> rfl
        have e2 : (if a.pid = p then { a with stopped := true } else a).creator = a.creator := by split <;> rfl
        have e3 : (if a.pid = p then { a with stopped := true } else a).reaped = a.reaped := by split <;> rfl
        rw [e2] at hac
        rw [e1, e2, e3]
        exact hsame ⟨by simp, by simp⟩ hf a ha hac
      · intro r hr
        constructor
        · by_cases hrp : r = p
          · subst hrp
            intro a' ha' hap
            obtain ⟨a, ha, rfl⟩ := List.mem_map.1 ha'
            refine .inl ?_
            split
            · rfl
            · rename_i hne
              rw [if_neg hne] at hap
              exact absurd hap hne
          · simp only [List.mem_append, List.mem_singleton] at hr
            rcases hr with hr | hr
            · exact (h2 r hr).1.evolve ev
            · exact absurd hr hrp
        · intro hrp
          simp only [List.mem_append, List.mem_singleton] at hr
          rcases hr with hr | hr
          · exact (h2 r hr).2.evolve ev
          · exact absurd hr hrp
  | killing n rest fn =>
    obtain ⟨hcl, hn, h2, h3, h4, h5⟩ := hpc
    cases rest with
    | nil =>
      simp only [List.nil_append] at h4
      simp only [Terminate.tick]
      cases fn with
      | false =>
        refine ⟨ht, hfound, hasked, hforks, fun _ => hsame ⟨by simp, by simp⟩, ?_⟩
        exact ⟨hcl, h4⟩
      | true =>
        refine ⟨ht, hfound, hasked, hforks, fun _ => hsame ⟨by simp, by simp⟩, ?_⟩
        refine ⟨hcl, by omega, fun _ => ⟨h4, ?_⟩⟩
        rcases h5 with h5 | h5
        · simp at h5
        · exact h5
    | cons p rest =>
      simp only [Terminate.tick]
      by_cases hpf : p ∈ found
      · rw [if_pos hpf]
        have hmono : ∀ x ∈ p :: rest, x ∈ rest ∨ Dead procs x := by
          intro x hx
          rcases List.mem_cons.1 hx with rfl | hx
          · exact .inr (hfound x hpf).2
          · exact .inl hx
        refine ⟨ht, hfound, hasked, hforks, fun _ => hsame ⟨by simp, by simp⟩, hcl.mono hmono, hn,
          fun r hr => ?_, fun r hr => h3 r (List.mem_cons_of_mem _ hr), h4.mono ?_,
          h5.imp (fun g => ⟨g.1, fun r hr => g.2 r (List.mem_cons_of_mem _ hr)⟩) id⟩
        · have := h2 r (List.mem_cons_of_mem _ hr)
          exact ⟨this.1, this.2.mono hmono⟩
        · intro x hx
          simp only [List.cons_append, List.mem_cons] at hx
          rcases hx with rfl | hx
          · exact List.mem_append_right _ hpf
          · exact hx
      · rw [if_neg hpf]
        have ev := evolve_die p procs
        have hpd := h3 p (by simp)
        have hpr : p ≠ cfg.root := fun he => root_not_desc ht (he ▸ hpd)
        have hdead : Dead (die p procs) p := by
          intro a ha hap
          obtain ⟨b, hb, g1, g2, g3, g4, g5⟩ := mem_die ha
          rw [g5, if_pos (g1.trans hap)]
        have hmono : ∀ x ∈ p :: rest, x ∈ rest ∨ Dead (die p procs) x := by
          intro x hx
          rcases List.mem_cons.1 hx with rfl | hx
          · exact .inr hdead
          · exact .inl hx
        refine ⟨tableInv_die ht p hpr, ?_, ?_, hforks, ?_, (closed_die hcl (h2 p (by simp)).2).mono hmono, hn,
          ?_, fun r hr => ev.desc.2 (h3 r (List.mem_cons_of_mem _ hr)), h4.mono ?_, ?_⟩
        · intro d hd
          rcases List.mem_cons.1 hd with rfl | hd
          · exact ⟨ev.desc.2 hpd, hdead⟩
          · exact ⟨ev.desc.2 (hfound d hd).1, (hfound d hd).2.evolve ev⟩
        · intro a ha
          obtain ⟨q, hq, g1, g2, g3⟩ := hasked a ha
          obtain ⟨q', hq', k1, k2, k3, k4, k5⟩ := die_mem (x := p) hq
          refine ⟨q', hq', k1.symm.trans g1, k2.symm.trans g2, fun hr => ?_⟩
          rw [k5, g3 hr]
          split <;> rfl
        · intro _ hf a' ha' hac
          obtain ⟨a, ha, g1, g2, g3, _⟩ := mem_die ha'
          rw [← g1, ← g2, ← g3]
          exact hsame ⟨by simp, by simp⟩ hf a ha (g2.trans hac)
        · intro r hr
          have := h2 r (List.mem_cons_of_mem _ hr)
          exact ⟨this.1.evolve ev, (this.2.evolve ev).mono hmono⟩
        · intro x hx
          simp only [List.cons_append, List.mem_cons, List.mem_append] at hx ⊢
          rcases hx with rfl | hx | hx
          · exact .inr (.inl rfl)
          · exact .inl hx
          · exact .inr (.inr hx)
        · rcases h5 with h5 | h5
          · exact absurd (h5.2 p (by simp)) hpf
          · exact .inr h5
  | settled => exact ⟨ht, hfound, hasked, hforks, hsame, hpc⟩
  | exhausted => exact ⟨ht, hfound, hasked, hforks, hsame, hpc⟩

theorem Inv.step {cfg : Cfg} {s : State} (h : Inv cfg s) (a : Action) : Inv cfg (step cfg s a) := by
  cases a with
  | tick => exact h.tick
  | fork p c => exact h.fork p c
  | exit p => exact h.exit p
  | reap p => exact h.reap p

theorem inv_start {cfg : Cfg} {ps : List Proc} (h : Table cfg.root ps) : Inv cfg (start ps) where
  table := by
    constructor
    · exact h.unique
    · exact h.positive
    · intro p hp hr
      simpa using h.waited p hp hr
    · exact fun p hp => (h.parents p hp).2
    · exact fun p hp => .inl (h.parents p hp).1
    · exact fun p hp q hq hqa hc => absurd hc (h.dead q hq (by simpa using hqa) p hp)
    · obtain ⟨p, hp, h1, h2⟩ := h.here
      exact ⟨p, hp, h1, h2⟩
    · exact h.notOwn
  found := by simp [start]
  asked := by simp [start]
  forks := Nat.le_refl _
  same := fun hh => absurd rfl hh.1
  atPc := by
    refine ⟨?_, Nat.le_refl _, fun hh => absurd hh (Nat.lt_irrefl _)⟩
    intro q hq hqa p hp hc
    exact absurd hc (h.dead q hq (by simpa [start] using hqa) p hp)

theorem inv_run {cfg : Cfg} {ps : List Proc} (h : Table cfg.root ps) (acts : List Action) :
    Inv cfg (run cfg (start ps) acts) := by
  unfold run
  exact List.foldlRecOn (motive := fun s => Inv cfg s) acts (Terminate.step cfg) (inv_start h)
    (fun s hs a _ => hs.step a)

/-- A number is among the processes to spare, in either form. -/
def Spare (cfg : Cfg) (n : Nat) : Prop := Value.int n ∈ cfg.spared ∨ Value.str n ∈ cfg.spared

/-- What holds of the table when the process was last listed. -/
structure InvAsked (cfg : Cfg) (s : State) : Prop where
  table : s.asked = [] ∨ TableInv cfg s.asked
  closed : Closed cfg s.asked []
  found : (match s.pc with
    | .visit _ _ _ => True | .killing _ _ fn => fn = false | .settled => True | .query _ pid _ _ => pid ≠ cfg.root
    | _ => False) → ∀ d ∈ s.found, Dead s.asked d

theorem InvAsked.step {cfg : Cfg} {s : State} (hi : Inv cfg s) (h : InvAsked cfg s) (a : Action) :
    InvAsked cfg (Terminate.step cfg s a) := by
  cases a with
  | fork p c =>
    simp only [Terminate.step]
    split
    · exact ⟨h.table, h.closed, h.found⟩
    · exact h
  | exit p =>
    simp only [Terminate.step]
    split
    · exact ⟨h.table, h.closed, h.found⟩
    · exact h
  | reap p => exact ⟨h.table, h.closed, h.found⟩
  | tick =>
    obtain ⟨ht, hc, hf⟩ := h
    have hat := hi.atPc
    unfold AtPc at hat
    show InvAsked cfg (Terminate.tick cfg s)
    unfold Terminate.tick
    split
    · exact ⟨ht, hc, fun hh => hh.elim⟩
    · exact ⟨ht, hc, fun hh => absurd rfl hh⟩
    · rename_i n pid todo out hpc
      rw [hpc] at hf hat
      dsimp only at hf hat ⊢
      split
      · exact ⟨.inr hi.table, hat.1, fun _ d hd => (hi.found d hd).2⟩
      · rename_i hne
        exact ⟨ht, hc, fun _ => hf hne⟩
    · rename_i n out hpc
      rw [hpc] at hf
      exact ⟨ht, hc, fun _ => hf trivial⟩
    · rename_i n p todo out hpc
      rw [hpc] at hf
      exact ⟨ht, hc, fun _ => hf trivial⟩
    · rename_i n fn hpc
      rw [hpc] at hf
      cases fn with
      | false => exact ⟨ht, hc, fun _ => hf rfl⟩
      | true => exact ⟨ht, hc, fun hh => hh.elim⟩
    · rename_i n p rest fn hpc
      rw [hpc] at hf
      split
      · exact ⟨ht, hc, fun hh => hf hh⟩
      · exact ⟨ht, hc, fun hh => by simp at hh⟩
    · exact ⟨ht, hc, hf⟩
    · exact ⟨ht, hc, hf⟩

theorem invAsked_run {cfg : Cfg} {ps : List Proc} (h : Table cfg.root ps) (acts : List Action) :
    InvAsked cfg (run cfg (start ps) acts) := by
  unfold run
  refine (List.foldlRecOn (motive := fun s => Inv cfg s ∧ InvAsked cfg s) acts (Terminate.step cfg)
    ⟨inv_start h, ?_⟩ (fun s hs a _ => ⟨hs.1.step a, hs.2.step hs.1 a⟩)).2
  refine ⟨.inl rfl, ?_, fun hh => hh.elim⟩
  intro q hq
  simp [start] at hq

/-- C94: when the routine ends because it finds nothing new, every process that descended from the process itself
when its children were last listed was dead already then, and is dead, whatever was forked, ended or was waited
for meanwhile. -/
theorem c94_all_killed {cfg : Cfg} {ps : List Proc} (ht : Table cfg.root ps) (acts : List Action)
    (hs : (run cfg (start ps) acts).pc = .settled) {d : Nat}
    (hd : Descends (Spare cfg) cfg.root (run cfg (start ps) acts).asked d) :
    (∀ p ∈ (run cfg (start ps) acts).asked, p.pid = d → p.alive = false) ∧
    (∀ p ∈ (run cfg (start ps) acts).procs, p.pid = d → p.alive = false) := by
  have h := inv_run ht acts
  have h2 := invAsked_run ht acts
  generalize run cfg (start ps) acts = s at *
  have hd' : Desc cfg s.asked d := hd.weaken (fun n hn => .inr (by simpa [skips] using hn))
  clear hd
  have hp := h.atPc
  unfold AtPc at hp
  rw [hs] at hp
  obtain ⟨hcl, hrl⟩ := hp
  have hfa := h2.found
  rw [hs] at hfa
  have hta : TableInv cfg s.asked := by
    rcases h2.table with h0 | h0
    · obtain ⟨p, hp, _⟩ := hd'.mem
      rw [h0] at hp
      simp at hp
    · exact h0
  show Dead s.asked d ∧ Dead s.procs d
  constructor
  · induction hd' with
    | child p hp hc hsk =>
      intro q hq hqp
      obtain rfl := hta.uniq q hq p hp hqp
      cases hr : q.reaped with
      | true => exact hta.waited q hq hr
      | false => exact hfa trivial q.pid (hrl q hp hc (by simpa using hsk) hr) q hq rfl
    | further r p hr hp hc hsk ih =>
      intro q hq hqp
      obtain rfl := hta.uniq q hq p hp hqp
      obtain ⟨w, hw, hwr, _⟩ := hr.mem
      rcases h2.closed w hw (ih w hw hwr) q hq (by rw [hc, hwr]) (by simpa using hsk) with g | g
      · exact g
      · simp at g
  · induction hd' with
    | child p hp hc hsk =>
      intro q hq hqp
      obtain ⟨q0, hq0, h1, h2, h3⟩ := h.asked p hp
      obtain rfl := h.table.uniq q hq q0 hq0 (hqp.trans h1.symm)
      cases hr : p.reaped with
      | true => exact h3 hr
      | false => exact (h.found p.pid (hrl p hp hc (by simpa using hsk) hr)).2 q hq hqp
    | further r p hr hp hc hsk ih =>
      intro q hq hqp
      obtain ⟨q0, hq0, h1, h2, h3⟩ := h.asked p hp
      obtain rfl := h.table.uniq q hq q0 hq0 (hqp.trans h1.symm)
      obtain ⟨w, hw, hwr, _⟩ := hr.mem
      obtain ⟨w', hw', g1, _⟩ := h.asked w hw
      have hwd := ih w' hw' (g1.trans hwr)
      rcases hcl w' hw' hwd q hq (by rw [h2, hc, g1, hwr]) (by rw [h1]; simpa using hsk) with g | g
      · exact g
      · simp at g

/-- Before the children of the process itself are listed. -/
def ListsOwn (cfg : Cfg) (s : State) : Prop := ∃ n todo out, s.pc = .query n cfg.root todo out

/-- C94, what `asked` is: the process table when the children of the process itself were last listed. -/
theorem c94_asked (cfg : Cfg) (ps : List Proc) (acts : List Action) :
    (run cfg (start ps) acts).asked = [] ∨
    ∃ before after, acts = before ++ .tick :: after ∧ ListsOwn cfg (run cfg (start ps) before) ∧
      (run cfg (start ps) acts).asked = (run cfg (start ps) before).procs ∧
      ∀ x y, after = x ++ .tick :: y → ¬ ListsOwn cfg (run cfg (start ps) (before ++ .tick :: x)) := by
  have hsnoc : ∀ l a, run cfg (start ps) (l ++ [a]) = step cfg (run cfg (start ps) l) a := by
    intro l a
    simp [run, List.foldl_append]
  generalize hn : acts.length = n
  induction n generalizing acts with
  | zero =>
    obtain rfl := List.length_eq_zero_iff.1 hn
    exact .inl rfl
  | succ n ih =>
    obtain ⟨l, a, rfl⟩ : ∃ l a, acts = l ++ [a] := by
      refine ⟨acts.dropLast, acts.getLast (by intro h; simp [h] at hn), ?_⟩
      exact (List.dropLast_concat_getLast _).symm
    have hl : l.length = n := by simpa using hn
    rw [hsnoc]
    by_cases hown : a = .tick ∧ ListsOwn cfg (run cfg (start ps) l)
    · obtain ⟨rfl, hown⟩ := hown
      refine .inr ⟨l, [], rfl, hown, ?_, by simp⟩
      obtain ⟨m, todo, out, hpc⟩ := hown
      simp [step, tick, hpc]
    · have hsame : (step cfg (run cfg (start ps) l) a).asked = (run cfg (start ps) l).asked := by
        generalize run cfg (start ps) l = s at hown ⊢
        cases a with
        | tick =>
          simp only [true_and] at hown
          show (tick cfg s).asked = s.asked
          unfold tick
          split <;> try rfl
          · rename_i m pid todo out hpc
            have : pid ≠ cfg.root := by
              rintro rfl
              exact hown ⟨m, todo, out, hpc⟩
            simp [this]
          · split <;> rfl
        | fork p c => simp only [step]; split <;> rfl
        | exit p => simp only [step]; split <;> rfl
        | reap p => rfl
      rw [hsame]
      rcases ih l hl with h0 | ⟨b, af, rfl, h1, h2, h3⟩
      · exact .inl h0
      · refine .inr ⟨b, af ++ [a], by simp, h1, h2, ?_⟩
        intro x y hxy
        rcases List.eq_nil_or_concat y with rfl | ⟨y, z, rfl⟩
        · obtain ⟨rfl, hh⟩ := List.append_inj' hxy rfl
          simp only [List.cons.injEq, and_true] at hh
          exact fun hx => hown ⟨hh, hx⟩
        · have hxy' : af ++ [a] = (x ++ .tick :: y) ++ [z] := by simpa using hxy
          exact h3 x y (List.append_inj' hxy' rfl).1

/-- C94: only processes that descend from the process itself are killed by the routine. -/
theorem c94_only_descendants {cfg : Cfg} {ps : List Proc} (ht : Table cfg.root ps) (acts : List Action) :
    ∀ d ∈ (run cfg (start ps) acts).found,
      Descends (fun _ => False) cfg.root (run cfg (start ps) acts).procs d ∧ d ≠ cfg.root := by
  intro d hd
  have h := inv_run ht acts
  refine ⟨((h.found d hd).1).weaken (fun _ => False.elim), ?_⟩
  rintro rfl
  exact root_not_desc h.table (h.found _ hd).1

/-- C94: an action of the routine neither stops nor kills anything else. -/
theorem c94_others {cfg : Cfg} {ps : List Proc} (ht : Table cfg.root ps) (acts : List Action) (p : Proc)
    (hp : p ∈ (run cfg (start ps) acts).procs)
    (hd : ¬ Descends (fun n => Value.str n ∈ cfg.spared) cfg.root (run cfg (start ps) acts).procs p.pid) :
    ∃ p' ∈ (run cfg (start ps) (acts ++ [.tick])).procs,
      p'.pid = p.pid ∧ p'.alive = p.alive ∧ p'.stopped = p.stopped := by
  have h := inv_run ht acts
  have hrun : run cfg (start ps) (acts ++ [.tick]) = tick cfg (run cfg (start ps) acts) := by
    simp [run, List.foldl_append, step]
  rw [hrun]
  generalize run cfg (start ps) acts = s at *
  have hd' : ¬ Desc cfg s.procs p.pid := fun hh => hd (hh.weaken (fun n hn => by simpa [skips] using hn))
  have hat := h.atPc
  unfold AtPc at hat
  unfold tick
  split <;> try exact ⟨p, hp, rfl, rfl, rfl⟩
  · dsimp only
    split <;> exact ⟨p, hp, rfl, rfl, rfl⟩
  · rename_i n q todo out hpc
    rw [hpc] at hat
    refine ⟨_, List.mem_map_of_mem hp, ?_⟩
    have hne : p.pid ≠ q := by
      intro he
      exact hd' (he ▸ hat.2.2.2.1 q (by simp))
    simp [hne]
  · rename_i n q rest fn hpc
    rw [hpc] at hat
    split
    · exact ⟨p, hp, rfl, rfl, rfl⟩
    · refine ⟨_, List.mem_map_of_mem hp, ?_⟩
      have hne : p.pid ≠ q := by
        intro he
        exact hd' (he ▸ hat.2.2.2.1 q (by simp))
      rw [if_neg hne]
      split <;> simp

/-- C94: the routine gives up only when the process itself goes on forking: after fifty turns it has made at
least 49 new children. -/
theorem c94_gives_up {cfg : Cfg} {ps : List Proc} (ht : Table cfg.root ps) (acts : List Action)
    (he : (run cfg (start ps) acts).pc = .exhausted) :
    49 ≤ (acts.filter (isForkOf cfg.root)).length := by
  have h := inv_run ht acts
  have hle : ∀ (acts : List Action) (s : State), (run cfg s acts).forks ≤
      s.forks + (acts.filter (isForkOf cfg.root)).length := by
    intro acts
    induction acts with
    | nil => intro s; simp [run]
    | cons a acts ih =>
      intro s
      have h1 := ih (step cfg s a)
      have hr : run cfg s (a :: acts) = run cfg (step cfg s a) acts := rfl
      rw [hr]
      have h2 : (step cfg s a).forks ≤ s.forks +
          (if isForkOf cfg.root a = true then 1 else 0) := by
        cases a with
        | tick =>
          show (tick cfg s).forks ≤ _
          unfold tick
          split <;> try exact Nat.le_add_right _ _
          · dsimp only
            split <;> exact Nat.le_add_right _ _
          · split <;> exact Nat.le_add_right _ _
        | fork p c =>
          simp only [step]
          split
          · dsimp only
            split <;> simp_all [isForkOf]
          · exact Nat.le_add_right _ _
        | exit p =>
          simp only [step]
          split <;> exact Nat.le_add_right _ _
        | reap p => exact Nat.le_add_right _ _
      rw [List.filter_cons]
      split
      · rename_i hc
        rw [if_pos hc] at h2
        simp only [List.length_cons]
        omega
      · rename_i hc
        rw [if_neg hc] at h2
        omega
  have h1 := hle acts (start ps)
  have hat := h.atPc
  unfold AtPc at hat
  rw [he] at hat
  have := h.forks
  have h0 : (start ps).forks = 0 := rfl
  dsimp only at hat
  omega

/-- A process 10 with a child 20 and a grandchild 30, and a process 5 of someone else. -/
def table1 : List Proc :=
  [⟨5, 0, 0, true, false, false⟩, ⟨10, 5, 5, true, false, false⟩, ⟨20, 10, 10, true, false, false⟩,
   ⟨30, 20, 20, true, false, false⟩]

def acts1 : List Action :=
  [.tick, .tick, .fork 20 40, .tick, .fork 30 50, .fork 40 60, .fork 20 90] ++ List.replicate 8 .tick ++
  [.fork 10 70, .tick, .reap 20, .tick] ++ List.replicate 60 .tick

theorem table1_ok : Table 10 table1 where
  parents := by decide
  dead := by decide
  waited := by decide
  positive := by decide
  unique := by decide
  here := by decide
  notOwn := by
    intro h
    have key : ∀ d, Descends (fun _ => False) 10 table1 d → d = 20 ∨ d = 30 := by
      intro d h
      induction h with
      | child p hp hc _ => simp [table1] at hp; rcases hp with rfl | rfl | rfl | rfl <;> simp_all
      | further q p _ hp hc _ ih => simp [table1] at hp; rcases hp with rfl | rfl | rfl | rfl <;> simp_all <;> omega
    rcases key _ h with h | h <;> omega

/-- Non-vacuity of C94: children forked before and after their parents are listed are killed too, in the first or
the second turn; process 5 is not. -/
theorem c94_example :
    (run ⟨10, []⟩ (start table1) acts1).pc = .settled ∧
    (run ⟨10, []⟩ (start table1) acts1).procs.map (fun p => (p.pid, p.alive)) =
      [(5, true), (10, true), (20, false), (30, false), (40, false), (50, false), (60, false), (70, false)] := by
  decide +kernel

/-- C95 on Windows (part of the claim): a child that the program asked to spare is never given to `taskkill`,
whatever processes are there at each turn. -/
theorem c95_windows_partial (cfg : Cfg) (n : Nat) (tables : List (List (Nat × Nat))) (pid : Nat)
    (hp : Value.int pid ∈ cfg.spared) : pid ∉ (windows cfg n tables).1 := by
  induction n generalizing tables with
  | zero => simp [windows]
  | succ n ih =>
    cases tables with
    | nil => simp [windows]
    | cons ps rest =>
      simp only [windows]
      split
      · simp
      · intro hh
        rcases List.mem_append.1 hh with h | h
        · simp only [windowsKills, List.mem_map, List.mem_filter] at h
          obtain ⟨e, ⟨_, he⟩, rfl⟩ := h
          simp [hp] at he
        · exact ih rest h

/-- C94 on Windows: only children of the process are given to `taskkill`, and when the loop ends because nothing
is left, a listing showed no child but the ones to spare. -/
theorem c94_windows (cfg : Cfg) (n : Nat) (tables : List (List (Nat × Nat))) :
    (∀ pid ∈ (windows cfg n tables).1, ∃ ps ∈ tables, (cfg.root, pid) ∈ ps) ∧
    ((windows cfg n tables).2 = true → ∃ ps ∈ tables, ∀ pid, (cfg.root, pid) ∈ ps → Value.int pid ∈ cfg.spared) := by
  induction n generalizing tables with
  | zero => simp [windows]
  | succ n ih =>
    cases tables with
    | nil => simp [windows]
    | cons ps rest =>
      simp only [windows]
      split
      · rename_i h0
        refine ⟨by simp, fun _ => ⟨ps, by simp, ?_⟩⟩
        intro pid hp
        by_cases hs : Value.int pid ∈ cfg.spared
        · exact hs
        · have : pid ∈ windowsKills cfg ps := by
            simp only [windowsKills, List.mem_map, List.mem_filter]
            exact ⟨(cfg.root, pid), ⟨hp, by simp [hs]⟩, rfl⟩
          rw [h0] at this
          simp at this
      · obtain ⟨h1, h2⟩ := ih rest
        constructor
        · intro pid hh
          rcases List.mem_append.1 hh with h | h
          · simp only [windowsKills, List.mem_map, List.mem_filter] at h
            obtain ⟨e, ⟨he, hr⟩, rfl⟩ := h
            simp at hr
            exact ⟨ps, by simp, by rw [← hr.1]; exact he⟩
          · obtain ⟨q, hq, hm⟩ := h1 pid h
            exact ⟨q, List.mem_cons_of_mem _ hq, hm⟩
        · intro h
          obtain ⟨q, hq, hm⟩ := h2 h
          exact ⟨q, List.mem_cons_of_mem _ hq, hm⟩

theorem c95_windows_example :
    windows ⟨10, [.int 30]⟩ 50 [[(10, 20), (10, 30), (5, 10)], [(10, 30), (5, 10)]] = ([20], true) := by decide

/-- C95 on Linux and macOS: asking to spare processes by number, the documented way, changes nothing: the routine
does the same as if nothing had been asked, for every table and every execution. -/
theorem c95_ignored_witness (root : Nat) (pids : List Nat) (ps : List Proc) (acts : List Action) :
    run ⟨root, pids.map .int⟩ (start ps) acts = run ⟨root, []⟩ (start ps) acts := by
  have hsk : ∀ n, skips ⟨root, pids.map .int⟩ n = skips ⟨root, []⟩ n := by
    intro n
    simp [skips]
  have hch : ∀ n l, children ⟨root, pids.map .int⟩ n l = children ⟨root, []⟩ n l := by
    intro n l
    simp only [children, hsk]
  have hst : step ⟨root, pids.map .int⟩ = step ⟨root, []⟩ := by
    funext s a
    cases a with
    | tick => simp only [step, tick, hch]
    | fork p c => rfl
    | exit p => rfl
    | reap p => rfl
  unfold run
  rw [hst]

/-- C95 is violated on Linux and macOS: the child 20 is to be spared and is killed. -/
theorem c95_killed_witness :
    (⟨20, 10, 10, true, false, false⟩ : Proc) ∈ table1 ∧
    (run ⟨10, [.int 20]⟩ (start table1) (List.replicate 60 .tick)).pc = .settled ∧
    20 ∈ (run ⟨10, [.int 20]⟩ (start table1) (List.replicate 60 .tick)).found := by
  decide +kernel

/-- C95 on Linux and macOS, for a process given as text: it and what it has forked is neither stopped nor killed
by the routine. -/
theorem c95_text_partial {cfg : Cfg} {ps : List Proc} (ht : Table cfg.root ps) (acts : List Action) (d : Nat)
    (hd : Value.str d ∈ cfg.spared) : d ∉ (run cfg (start ps) acts).found := by
  intro hf
  obtain ⟨_, _, _, h⟩ := ((inv_run ht acts).found d hf).1.mem
  exact h (by simpa [skips] using hd)

end Terminate
