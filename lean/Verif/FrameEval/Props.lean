import Verif.FrameEval.Model

/-!
C64: the frame evaluator's decisions serve the breakpoints there are.
-/
namespace FrameEval

theorem mem_hitLines {f : Fn} {b : List Int} {L : Int} : L ∈ hitLines f b ↔ L ∈ b ∧ L ∈ f.lines := by
  simp [hitLines]

/-- The info leads to decisions that serve the breakpoints. -/
def InfoServes (f : Fn) (code : Code) (i : Info) (bps : Option (List Int)) (fbp : Bool) : Prop :=
  (∀ L, HasBreak f bps L → i.found = true) ∧
  (code = .orig → fbp = true → i.found = true ∧ i.newCode = none) ∧
  (code ≠ .orig → i.newCode = none) ∧
  (∀ c, i.newCode = some c → ∀ L, HasBreak f bps L → L ∈ c.breaks)

theorem infoServes_decide {f : Fn} {code : Code} {i : Info} {bps : Option (List Int)} {fbp : Bool}
    (h : InfoServes f code i bps fbp) : Serves f code bps fbp (decide code i.found i.newCode false) := by
  obtain ⟨h1, h2, h3, h4⟩ := h
  unfold decide
  cases hf : i.found with
  | false =>
    simp only [Bool.false_eq_true, if_false]
    refine ⟨fun L hL => ?_, fun hc => ?_⟩
    · have := h1 L hL; rw [hf] at this; cases this
    · cases hb : fbp with
      | false => rfl
      | true => have := (h2 hc hb).1; rw [hf] at this; cases this
  | true =>
    simp only [if_true, Bool.false_eq_true, if_false]
    cases hn : i.newCode with
    | none => trivial
    | some c =>
      refine ⟨h4 c hn, fun hc => ?_⟩
      cases hb : fbp with
      | false => rfl
      | true => have := (h2 hc hb).2; rw [hn] at this; cases this

/-- What is computed from the breakpoints there are. -/
theorem compute_serves {f : Fn} {s : State} {code : Code} {bps : Option (List Int)} {found : Bool}
    {newCode : Option Code} {force : Bool} {m : Nat}
    (hc : ∀ c bs, s.cache c = some bs → ∃ id, c = .copy id bs)
    (hcode : code = .orig ∨ (s.cache code).isSome)
    (h : compute f s code bps = some (found, newCode, force)) :
    InfoServes f code ⟨m, found, newCode⟩ bps s.fbp ∧
    Serves f code bps s.fbp (decide code found newCode force) := by
  unfold compute at h
  cases hcache : s.cache code with
  | some breaks =>
    rw [hcache] at h
    obtain ⟨id, rfl⟩ := hc code breaks hcache
    cases bps with
    | none => simp at h
    | some b =>
      simp only [Option.some.injEq, Prod.mk.injEq] at h
      obtain ⟨h1, h2, h3⟩ := h
      subst h2
      have hfound : ∀ L, HasBreak f (some b) L → found = true := by
        rintro L ⟨b', hb, hL, hl⟩
        obtain rfl := Option.some.inj hb
        rw [← h1]
        simp only [computeForceStay, Bool.not_eq_true', List.isEmpty_eq_false_iff]
        exact List.ne_nil_of_mem (mem_hitLines.mpr ⟨hL, hl⟩)
      have hi : InfoServes f (.copy id breaks) ⟨m, found, none⟩ (some b) s.fbp :=
        ⟨hfound, by simp, fun _ => rfl, by simp⟩
      refine ⟨hi, ?_⟩
      cases force with
      | false => exact infoServes_decide hi
      | true =>
        unfold decide
        have : Serves f (.copy id breaks) (some b) s.fbp (.runs (.copy id breaks)) := by
          refine ⟨?_, by simp⟩
          rintro L ⟨b', hb, hL, hl⟩
          obtain rfl := Option.some.inj hb
          have hf := hfound L ⟨b, rfl, hL, hl⟩
          simp only [computeForceStay] at h1 h3
          rw [h1, hf] at h3
          simp only [if_true] at h3
          have := List.all_eq_true.mp h3 L hL
          simpa [Code.breaks] using this
        cases found <;> simpa using this
  | none =>
    rw [hcache] at h hcode
    have ho : code = .orig := by simpa using hcode
    subst ho
    simp only at h
    suffices hi : InfoServes f .orig ⟨m, found, newCode⟩ bps s.fbp ∧ force = false by
      refine ⟨hi.1, ?_⟩
      rw [hi.2]
      exact infoServes_decide hi.1
    cases hfb : s.fbp with
    | true =>
      rw [hfb] at h
      simp only [if_true, Option.some.injEq, Prod.mk.injEq] at h
      obtain ⟨rfl, rfl, rfl⟩ := h
      exact ⟨⟨fun _ _ => rfl, fun _ _ => ⟨rfl, rfl⟩, fun _ => rfl, by simp⟩, rfl⟩
    | false =>
      rw [hfb] at h
      simp only [Bool.false_eq_true, if_false] at h
      have empty : ∀ {bps}, (∀ L, ¬ HasBreak f bps L) →
          InfoServes f .orig ⟨m, false, none⟩ bps false :=
        fun hne => ⟨fun L hL => (hne L hL).elim, by simp, fun _ => rfl, by simp⟩
      split at h
      · rename_i b' x b
        simp only [generate] at h
        split at h
        · rename_i hemp
          simp only [Option.some.injEq, Prod.mk.injEq] at h
          obtain ⟨rfl, rfl, rfl⟩ := h
          have hne : ∀ L, ¬ HasBreak f (some (x :: b)) L := by
            rintro L ⟨b', hb, hL, hl⟩
            obtain rfl := Option.some.inj hb
            have := mem_hitLines.mpr ⟨hL, hl⟩
            rw [List.isEmpty_iff.mp hemp] at this; cases this
          exact ⟨⟨fun L hL => (hne L hL).elim, by simp, by simp, fun c _ L hL => (hne L hL).elim⟩, rfl⟩
        · split at h
          · simp only [Option.some.injEq, Prod.mk.injEq] at h
            obtain ⟨rfl, rfl, rfl⟩ := h
            refine ⟨⟨fun _ _ => rfl, by simp, by simp, ?_⟩, rfl⟩
            rintro c hc L ⟨b', hb, hL, hl⟩
            obtain rfl := Option.some.inj hb
            obtain rfl := Option.some.inj hc
            exact mem_hitLines.mpr ⟨hL, hl⟩
          · simp only [Option.some.injEq, Prod.mk.injEq] at h
            obtain ⟨rfl, rfl, rfl⟩ := h
            exact ⟨⟨fun _ _ => rfl, by simp, by simp, by simp⟩, rfl⟩
      · rename_i hnot
        simp only [Option.some.injEq, Prod.mk.injEq] at h
        obtain ⟨rfl, rfl, rfl⟩ := h
        refine ⟨empty ?_, rfl⟩
        rintro L ⟨b, hb, hL, hl⟩
        cases b with
        | nil => cases hL
        | cons x b => exact hnot x b hb

/-- What always holds. -/
structure Inv (f : Fn) (s : State) : Prop where
  cache : ∀ c bs, s.cache c = some bs → ∃ id, c = .copy id bs
  extra : ∀ c i, s.extra c = some i → i.mtime ≤ s.mtime ∧
    (i.mtime = s.mtime → s.pending = false → InfoServes f c i s.bps s.fbp) ∧
    (∀ n, i.newCode = some n → n = .orig ∨ (s.cache n).isSome) ∧ (c ≠ .orig → i.newCode = none)
  begun : ∀ t fl, s.flights t = some fl → fl.begun ≤ s.changes
  code : ∀ t fl, s.flights t = some fl → fl.code = .orig ∨ (s.cache fl.code).isSome
  stamped : ∀ t fl m, s.flights t = some fl → fl.stage = .stamped m → m ≤ s.mtime
  lines : ∀ t fl m b, s.flights t = some fl → fl.stage = .readLines m b → m ≤ s.mtime ∧
    (m = s.mtime → s.pending = false → b = s.bps) ∧ (fl.begun = s.changes → b = s.bps)
  made : ∀ x ∈ s.made, (x.flight.calm = true → x.flight.begun = x.changes →
      x.flight.code = .orig ∨ x.bps ≠ none → Serves f x.flight.code x.bps x.fbp x.decision) ∧
    (x.decision = .error → x.flight.code ≠ .orig) ∧
    (∀ c, x.decision = .runs c → c = x.flight.code ∨ x.flight.code = .orig) ∧
    (∀ c, x.decision = .runs c → c = .orig ∨ (s.cache c).isSome)

theorem inv_start (f : Fn) : Inv f {} := by
  constructor <;> simp

theorem decide_runs {code c : Code} {found force : Bool} {n : Option Code}
    (h : decide code found n force = .runs c) : c = code ∨ n = some c := by
  unfold decide at h
  split at h
  · split at h
    · cases h; exact Or.inl rfl
    · cases n with
      | none => cases h
      | some x => cases h; exact Or.inr rfl
  · cases h; exact Or.inl rfl

theorem decide_error {code : Code} {found force : Bool} {n : Option Code} :
    decide code found n force ≠ .error := by
  unfold decide
  intro h
  split at h
  · split at h
    · cases h
    · cases n <;> cases h
  · cases h

theorem compute_newCode {f : Fn} {s : State} {code : Code} {bps : Option (List Int)} {found : Bool}
    {newCode : Option Code} {force : Bool} (h : compute f s code bps = some (found, newCode, force))
    {c : Code} (hn : newCode = some c) : s.cache code = none ∧ (c = .orig ∨ ∃ id bs, c = .copy id bs) := by
  refine ⟨?_, by cases c with | orig => simp | copy id bs => exact Or.inr ⟨id, bs, rfl⟩⟩
  unfold compute at h
  cases hcache : s.cache code with
  | none => rfl
  | some bs =>
    rw [hcache] at h
    cases bps with
    | none => simp at h
    | some b =>
      simp only [Option.some.injEq, Prod.mk.injEq] at h
      rw [hn] at h; cases h.2.1

theorem inv_step {f : Fn} {s s' : State} {a : Action} (hi : Inv f s) (h : step f s a = some s') : Inv f s' := by
  cases a with
  | change bps fbp =>
    simp only [step, Option.some.injEq] at h
    subst h
    refine { cache := hi.cache, extra := ?_, begun := ?_, code := hi.code, stamped := hi.stamped, lines := ?_, made := hi.made }
    · intro c i hc
      obtain ⟨h1, h2, h3⟩ := hi.extra c i hc
      exact ⟨h1, by simp, h3⟩
    · intro t fl hfl; exact Nat.le_succ_of_le (hi.begun t fl hfl)
    · intro t fl m b hfl hst
      have := hi.lines t fl m b hfl hst
      have hb := hi.begun t fl hfl
      exact ⟨this.1, by simp, fun h => by simp only at h; omega⟩
  | bump =>
    simp only [step, Option.some.injEq] at h
    subst h
    refine { cache := hi.cache, extra := ?_, begun := hi.begun, code := hi.code, stamped := ?_, lines := ?_, made := hi.made }
    · intro c i hc
      obtain ⟨h1, h2, h3⟩ := hi.extra c i hc
      exact ⟨Nat.le_succ_of_le h1, fun h => by simp only at h; omega, h3⟩
    · intro t fl m hfl hst; exact Nat.le_succ_of_le (hi.stamped t fl m hfl hst)
    · intro t fl m b hfl hst
      have := hi.lines t fl m b hfl hst
      exact ⟨Nat.le_succ_of_le this.1, fun h => by simp only at h; omega, this.2.2⟩
  | enter tid code =>
    simp only [step] at h
    split at h
    · rename_i hguard
      have hfly : Inv f { s with
          flights := fun t => if t = tid then some ⟨code, s.changes, !s.pending, .looked⟩ else s.flights t } := by
        refine { cache := hi.cache, extra := hi.extra, begun := ?_, code := ?_, stamped := ?_, lines := ?_, made := hi.made }
        · intro t fl hfl
          simp only at hfl
          split at hfl
          · obtain rfl := Option.some.inj hfl; exact Nat.le_refl _
          · exact hi.begun t fl hfl
        · intro t fl hfl
          simp only at hfl
          split at hfl
          · obtain rfl := Option.some.inj hfl; exact hguard.2
          · exact hi.code t fl hfl
        · intro t fl m hfl hst
          simp only at hfl
          split at hfl
          · obtain rfl := Option.some.inj hfl; cases hst
          · exact hi.stamped t fl m hfl hst
        · intro t fl m b hfl hst
          simp only at hfl
          split at hfl
          · obtain rfl := Option.some.inj hfl; cases hst
          · exact hi.lines t fl m b hfl hst
      split at h
      · rename_i info hex
        obtain ⟨h1, h2, h3, h4⟩ := hi.extra code info hex
        split at h
        · rename_i hm
          simp only [Option.some.injEq] at h
          subst h
          refine { cache := hi.cache, extra := hi.extra, begun := ?_, code := ?_, stamped := ?_, lines := ?_, made := ?_ }
          · intro t fl hfl
            simp only [State.land] at hfl
            split at hfl
            · cases hfl
            · exact hi.begun t fl hfl
          · intro t fl hfl
            simp only [State.land] at hfl
            split at hfl
            · cases hfl
            · exact hi.code t fl hfl
          · intro t fl m hfl hst
            simp only [State.land] at hfl
            split at hfl
            · cases hfl
            · exact hi.stamped t fl m hfl hst
          · intro t fl m b hfl hst
            simp only [State.land] at hfl
            split at hfl
            · cases hfl
            · exact hi.lines t fl m b hfl hst
          · intro x hx
            simp only [State.land, List.mem_cons] at hx
            rcases hx with rfl | hx
            · refine ⟨?_, fun h => (decide_error h).elim, ?_, ?_⟩
              · intro hcalm _ _
                simp only [Bool.not_eq_true'] at hcalm
                exact infoServes_decide (h2 hm hcalm)
              · intro c hc
                rcases decide_runs hc with h | h
                · exact Or.inl h
                · right
                  by_cases ho : code = .orig
                  · exact ho
                  · rw [h4 ho] at h; cases h
              · intro c hc
                rcases decide_runs hc with rfl | h
                · exact hguard.2
                · exact h3 c h
            · exact hi.made x hx
        · simp only [Option.some.injEq] at h
          subst h; exact hfly
      · simp only [Option.some.injEq] at h
        subst h; exact hfly
    · cases h
  | stamp tid =>
    simp only [step] at h
    split at h
    · rename_i code begun calm hfl₀
      simp only [Option.some.injEq] at h
      subst h
      refine { cache := hi.cache, extra := hi.extra, begun := ?_, code := ?_, stamped := ?_, lines := ?_, made := hi.made }
      · intro t fl hfl
        simp only at hfl
        split at hfl
        · obtain rfl := Option.some.inj hfl; exact (hi.begun tid _ hfl₀ :)
        · exact hi.begun t fl hfl
      · intro t fl hfl
        simp only at hfl
        split at hfl
        · obtain rfl := Option.some.inj hfl; exact (hi.code tid _ hfl₀ :)
        · exact hi.code t fl hfl
      · intro t fl m hfl hst
        simp only at hfl
        split at hfl
        · obtain rfl := Option.some.inj hfl; cases hst; exact Nat.le_refl _
        · exact hi.stamped t fl m hfl hst
      · intro t fl m b hfl hst
        simp only at hfl
        split at hfl
        · obtain rfl := Option.some.inj hfl; cases hst
        · exact hi.lines t fl m b hfl hst
    · cases h
  | readLines tid =>
    simp only [step] at h
    split at h
    · rename_i code begun calm m₀ hfl₀
      simp only [Option.some.injEq] at h
      subst h
      refine { cache := hi.cache, extra := hi.extra, begun := ?_, code := ?_, stamped := ?_, lines := ?_, made := hi.made }
      · intro t fl hfl
        simp only at hfl
        split at hfl
        · obtain rfl := Option.some.inj hfl; exact (hi.begun tid _ hfl₀ :)
        · exact hi.begun t fl hfl
      · intro t fl hfl
        simp only at hfl
        split at hfl
        · obtain rfl := Option.some.inj hfl; exact (hi.code tid _ hfl₀ :)
        · exact hi.code t fl hfl
      · intro t fl m hfl hst
        simp only at hfl
        split at hfl
        · obtain rfl := Option.some.inj hfl; cases hst
        · exact hi.stamped t fl m hfl hst
      · intro t fl m b hfl hst
        simp only at hfl
        split at hfl
        · obtain rfl := Option.some.inj hfl
          cases hst
          exact ⟨hi.stamped tid _ m₀ hfl₀ rfl, fun _ _ => rfl, fun _ => rfl⟩
        · exact hi.lines t fl m b hfl hst
    · cases h
  | finish tid =>
    simp only [step] at h
    split at h
    · rename_i code begun calm m₀ bps₀ hfl₀
      have hcode := hi.code tid _ hfl₀
      obtain ⟨hm1, hm2, hm3⟩ := hi.lines tid _ m₀ bps₀ hfl₀ rfl
      simp only at hcode hm3
      split at h
      · rename_i hcomp
        simp only [Option.some.injEq] at h
        subst h
        have hcn : (s.cache code).isSome ∧ bps₀ = none := by
          unfold compute at hcomp
          cases hcache : s.cache code with
          | some bs =>
            rw [hcache] at hcomp
            cases hb : bps₀ with
            | none => exact ⟨rfl, rfl⟩
            | some b => rw [hb] at hcomp; simp at hcomp
          | none =>
            rw [hcache] at hcomp
            simp only at hcomp
            split at hcomp
            · cases hcomp
            · split at hcomp <;> cases hcomp
        refine { cache := hi.cache, extra := hi.extra, begun := ?_, code := ?_, stamped := ?_, lines := ?_, made := ?_ }
        · intro t fl hfl
          simp only [State.land] at hfl
          split at hfl
          · cases hfl
          · exact hi.begun t fl hfl
        · intro t fl hfl
          simp only [State.land] at hfl
          split at hfl
          · cases hfl
          · exact hi.code t fl hfl
        · intro t fl m hfl hst
          simp only [State.land] at hfl
          split at hfl
          · cases hfl
          · exact hi.stamped t fl m hfl hst
        · intro t fl m b hfl hst
          simp only [State.land] at hfl
          split at hfl
          · cases hfl
          · exact hi.lines t fl m b hfl hst
        · intro x hx
          simp only [State.land, List.mem_cons] at hx
          rcases hx with rfl | hx
          · have hne : code ≠ .orig := by
              rintro rfl
              obtain ⟨bs, hbs⟩ := Option.isSome_iff_exists.mp hcn.1
              obtain ⟨id, h⟩ := hi.cache _ _ hbs
              cases h
            refine ⟨?_, fun _ => hne, by simp, by simp⟩
            intro _ hb hor
            simp only at hb hor
            rcases hor with h | h
            · exact (hne h).elim
            · exact (h (by rw [← hm3 hb]; exact hcn.2)).elim
          · exact hi.made x hx
      · rename_i found newCode force hcomp
        simp only [Option.some.injEq] at h
        subst h
        obtain ⟨hs1, hs2⟩ := compute_serves (m := m₀) hi.cache hcode hcomp
        have hmono : ∀ c, (s.cache c).isSome → (addCopy s.cache newCode c).isSome := by
          intro c hc
          unfold addCopy
          split
          · split
            · rfl
            · exact hc
          · exact hc
        have hnew : ∀ n, newCode = some n → n = .orig ∨ (addCopy s.cache newCode n).isSome := by
          intro n hn
          subst hn
          cases n with
          | orig => exact Or.inl rfl
          | copy id bs => right; simp [addCopy]
        have hnone : code ≠ .orig → newCode = none := hs1.2.2.1
        refine { cache := ?_, extra := ?_, begun := ?_, code := ?_, stamped := ?_, lines := ?_, made := ?_ }
        · intro c bs hc
          simp only at hc
          unfold addCopy at hc
          split at hc
          · split at hc
            · rename_i id' bs' heq
              obtain rfl := Option.some.inj hc
              exact ⟨id', heq⟩
            · exact hi.cache c bs hc
          · exact hi.cache c bs hc
        · intro c i hc
          simp only at hc
          split at hc
          · rename_i heq
            obtain rfl := Option.some.inj hc
            subst heq
            refine ⟨hm1, ?_, hnew, hnone⟩
            intro h1 h2
            simp only [State.land] at h1 h2 ⊢
            rw [← hm2 h1 h2]
            exact hs1
          · obtain ⟨h1, h2, h3, h4⟩ := hi.extra c i hc
            exact ⟨h1, h2, fun n hn => (h3 n hn).imp id (hmono n), h4⟩
        · intro t fl hfl
          simp only [State.land] at hfl
          split at hfl
          · cases hfl
          · exact hi.begun t fl hfl
        · intro t fl hfl
          simp only [State.land] at hfl
          split at hfl
          · cases hfl
          · exact (hi.code t fl hfl).imp id (hmono _)
        · intro t fl m hfl hst
          simp only [State.land] at hfl
          split at hfl
          · cases hfl
          · exact hi.stamped t fl m hfl hst
        · intro t fl m b hfl hst
          simp only [State.land] at hfl
          split at hfl
          · cases hfl
          · exact hi.lines t fl m b hfl hst
        · intro x hx
          simp only [State.land, List.mem_cons] at hx
          rcases hx with rfl | hx
          · refine ⟨?_, fun h => (decide_error h).elim, ?_, ?_⟩
            · intro _ hb _
              simp only at hb ⊢
              rw [← hm3 hb]
              exact hs2
            · intro c hc
              rcases decide_runs hc with h | h
              · exact Or.inl h
              · right
                by_cases ho : code = .orig
                · exact ho
                · rw [hnone ho] at h; cases h
            · intro c hc
              rcases decide_runs hc with rfl | h
              · exact hcode.imp id (hmono _)
              · exact hnew c h
          · obtain ⟨h1, h2, h3, h4⟩ := hi.made x hx
            exact ⟨h1, h2, h3, fun c hc => (h4 c hc).imp id (hmono c)⟩
    · cases h

theorem inv_run {f : Fn} : ∀ {as : List Action} {s s' : State}, Inv f s → run f s as = some s' → Inv f s' := by
  intro as
  induction as with
  | nil => intro s s' hi h; simp [run] at h; subst h; exact hi
  | cons a as ih =>
    intro s s' hi h
    simp only [run, Option.bind_eq_some_iff] at h
    obtain ⟨s₁, h1, h2⟩ := h
    exact ih (inv_step hi h1) h2

/-! ## C64 -/

/-- C64: whatever commands changed the breakpoints before and however other threads
interleave: if no change was under way when a frame entered the evaluator and none was
made until the decision, the decision serves the breakpoints there are.  The frame has
the function's own code, or the file has an entry for breakpoints. -/
theorem c64_serves {f : Fn} {as : List Action} {s : State} (h : run f {} as = some s)
    {x : Made} (hx : x ∈ s.made) (hcalm : x.flight.calm = true) (hsame : x.flight.begun = x.changes)
    (hok : x.flight.code = .orig ∨ x.bps ≠ none) :
    Serves f x.flight.code x.bps x.fbp x.decision :=
  ((inv_run (inv_start f) h).made x hx).1 hcalm hsame hok

/-- C64: the evaluator fails only for frames that run a copy already. -/
theorem c64_fails_only_copies {f : Fn} {as : List Action} {s : State} (h : run f {} as = some s)
    {x : Made} (hx : x ∈ s.made) (he : x.decision = .error) : x.flight.code ≠ .orig :=
  ((inv_run (inv_start f) h).made x hx).2.1 he

/-- C64: a frame that runs a copy is never given other code; and the code a frame is given is
the function's own or a copy the evaluator knows. -/
theorem c64_copy_kept {f : Fn} {as : List Action} {s : State} (h : run f {} as = some s)
    {x : Made} (hx : x ∈ s.made) {c : Code} (hr : x.decision = .runs c) :
    (x.flight.code ≠ .orig → c = x.flight.code) ∧ (c = .orig ∨ (s.cache c).isSome) := by
  obtain ⟨_, _, h3, h4⟩ := (inv_run (inv_start f) h).made x hx
  refine ⟨fun hne => ?_, h4 c hr⟩
  rcases h3 c hr with h | h
  · exact h
  · exact (hne h).elim

/-! ### Findings and examples -/

/-- A function with two lines. -/
def fn : Fn := ⟨[5, 6], fun _ => true⟩

/-- One evaluation without interruption. -/
def eval (tid : Nat) (code : Code) : List Action := [.enter tid code, .stamp tid, .readLines tid, .finish tid]

/-- With a breakpoint at line 5 a frame gets a copy; after line 6 has been added a frame that
runs the copy is traced, and a new frame gets another copy; after line 6 has been removed
the frame that runs the first copy is left alone. -/
theorem c64_example : ∃ s, run fn {} ([.change (some [5]) false, .bump] ++ eval 0 .orig ++
      [.change (some [5, 6]) false, .bump] ++ eval 0 (.copy 0 [5]) ++ eval 0 .orig ++
      [.change (some [5]) false, .bump] ++ eval 0 (.copy 0 [5])) = some s ∧
    s.made.reverse.map (fun x => (x.flight.code, x.decision)) =
      [(.orig, .runs (.copy 0 [5])), (.copy 0 [5], .traced), (.orig, .runs (.copy 2 [5, 6])),
       (.copy 0 [5], .runs (.copy 0 [5]))] ∧
    ∀ x ∈ s.made, x.flight.calm = true ∧ x.flight.begun = x.changes ∧ x.bps ≠ none := by
  refine ⟨_, rfl, ?_, ?_⟩ <;> decide

/-- Finding: when all breakpoints of the file have been removed (which removes its entry), the
evaluator fails for a generator that runs a copy, whatever happened before. -/
theorem c64_removed_fails {f : Fn} {as : List Action} {s : State} (h : run f {} as = some s)
    {tid id : Nat} {bs : List Int} (hcopy : (s.cache (.copy id bs)).isSome) (hfree : s.flights tid = none)
    (fbp : Bool) :
    ∃ s' x, run f s ([.change none fbp, .bump] ++ eval tid (.copy id bs)) = some s' ∧
      s'.made = x :: s.made ∧ x.flight.code = .copy id bs ∧ x.flight.calm = true ∧
      x.flight.begun = x.changes ∧ x.decision = .error := by
  have hi := inv_run (inv_start f) h
  obtain ⟨b, hb⟩ := Option.isSome_iff_exists.mp hcopy
  refine (fun ⟨s', h1, h2⟩ => ⟨s', _, h1, h2, rfl, rfl, rfl, rfl⟩ : (∃ s', run f s ([.change none fbp, .bump] ++
    eval tid (.copy id bs)) = some s' ∧ s'.made = ⟨⟨.copy id bs, s.changes + 1, true,
      .readLines (s.mtime + 1) none⟩, .error, none, fbp, s.changes + 1⟩ :: s.made) → _) ?_
  cases hex : s.extra (.copy id bs) with
  | none => simp [run, step, eval, hfree, hb, hex, compute, State.land]
  | some info =>
    have hlt := (hi.extra _ _ hex).1
    have hne : ¬ info.mtime = s.mtime + 1 := by omega
    simp [run, step, eval, hfree, hb, hex, hne, compute, State.land]

/-- Finding: a generator that was started before the breakpoint was set is given a copy when it
goes on: the evaluator does not look at where the frame is, which counts in its own
code. -/
theorem c64_suspended_is_replaced : ∃ s, run fn {} (eval 0 .orig ++
      [.change (some [5]) false, .bump] ++ eval 0 .orig) = some s ∧
    s.made.reverse.map (fun x => (x.flight.code, x.decision)) =
      [(.orig, .runs .orig), (.orig, .runs (.copy 1 [5]))] := by
  refine ⟨_, rfl, ?_⟩
  decide

/-- A breakpoint for the name of a function that runs a copy is not served. -/
theorem c64_name_not_served : ∃ s x, run fn {} ([.change (some [5]) false, .bump] ++ eval 0 .orig ++
      [.change (some [5]) true, .bump] ++ eval 0 (.copy 0 [5])) = some s ∧
    s.made.head? = some x ∧ x.fbp = true ∧ x.decision = .runs (.copy 0 [5]) := by
  refine ⟨_, _, rfl, rfl, rfl, ?_⟩
  decide

/-- The proviso on changes is needed: a frame that enters between the change and the new
`mtime` can be decided on old information. -/
theorem c64_mid_change : ∃ s x, run fn {} (eval 0 .orig ++
      [.change (some [5]) false, .enter 0 .orig]) = some s ∧
    s.made.head? = some x ∧ x.flight.calm = false ∧ x.flight.begun = x.changes ∧
    x.decision = .runs .orig ∧ x.bps = some [5] := by
  refine ⟨_, _, rfl, rfl, ?_⟩
  decide

end FrameEval
