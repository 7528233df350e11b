import Verif.StepInto.Props
import Verif.Dispatch.Step
/-!
C82: where a step into a chosen call stops, for the whole of the trace function (`Verif/Dispatch`) instead of its decision alone: the caches,
the skipping of functions, the filters and the breakpoints of other lines do not change it.
-/

namespace StepInto

open Dispatch (Info Stack Frame Eff Answers dispatch stepDecision stepSmart variantAt isSame topFrame lookupBp hookRejects canSkip)

/-- the variants as the trace function has them; since they are compared by identity, they are numbered -/
def known (vs : List Variant) : List Dispatch.Variant :=
  vs.mapIdx fun i v => { offset := v.call.offset, uid := i, children := v.children.mapIdx fun j w => ((w.call.offset : Int), j) }

/-- frames as numbers, 0 for none -/
def num : List Dispatch.Entry → Nat
  | [] => 0
  | e :: _ => e.frame.id + 1

/-- the event as this area has it -/
def seen (line : Bool) (cur : Dispatch.Entry) (back : Stack) : Event :=
  ⟨line, cur.frame.id + 1, num back, (back.head?.map (·.lasti.toNat)).getD 0, num back.tail⟩

theorem last_le {α : Type} (off : α → Int) (x : Int) (l : List α) (ho : l.Pairwise fun a b => off a < off b) (a : α) :
    variantAt off x l = some a ↔ ∃ i : Nat, l[i]? = some a ∧ off a ≤ x ∧ ∀ b, l[i + 1]? = some b → x < off b := by
  unfold variantAt
  induction l with
  | nil => simp
  | cons c l ih =>
    rw [List.pairwise_cons] at ho
    have ih := ih ho.2
    by_cases hc : off c ≤ x
    · rw [List.filter_cons_of_pos (by simpa using hc), List.getLast?_cons]
      cases hl : (l.filter fun v => decide (off v ≤ x)).getLast? with
      | none =>
        rw [hl] at ih
        simp only [Option.getD_none, Option.some.injEq]
        have hno : ∀ b ∈ l, x < off b := by
          intro b hb
          rw [List.getLast?_eq_none_iff, List.filter_eq_nil_iff] at hl
          have := hl b hb
          simp only [decide_eq_true_eq] at this
          omega
        constructor
        · rintro rfl
          refine ⟨0, rfl, hc, ?_⟩
          intro b hb
          exact hno b (List.mem_of_getElem? (by simpa using hb))
        · rintro ⟨i, h1, h2, _⟩
          cases i with
          | zero => simpa using h1
          | succ i =>
            have := hno a (List.mem_of_getElem? (by simpa using h1))
            omega
      | some b =>
        rw [hl] at ih
        simp only [Option.getD_some]
        rw [ih]
        constructor
        · rintro ⟨i, h1, h2, h3⟩
          exact ⟨i + 1, by simpa using h1, h2, by simpa using h3⟩
        · rintro ⟨i, h1, h2, h3⟩
          cases i with
          | zero =>
            exfalso
            have hb : b ∈ l.filter fun v => decide (off v ≤ x) := List.mem_of_getLast? hl
            simp only [List.mem_filter, decide_eq_true_eq] at hb
            cases l with
            | nil => simp at hb
            | cons d l =>
              have h4 := h3 d (by simp)
              rcases List.mem_cons.1 hb.1 with rfl | h5
              · omega
              · rw [List.pairwise_cons] at ho
                have := ho.2.1 b h5
                omega
          | succ i => exact ⟨i, by simpa using h1, h2, by simpa using h3⟩
    · rw [List.filter_cons_of_neg (by simpa using hc)]
      rw [ih]
      constructor
      · rintro ⟨i, h1, h2, _⟩
        exfalso
        have := ho.1 a (List.mem_of_getElem? h1)
        omega
      · rintro ⟨i, h1, h2, _⟩
        exfalso
        cases i with
        | zero => simp only [List.getElem?_cons_zero, Option.some.injEq] at h1; subst h1; omega
        | succ i =>
          have := ho.1 a (List.mem_of_getElem? (by simpa using h1))
          omega

/-- both models find the same variant -/
theorem same_variant {α : Type} (vs : List Variant) (ho : Ordered vs) (f : Nat → Variant → α) (off : α → Int) (uid : α → Nat)
    (hoff : ∀ i v, off (f i v) = v.call.offset) (huid : ∀ i v, uid (f i v) = i) (x : Nat) :
    (variantAt off (x : Int) (vs.mapIdx f)).map uid = lookup x vs := by
  have hp : (vs.mapIdx f).Pairwise fun a b => off a < off b := by
    rw [List.pairwise_iff_getElem]
    intro i j hi hj hij
    simp only [List.getElem_mapIdx, hoff]
    simp only [List.length_mapIdx] at hi hj
    have := List.pairwise_iff_getElem.1 ho i j hi hj hij
    omega
  apply Option.ext
  intro k
  rw [c82_lookup vs ho, Option.map_eq_some_iff]
  constructor
  · rintro ⟨a, h, hk⟩
    obtain ⟨i, h1, h2, h3⟩ := (last_le off x _ hp a).1 h
    rw [List.getElem?_mapIdx, Option.map_eq_some_iff] at h1
    obtain ⟨v, h1, rfl⟩ := h1
    rw [huid] at hk
    subst hk
    rw [hoff] at h2
    refine ⟨v, h1, by omega, ?_⟩
    intro w hw
    have := h3 (f (i + 1) w) (by rw [List.getElem?_mapIdx, hw]; rfl)
    rw [hoff] at this
    omega
  · rintro ⟨v, h1, h2, h3⟩
    refine ⟨f k v, (last_le off x _ hp _).2 ⟨k, by rw [List.getElem?_mapIdx, h1]; rfl, by rw [hoff]; omega, ?_⟩, huid k v⟩
    intro b hb
    rw [List.getElem?_mapIdx, Option.map_eq_some_iff] at hb
    obtain ⟨w, hw, rfl⟩ := hb
    have := h3 w hw
    rw [hoff]
    omega

/-- the step into a chosen call that a thread is doing -/
structure Chosen (i : Info) (F : Frame) (vs : List Variant) (req : Nat × Option Nat) : Prop where
  cmd : i.cmd = .smart
  stop : i.stop = some F
  ipy : i.ipy = false
  parent : i.parentOffset = req.1
  child : i.childOffset = (match req.2 with | some c => (c : Int) | none => -1)
  variants : i.variants = known vs

theorem if_stop {b : Bool} : (if b = true then Dispatch.StepDec.stop true else Dispatch.StepDec.off) = .stop true ↔ b = true := by
  cases b <;> simp

theorem known_nil {vs : List Variant} : known vs = [] ↔ vs = [] := by simp [known]

/-- the decisions agree -/
theorem decision {i : Info} {F : Frame} {vs : List Variant} {req : Nat × Option Nat} (h : Chosen i F vs req) (hne : vs ≠ [])
    (ho : Ordered vs) (hc : ∀ v ∈ vs, Ordered v.children) {cur : Dispatch.Entry} {back : Stack} {sl : Option Nat}
    (hid : ∀ e ∈ cur :: back, e.frame.id = F.id → e.frame = F) (hla : ∀ e ∈ back, 0 ≤ e.lasti) (cfg : Dispatch.Cfg)
    (hh : hookRejects cfg cur.frame.code = false) (line : Bool) :
    stepDecision cfg i i.cmd i.stop sl (if line then .line else .ret) cur back = .stop true ↔
      stops (F.id + 1) vs req (seen line cur back) = true := by
  have hsame : ∀ stk : Stack, (∀ e ∈ stk, e ∈ cur :: back) → isSame i.ipy i.stop stk = decide (F.id + 1 = num stk) := by
    intro stk hs
    rw [h.ipy, h.stop]
    cases stk with
    | nil => simp [isSame, topFrame, num]
    | cons e stk =>
      simp only [isSame, topFrame, List.head?_cons, Option.map_some, Option.some.injEq, Bool.false_and, num, Nat.add_right_cancel_iff]
      by_cases he : F = e.frame
      · simp [he]
      · rw [if_neg he]
        have : F.id ≠ e.frame.id := fun hf => he (hid e (hs e (by simp)) hf.symm).symm
        simp [this]
  have s1 := hsame (cur :: back) (fun _ h => h)
  have s2 := hsame back (fun e he => by simp [he])
  have s3 := hsame back.tail (fun e he => by simp [List.mem_of_mem_tail he])
  unfold stepDecision
  rw [hh, h.cmd]
  simp only [Bool.false_eq_true, if_false]
  unfold stepSmart stops
  rw [s1, s2, s3]
  have hvs : i.variants ≠ [] := by rw [h.variants, Ne, known_nil]; exact hne
  have hemp : vs.isEmpty = false := by cases vs <;> simp_all
  cases line with
  | false => by_cases hx : F.id + 1 = cur.frame.id + 1 <;> simp [seen, hx, num]
  | true =>
    simp only [if_true, seen, reduceCtorEq, decide_false, Bool.and_false, Bool.not_true, Bool.false_eq_true, if_false, and_false, decide_true, Bool.and_true,
      decide_eq_true_eq, and_true]
    by_cases hb : F.id + 1 = num back
    · rw [if_pos hb, if_pos hb]
      cases back with
      | nil => simp [num] at hb
      | cons p rest =>
        cases hr : req.2 with
        | some c => simp [h.child, hr]
        | none =>
          have hch : i.childOffset = -1 := by rw [h.child, hr]
          have hpar : i.parentOffset ≥ 0 ∧ i.variants ≠ [] := ⟨by rw [h.parent]; omega, hvs⟩
          have hp := hla p (by simp)
          have e1 : (p.lasti.toNat : Int) = p.lasti := by omega
          have k1 := same_variant vs ho (fun i v => ({ offset := v.call.offset, uid := i, children := v.children.mapIdx fun j w => ((w.call.offset : Int), j) } : Dispatch.Variant))
            (·.offset) (·.uid) (fun _ _ => rfl) (fun _ _ => rfl)
          have k2 := k1 p.lasti.toNat
          have k3 := k1 req.1
          rw [e1] at k2
          simp only [hch, ne_eq, not_true_eq_false, if_false, if_pos hpar, h.parent, h.variants, known, hemp, List.head?_cons, Option.map_some, Option.getD_some, Bool.not_false, Bool.true_and]
          rw [if_stop, k2, k3]
          by_cases hl : lookup p.lasti.toNat vs = lookup req.1 vs <;> simp [hl, hne]
    · rw [if_neg hb, if_neg hb]
      by_cases hbb : F.id + 1 = num back.tail
      · have hbe : back ≠ [] := by rintro rfl; simp [num] at hbb
        obtain ⟨p, rest, rfl⟩ := List.exists_cons_of_ne_nil hbe
        simp only [List.isEmpty_cons, Bool.not_false, Bool.true_and, hbb, decide_true, if_true, hemp, Bool.false_eq_true, if_false]
        cases hr : req.2 with
        | none =>
          have hch : i.childOffset = -1 := by rw [h.child, hr]
          simp [hch]
        | some c =>
          have hch : i.childOffset = c := by rw [h.child, hr]
          have hcond : i.childOffset ≥ 0 ∧ i.parentOffset ≥ 0 ∧ i.variants ≠ [] := ⟨by rw [hch]; omega, by rw [h.parent]; omega, hvs⟩
          rw [if_pos hcond]
          have hp := hla p (by simp)
          have e1 : (p.lasti.toNat : Int) = p.lasti := by omega
          have k1 := same_variant vs ho (fun i v => ({ offset := v.call.offset, uid := i, children := v.children.mapIdx fun j w => ((w.call.offset : Int), j) } : Dispatch.Variant))
            (·.offset) (·.uid) (fun _ _ => rfl) (fun _ _ => rfl) req.1
          simp only [h.parent, h.variants, known, hch]
          generalize hva : variantAt (fun x : Dispatch.Variant => x.offset) (req.1 : Int) _ = va at k1
          cases va with
          | none =>
            rw [← k1]; simp
          | some d =>
            rw [← k1]
            obtain ⟨j, hj, _, _⟩ := (last_le (fun x : Dispatch.Variant => x.offset) (req.1 : Int) (known vs) (by
              rw [List.pairwise_iff_getElem]
              intro i j hi hj hij
              simp only [known, List.getElem_mapIdx]
              simp only [known, List.length_mapIdx] at hi hj
              have := List.pairwise_iff_getElem.1 ho i j hi hj hij
              omega) d).1 hva
            rw [known, List.getElem?_mapIdx, Option.map_eq_some_iff] at hj
            obtain ⟨v, hv, rfl⟩ := hj
            have hvo := hc v (List.mem_of_getElem? hv)
            have c1 := same_variant v.children hvo (fun j w => ((w.call.offset : Int), j)) (·.1) (·.2) (fun _ _ => rfl) (fun _ _ => rfl)
            have c2 := c1 p.lasti.toNat
            have c3 := c1 c
            rw [e1] at c2
            simp only [Option.map_some, hv, Option.getD_some, List.head?_cons]
            rw [if_stop]
            simp only [c2, c3]
            by_cases hce : v.children.isEmpty
            · have : (v.children.mapIdx fun j w => ((w.call.offset : Int), j)).isEmpty = true := by
                rw [List.isEmpty_iff] at hce ⊢; simp [hce]
              simp [hce, this]
            · have : (v.children.mapIdx fun j w => ((w.call.offset : Int), j)).isEmpty = false := by
                cases hx : v.children with
                | nil => simp [hx] at hce
                | cons a b => simp
              by_cases hl : lookup p.lasti.toNat v.children = lookup c v.children <;> simp [hce, this, hl]
      · simp [hbb]

/-- C82: at a line without a breakpoint the trace function stops during the step exactly if the line is one to stop at (`c82_stops` and
`c82_stops_in` say which those are), whatever the debugger has cached and whatever else is set. -/
theorem c82_trace_line {cfg : Dispatch.Cfg} {cache : Dispatch.Cache} {i : Info} {sl : Option Nat} {F : Frame} {vs : List Variant}
    {req : Nat × Option Nat} {cur : Dispatch.Entry} {back : Stack} {ans : Answers} (h : Chosen i F vs req) (hne : vs ≠ []) (ho : Ordered vs)
    (hc : ∀ v ∈ vs, Ordered v.children) (hid : ∀ e ∈ cur :: back, e.frame.id = F.id → e.frame = F) (hla : ∀ e ∈ back, 0 ≤ e.lasti)
    (hh : hookRejects cfg cur.frame.code = false) (hd : cfg.disposed = false) (hs : i.suspended = false)
    (hb : lookupBp (cfg.bps cur.frame.code.file) cur.line = none) :
    (∃ f x o, Eff.suspend f x o ∈ (dispatch cfg cache i sl cur back .line ans).effects) ↔
      stops (F.id + 1) vs req (seen true cur back) = true := by
  have hdec := decision h hne ho hc (sl := sl) hid hla cfg hh true
  simp only [if_true] at hdec
  rw [← hdec]
  refine Dispatch.line_stops_iff hd hs hb ?_
  intro hst
  have hst' := hdec.1 hst
  have hin : F.id + 1 = num back ∨ F.id + 1 = num back.tail := by
    unfold stops seen at hst'
    simp only [Bool.not_true, Bool.false_eq_true, and_false, if_false, and_true] at hst'
    by_cases h1 : F.id + 1 = num back
    · exact .inl h1
    · rw [if_neg h1] at hst'
      by_cases h2 : F.id + 1 = num back.tail
      · exact .inr h2
      · rw [if_neg h2] at hst'; cases hst'
  have top : ∀ stk : Stack, (∀ e ∈ stk, e ∈ cur :: back) → F.id + 1 = num stk → i.stop = topFrame stk := by
    intro stk hs hn
    cases stk with
    | nil => simp [num] at hn
    | cons e stk =>
      simp only [num, Nat.add_right_cancel_iff] at hn
      rw [h.stop, ← hid e (hs e (by simp)) hn.symm]; rfl
  unfold canSkip
  rw [hs, h.cmd]
  simp only [Bool.false_eq_true, if_false]
  rcases hin with h1 | h1
  · rw [top back (fun e he => by simp [he]) h1]; simp
  · have hbe : back.isEmpty = false := by cases back <;> simp [num] at h1 ⊢
    rw [top back.tail (fun e he => by simp [List.mem_of_mem_tail he]) h1]; simp [hbe]

/-- C82: the frame the step began in returns: the step stops in its caller (a function of the user, not generator code). -/
theorem c82_trace_return {cfg : Dispatch.Cfg} {cache : Dispatch.Cache} {i : Info} {sl : Option Nat} {F : Frame} {vs : List Variant}
    {req : Nat × Option Nat} {cur p : Dispatch.Entry} {rest : Stack} {ans : Answers} (h : Chosen i F vs req) (hF : cur.frame = F)
    (hd : cfg.disposed = false) (hs : i.suspended = false) (hg : cur.frame.code.gen = false) (hu : ans.userExc ≠ some true)
    (hh : hookRejects cfg cur.frame.code = false) (hh' : hookRejects cfg p.frame.code = false)
    (hp : cfg.fileType p.frame.code ≠ some .pydev) (hds : cfg.debugStart p.frame.code = false)
    (htp : cfg.traceProperty p.frame.code = false) :
    stops (F.id + 1) vs req (seen false cur (p :: rest)) = true ∧
    Eff.suspend p.frame false false ∈ (dispatch cfg cache i sl cur (p :: rest) .ret ans).effects :=
  ⟨by simp [stops, seen, hF], Dispatch.smart_return_stops hd hs h.cmd (by rw [h.stop, hF]) hg hu hh hh' hp hds htp⟩

/-- C82: other returns do not stop. -/
theorem c82_trace_return_only {cfg : Dispatch.Cfg} {cache : Dispatch.Cache} {i : Info} {sl : Option Nat} {F : Frame} {vs : List Variant}
    {req : Nat × Option Nat} {cur : Dispatch.Entry} {back : Stack} {ans : Answers} (h : Chosen i F vs req) (hne : cur.frame ≠ F)
    (hs : i.suspended = false) {f : Frame} {x o : Bool} :
    Eff.suspend f x o ∉ (dispatch cfg cache i sl cur back .ret ans).effects := by
  intro hx
  obtain ⟨cls, hcl, h1 | h1 | h1⟩ := Dispatch.dispatch_suspend hx
  · obtain ⟨_, _, bp, hb, _⟩ := h1
    obtain ⟨hk, _, _, hfb, _⟩ := Dispatch.classify_spec hcl
    simp only [Dispatch.kindOf, Option.some.injEq] at hk
    have hf : cls.funcBp = none := by
      cases hc : cls.funcBp with
      | none => rfl
      | some b => rw [hfb (by simp [hc])] at hk; cases hk
    simp [Dispatch.theBp, hf, ← hk] at hb
  · rw [hs] at h1; cases h1.2.1
  · obtain ⟨hk, _, hy, _, _⟩ := Dispatch.classify_spec hcl
    simp only [Dispatch.kindOf, Option.some.injEq] at hk
    have hdec := h1.2.2.1
    rw [← hk, h.cmd] at hdec
    unfold stepDecision at hdec
    split at hdec
    · simp at hdec
    · simp only at hdec
      unfold stepSmart at hdec
      have : isSame cls.info.ipy i.stop (cur :: back) = false := by
        rw [hy, h.ipy, h.stop]
        simp [isSame, topFrame, Ne.symm hne]
      simp [this] at hdec

/-- stepping into `any` of the example -/
theorem c82_trace_example :
    let F : Frame := ⟨1, ⟨1, c!"main", 1, [1, 2], false, false, [], 0⟩⟩
    let g : Frame := ⟨2, ⟨1, c!"any", 10, [10, 11], false, false, [], 1⟩⟩
    let i : Info := { cmd := .smart, stop := some F, parentOffset := 30, variants := known exVariants }
    Chosen i F exVariants (30, none) ∧
    (∃ f x o, Eff.suspend f x o ∈ (dispatch {} {} i none ⟨g, 11, 0⟩ [⟨F, 2, 30⟩] .line {}).effects) ∧
    ¬ (∃ f x o, Eff.suspend f x o ∈ (dispatch {} {} i none ⟨g, 11, 0⟩ [⟨F, 2, 10⟩] .line {}).effects) := by
  refine ⟨⟨rfl, rfl, rfl, rfl, rfl, rfl⟩, ⟨⟨2, ⟨1, c!"any", 10, [10, 11], false, false, [], 1⟩⟩, false, false, by decide⟩, ?_⟩
  rintro ⟨f, x, o, h⟩
  have : (dispatch {} {} { cmd := .smart, stop := some ⟨1, ⟨1, c!"main", 1, [1, 2], false, false, [], 0⟩⟩, parentOffset := 30, variants := known exVariants } none
    ⟨⟨2, ⟨1, c!"any", 10, [10, 11], false, false, [], 1⟩⟩, 11, 0⟩ [⟨⟨1, ⟨1, c!"main", 1, [1, 2], false, false, [], 0⟩⟩, 2, 10⟩] .line {}).effects = [] := by decide
  rw [this] at h
  cases h

end StepInto
