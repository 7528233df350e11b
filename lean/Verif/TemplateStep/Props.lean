import Verif.TemplateStep.Model
/-!
C116: a step from a stop in a template stops at the place in a template its command names.
-/

namespace TemplateStep

/-- A place in a template function of Jinja2 to stop at: a line of it that is a line of the template. -/
def LineOf (i : Nat) (e : Event) : Prop := e.kind = .line ∧ e.frame.id = i ∧ e.frame.render = true ∧ e.mapped = true

/-- The function of frame `i` ends. -/
def EndOf (i : Nat) (e : Event) : Prop := e.kind = .ret ∧ e.frame.id = i ∧ backEvLocal e = false

/-- `Enclosing evs i j`: the template function `j` encloses `i`, and all those from `i` up to it ended in the events. -/
inductive Enclosing (evs : List Event) (i : Nat) : Nat → Prop where
  | self : Enclosing evs i i
  | outer {j k : Nat} {e : Event} : Enclosing evs i j → e ∈ evs → EndOf j e → findRender e.outer = some k → Enclosing evs i k

theorem go_split {f : St → Event → St × Stop} {s : St} {evs : List Event} {pre : List Event} {e : Event} {k : Stop} {s' : St}
    (h : go f s evs = (s', some (pre, e, k))) :
    ∃ post, evs = pre ++ e :: post ∧ ∃ s1, go f s pre = (s1, none) ∧ f s1 e = (s', k) ∧ k ≠ .no := by
  induction evs generalizing s pre with
  | nil => cases h
  | cons x xs ih =>
    rw [go] at h
    split at h
    · rename_i s1 hx
      split at h
      · rename_i s2 p y ky hgo
        cases h
        obtain ⟨post, hxs, s3, hpre, hfe, hk⟩ := ih hgo
        refine ⟨post, by rw [hxs]; rfl, s3, ?_, hfe, hk⟩
        rw [go, hx]
        dsimp only
        rw [hpre]
      · cases h
    · rename_i s1 ks hne hx
      cases h
      refine ⟨xs, rfl, s, rfl, hx, ?_⟩
      intro hk
      subst hk
      exact hne rfl

theorem go_append {f : St → Event → St × Stop} {s s1 : St} {a : List Event} (h : go f s a = (s1, none)) (b : List Event) :
    go f s (a ++ b) = match go f s1 b with
      | (s2, some (p, x, k)) => (s2, some (a ++ p, x, k))
      | (s2, none) => (s2, none) := by
  induction a generalizing s with
  | nil =>
    cases h
    rw [List.nil_append]
    generalize go f s1 b = r
    rcases r with ⟨s2, _ | ⟨p, x, k⟩⟩ <;> rfl
  | cons x xs ih =>
    rw [go] at h
    split at h
    · rename_i s2 hx
      split at h
      · cases h
      · rename_i s3 hgo
        cases h
        rw [List.cons_append, go, hx]
        dsimp only
        rw [ih hgo]
        rcases go f s1 b with ⟨s4, _ | ⟨p, y, k⟩⟩ <;> rfl
    · cases h

/-! ### Jinja2, step over -/

/-- The step over of Jinja2 in a template, event by event. -/
def over (s : St) (e : Event) : St × Stop := jinjaOver s e false

/-- One event, in a template with the frame of the step known. -/
theorem over_one {s : St} {i : Nat} (ht : s.template = true) (hi : s.inside = some i) (e : Event) :
    (LineOf i e ∧ over s e = (s, .template)) ∨
    (EndOf i e ∧ ¬ LineOf i e ∧ over s e = ({ s with inside := findRender e.outer }, .no)) ∨
    (¬ EndOf i e ∧ ¬ LineOf i e ∧ over s e = (s, .no)) := by
  unfold over jinjaOver
  rw [if_pos ht, hi]
  dsimp only
  unfold LineOf EndOf
  cases hk : e.kind with
  | call => right; right; exact ⟨fun h => (by cases h.1), fun h => (by cases h.1), rfl⟩
  | line =>
    dsimp only
    by_cases hl : e.frame.id = i ∧ e.frame.render = true ∧ e.mapped = true
    · left
      refine ⟨⟨rfl, hl⟩, ?_⟩
      unfold outcome
      simp [hl.1, hl.2.1, hl.2.2]
    · right; right
      refine ⟨fun h => (by cases h.1), fun h => hl h.2, ?_⟩
      have : outcome e false (e.frame.render && i == e.frame.id) = .no := by
        unfold outcome
        by_cases h1 : e.frame.render = true
        · by_cases h2 : i = e.frame.id
          · have h3 : e.mapped = false := by
              cases hm : e.mapped with
              | false => rfl
              | true => exact absurd ⟨h2.symm, h1, hm⟩ hl
            simp [h1, h2, h3]
          · simp [h2]
        · simp [h1]
      rw [this]
  | ret =>
    dsimp only
    right
    by_cases he : e.frame.id = i ∧ backEvLocal e = false
    · left
      refine ⟨⟨rfl, he⟩, fun h => (by cases h.1), ?_⟩
      rw [if_pos (by simp [he.1, he.2])]
    · right
      refine ⟨fun h => he h.2, fun h => (by cases h.1), ?_⟩
      rw [if_neg]
      intro h
      simp at h
      exact he h

/-- **C116**, Jinja2, step over: while the function of the frame does not end, the thread stops at its next line that is one of the template,
and nowhere before. -/
theorem c116_over_next {s : St} {i : Nat} (ht : s.template = true) (hi : s.inside = some i) {pre post : List Event} {e : Event}
    (hpre : ∀ x ∈ pre, ¬ LineOf i x ∧ ¬ EndOf i x) (he : LineOf i e) :
    go over s (pre ++ e :: post) = (s, some (pre, e, .template)) := by
  induction pre with
  | nil =>
    rw [List.nil_append, go]
    rcases over_one ht hi e with ⟨_, h⟩ | ⟨_, h, _⟩ | ⟨_, h, _⟩
    · rw [h]
    · exact absurd he h
    · exact absurd he h
  | cons x xs ih =>
    have hx := hpre x (List.mem_cons_self ..)
    rw [List.cons_append, go]
    rcases over_one ht hi x with ⟨h, _⟩ | ⟨h, _, _⟩ | ⟨_, _, h⟩
    · exact absurd h hx.1
    · exact absurd h hx.2
    · rw [h]
      dsimp only
      rw [ih fun y hy => hpre y (List.mem_cons_of_mem _ hy)]

/-- **C116**, Jinja2, step over: where the function ends first, the thread stops at the next line of the template function that encloses it,
as far as there is one. -/
theorem c116_over_outer {s : St} {i j : Nat} (ht : s.template = true) (hi : s.inside = some i) {pre mid post : List Event} {r e : Event}
    (hpre : ∀ x ∈ pre, ¬ LineOf i x ∧ ¬ EndOf i x) (hr : EndOf i r) (hj : findRender r.outer = some j)
    (hmid : ∀ x ∈ mid, ¬ LineOf j x ∧ ¬ EndOf j x) (he : LineOf j e) :
    go over s (pre ++ r :: mid ++ e :: post) = ({ s with inside := some j }, some (pre ++ r :: mid, e, .template)) := by
  have hquiet : go over s pre = (s, none) := by
    clear hmid
    induction pre with
    | nil => rfl
    | cons x xs ih =>
      have hx := hpre x (List.mem_cons_self ..)
      rw [go]
      rcases over_one ht hi x with ⟨h, _⟩ | ⟨h, _, _⟩ | ⟨_, _, h⟩
      · exact absurd h hx.1
      · exact absurd h hx.2
      · rw [h]
        dsimp only
        rw [ih fun y hy => hpre y (List.mem_cons_of_mem _ hy)]
  have hrs : over s r = ({ s with inside := some j }, .no) := by
    rcases over_one ht hi r with ⟨h, _⟩ | ⟨_, _, h⟩ | ⟨h, _, _⟩
    · have h1 := h.1; rw [hr.1] at h1; cases h1
    · rw [h, hj]
    · exact absurd hr h
  rw [List.append_assoc, go_append hquiet, List.cons_append, go, hrs]
  dsimp only
  rw [c116_over_next (s := { s with inside := some j }) (i := j) ht rfl hmid he]

/-- **C116**, Jinja2, step over: where the thread stops, it is at a line of the template function of the frame, or of one that encloses it after
all those inside of it ended. -/
theorem c116_over_sound {s s' : St} {i : Nat} (ht : s.template = true) (hi : s.inside = some i) {evs pre : List Event} {e : Event} {k : Stop}
    (h : go over s evs = (s', some (pre, e, k)))
    (hopen : ∀ j x, Enclosing pre i j → x ∈ pre → EndOf j x → findRender x.outer ≠ none) :
    k = .template ∧ ∃ j, Enclosing pre i j ∧ LineOf j e := by
  obtain ⟨post, _, s1, hpre, hfe, hk⟩ := go_split h
  have key : ∀ (l : List Event) (s : St), (∀ x ∈ l, x ∈ pre) → s.template = true → (∃ j, s.inside = some j ∧ Enclosing pre i j) →
      ∀ s1, go over s l = (s1, none) → s1.template = true ∧ ∃ j, s1.inside = some j ∧ Enclosing pre i j := by
    intro l
    induction l with
    | nil => intro s _ ht hj s1 h; cases h; exact ⟨ht, hj⟩
    | cons x xs ih =>
      intro s hsub ht ⟨j, hj, henc⟩ s1 hgo
      have hxs : ∀ y ∈ xs, y ∈ pre := fun y hy => hsub y (List.mem_cons_of_mem _ hy)
      rw [go] at hgo
      rcases over_one ht hj x with ⟨_, h⟩ | ⟨hend, _, h⟩ | ⟨_, _, h⟩
      · rw [h] at hgo; cases hgo
      · rw [h] at hgo
        dsimp only at hgo
        have hmem := hsub x (List.mem_cons_self ..)
        split at hgo
        · cases hgo
        · rename_i s3 hg
          cases hgo
          cases hf : findRender x.outer with
          | none => exact absurd hf (hopen j x henc hmem hend)
          | some m =>
            rw [hf] at hg
            exact ih ⟨s.template, s.from_, some m, s.resolved, s.stepStop⟩ hxs ht ⟨m, rfl, .outer henc hmem hend hf⟩ s1 hg
      · rw [h] at hgo
        dsimp only at hgo
        split at hgo
        · cases hgo
        · rename_i s3 hg
          cases hgo
          exact ih _ hxs ht ⟨j, hj, henc⟩ _ hg
  obtain ⟨ht1, j, hj, henc⟩ := key pre s (fun _ h => h) ht ⟨i, hi, .self⟩ s1 hpre
  rcases over_one ht1 hj e with ⟨hl, h⟩ | ⟨_, _, h⟩ | ⟨_, _, h⟩
  · rw [h] at hfe; cases hfe; exact ⟨rfl, j, henc, hl⟩
  · rw [h] at hfe; cases hfe; exact absurd rfl hk
  · rw [h] at hfe; cases hfe; exact absurd rfl hk

/-- A frame kept from a step before that is no longer there: no step over stops in any template. -/
theorem c116_stale_witness {s : St} {i : Nat} (ht : s.template = true) (hi : s.inside = some i) (evs : List Event)
    (hgone : ∀ e ∈ evs, e.frame.id ≠ i) : go over s evs = (s, none) := by
  induction evs with
  | nil => rfl
  | cons x xs ih =>
    have hx := hgone x (List.mem_cons_self ..)
    rw [go]
    rcases over_one ht hi x with ⟨h, _⟩ | ⟨h, _, _⟩ | ⟨_, _, h⟩
    · exact absurd h.2.1 hx
    · exact absurd h.2.1 hx
    · rw [h]
      dsimp only
      rw [ih fun y hy => hgone y (List.mem_cons_of_mem _ hy)]

/-! ### Jinja2, step into -/

def into (s : St) (e : Event) : St × Stop := jinjaInto s e true

/-- A function of Python code is called from the template: the frame outside is the call of a function of the context. -/
def FromTemplate (e : Event) : Prop := e.kind = .call ∧ backCtx e = true

theorem into_one {s : St} (ht : s.template = true) (hf : s.from_ = false) (e : Event) :
    (into s e).1.template = true ∧ ((into s e).1.from_ = true → FromTemplate e) ∧
    ((into s e).2 = .template ↔ (e.kind = .call ∨ e.kind = .line) ∧ e.frame.render = true ∧ e.mapped = true) ∧
    (into s e).2 ≠ .python := by
  unfold into jinjaInto FromTemplate outcome
  simp only [ht, hf, Bool.true_and, if_true]
  cases hk : e.kind <;> cases hr : e.frame.render <;> cases hm : e.mapped <;> cases hb : backCtx e <;> simp [ht, hf]

/-- **C116**, Jinja2, step into: as long as no Python function is called from the template, the thread stops at the next line (or start) of a
template function, of any template, and nowhere before. -/
theorem c116_into_next {s : St} (ht : s.template = true) (hf : s.from_ = false) {evs pre : List Event} {e : Event} {k : Stop} {s' : St}
    (h : go into s evs = (s', some (pre, e, k))) (hno : ∀ x ∈ pre, ¬ FromTemplate x) :
    k = .template ∧ (e.kind = .call ∨ e.kind = .line) ∧ e.frame.render = true ∧ e.mapped = true ∧
    ∀ x ∈ pre, ¬ ((x.kind = .call ∨ x.kind = .line) ∧ x.frame.render = true ∧ x.mapped = true) := by
  obtain ⟨post, _, s1, hpre, hfe, hk⟩ := go_split h
  have key : ∀ (l : List Event) (s : St), (∀ x ∈ l, ¬ FromTemplate x) → s.template = true → s.from_ = false →
      ∀ s1, go into s l = (s1, none) → s1.template = true ∧ s1.from_ = false ∧
        ∀ x ∈ l, ¬ ((x.kind = .call ∨ x.kind = .line) ∧ x.frame.render = true ∧ x.mapped = true) := by
    intro l
    induction l with
    | nil => intro s _ ht hf s1 h; cases h; exact ⟨ht, hf, fun x hx => (by cases hx)⟩
    | cons x xs ih =>
      intro s hno ht hf s1 hgo
      obtain ⟨h1, h2, h3, h4⟩ := into_one ht hf x
      rw [go] at hgo
      split at hgo
      · rename_i s2 hx
        rw [hx] at h1 h2 h3
        split at hgo
        · cases hgo
        · rename_i s3 hg
          cases hgo
          have hf2 : s2.from_ = false := by
            cases hh : s2.from_ with
            | false => rfl
            | true => exact absurd (h2 hh) (hno x (List.mem_cons_self ..))
          obtain ⟨a, b, c⟩ := ih s2 (fun y hy => hno y (List.mem_cons_of_mem _ hy)) h1 hf2 s1 hg
          refine ⟨a, b, ?_⟩
          intro y hy
          rcases List.mem_cons.mp hy with rfl | hy
          · intro hh; have := h3.mpr hh; cases this
          · exact c y hy
      · cases hgo
  obtain ⟨ht1, hf1, hnone⟩ := key pre s hno ht hf s1 hpre
  obtain ⟨_, _, h3, h4⟩ := into_one ht1 hf1 e
  rw [hfe] at h3 h4
  cases k with
  | no => exact absurd rfl hk
  | python => exact absurd rfl h4
  | template =>
    have := h3.mp rfl
    exact ⟨rfl, this.1, this.2.1, this.2.2, hnone⟩

/-- **C116**, Jinja2, step into: after a call of a Python function from the template, the thread stops at the next event that is not in a helper
of Jinja2 or in a template. -/
theorem c116_into_python {s : St} (ht : s.template = true) (hf : s.from_ = false) {c e : Event} (hc : FromTemplate c)
    (hcr : c.frame.render = false) (he : e.frame.render = false) (hi : e.frame.internal = false) (hb : backCtx e = false) (post : List Event) :
    ∃ s', go into s (c :: e :: post) = (s', some ([c], e, .python)) := by
  have h1 : into s c = ({ s with from_ := true }, .no) := by
    unfold into jinjaInto outcome
    simp [ht, hf, hc.1, hc.2, hcr]
  refine ⟨{ s with from_ := true }, ?_⟩
  have h2 : into { s with from_ := true } e = ({ s with from_ := true }, .python) := by
    unfold into jinjaInto outcome
    simp [ht, he, hi, hb]
  rw [go, h1]
  dsimp only
  rw [go, h2]

/-- **C116**, Jinja2, step into: a helper of Jinja2 reached by such a call is passed, and the Python code it goes on to is not stopped in either. -/
theorem c116_into_helper {s : St} (ht : s.template = true) {e : Event} (he : e.frame.render = false) (hi : e.frame.internal = true)
    (hf : s.from_ = true) (hb : backCtx e = false) : into s e = ({ s with from_ := false }, .no) := by
  unfold into jinjaInto outcome
  simp [ht, he, hi, hb, hf]

/-! ### Django -/

/-- A node of a Django template is about to be rendered, and its line is known. -/
def NodeStart (e : Event) : Prop := e.kind = .call ∧ e.frame.node = true ∧ e.mapped = true

/-- **C116**, Django, step over: the thread stops at the next node that is rendered, and nowhere before. -/
theorem c116_django_over {s : St} (ht : s.template = true) {pre post : List Event} {e : Event} (hpre : ∀ x ∈ pre, ¬ NodeStart x)
    (he : NodeStart e) : go djangoOver s (pre ++ e :: post) = (s, some (pre, e, .template)) := by
  have hone : ∀ x, djangoOver s x = (s, if x.kind = .call ∧ x.frame.node = true ∧ x.mapped = true then .template else .no) := by
    intro x
    unfold djangoOver outcome
    rw [if_pos ht]
    cases hk : x.kind <;> cases hn : x.frame.node <;> cases hm : x.mapped <;> simp
  induction pre with
  | nil =>
    have he : e.kind = .call ∧ e.frame.node = true ∧ e.mapped = true := he
    rw [List.nil_append, go, hone, if_pos he]
  | cons x xs ih =>
    have hx : ¬ (x.kind = .call ∧ x.frame.node = true ∧ x.mapped = true) := hpre x (List.mem_cons_self ..)
    rw [List.cons_append, go, hone, if_neg hx]
    dsimp only
    rw [ih fun y hy => hpre y (List.mem_cons_of_mem _ hy)]

/-- Where it stops, it is there. -/
theorem c116_django_over_sound {s s' : St} (ht : s.template = true) {evs pre : List Event} {e : Event} {k : Stop}
    (h : go djangoOver s evs = (s', some (pre, e, k))) : k = .template ∧ NodeStart e ∧ ∀ x ∈ pre, ¬ NodeStart x := by
  have hone : ∀ x, djangoOver s x = (s, if x.kind = .call ∧ x.frame.node = true ∧ x.mapped = true then .template else .no) := by
    intro x
    unfold djangoOver outcome
    rw [if_pos ht]
    cases hk : x.kind <;> cases hn : x.frame.node <;> cases hm : x.mapped <;> simp
  induction evs generalizing pre with
  | nil => cases h
  | cons x xs ih =>
    rw [go, hone] at h
    by_cases hx : x.kind = .call ∧ x.frame.node = true ∧ x.mapped = true
    · rw [if_pos hx] at h
      cases h
      exact ⟨rfl, hx, fun y hy => (by cases hy)⟩
    · rw [if_neg hx] at h
      dsimp only at h
      split at h
      · rename_i s2 p y ky hgo
        cases h
        obtain ⟨a, b, c⟩ := ih hgo
        refine ⟨a, b, ?_⟩
        intro z hz
        rcases List.mem_cons.mp hz with rfl | hz
        · exact hx
        · exact c z hz
      · cases h

/-- **C116**, Django, step into: the thread stops where a step over does, or in a Python function called to resolve a variable of the template
(and not by the context itself). -/
theorem c116_django_into {s s' : St} (ht : s.template = true) {stops : Event → Bool} {evs pre : List Event} {e : Event} {k : Stop}
    (h : go (fun s e => djangoInto s e (stops e)) s evs = (s', some (pre, e, k))) :
    (k = .template ∧ NodeStart e) ∨ (k = .python ∧ stops e = true ∧ backResolve e = true ∧ e.frame.ctxGet = false ∧ s'.resolved = true) := by
  obtain ⟨post, _, s1, hpre, hfe, hk⟩ := go_split h
  have key : ∀ (l : List Event) (s : St), s.template = true → ∀ s1, go (fun s e => djangoInto s e (stops e)) s l = (s1, none) →
      s1.template = true := by
    intro l
    induction l with
    | nil => intro s ht s1 h; cases h; exact ht
    | cons x xs ih =>
      intro s ht s1 hgo
      have h1 : (djangoInto s x (stops x)).1.template = true := by
        unfold djangoInto
        rw [if_pos ht]
        dsimp only
        split <;> exact ht
      rw [go] at hgo
      split at hgo
      · rename_i s2 hx
        rw [hx] at h1
        split at hgo
        · cases hgo
        · rename_i s3 hg
          cases hgo
          exact ih s2 h1 s1 hg
      · cases hgo
  have ht1 := key pre s ht s1 hpre
  unfold djangoInto at hfe
  rw [if_pos ht1] at hfe
  dsimp only at hfe
  unfold outcome at hfe
  unfold NodeStart
  revert hfe
  cases hc : e.kind <;> cases hn : e.frame.node <;> cases hm : e.mapped <;> cases hs : stops e <;> cases hb : backResolve e <;>
    cases hg : e.frame.ctxGet <;> simp <;> intro h1 h2 <;> subst h1 <;> subst h2 <;> simp at hk ⊢

/-- **C116**, Django: leaving a Python function reached by a step into, a step over goes on in the template. -/
theorem c116_django_back {s : St} {r : Event} (ht : s.template = false) (hr : s.resolved = true) (hk : r.kind = .ret)
    (hb : backResolve r = true) (hid : ∀ b ∈ r.outer, b.id ≠ r.frame.id) {pre post : List Event} {e : Event}
    (hpre : ∀ x ∈ pre, ¬ NodeStart x) (he : NodeStart e) :
    ∃ s', go djangoOver s (r :: pre ++ e :: post) = (s', some (r :: pre, e, .template)) := by
  obtain ⟨b, bs, ho⟩ : ∃ b bs, r.outer = b :: bs := by
    cases h : r.outer with
    | nil => unfold backResolve at hb; rw [h] at hb; cases hb
    | cons b bs => exact ⟨b, bs, rfl⟩
  have h1 : djangoOver s r = ({ s with stepStop := some b.id, resolved := false, template := true }, .no) := by
    have hne : b.id ≠ r.frame.id := hid b (by rw [ho]; exact List.mem_cons_self ..)
    unfold djangoOver outcome
    simp [ht, hr, hk, hb, ho, hne]
  refine ⟨{ s with stepStop := some b.id, resolved := false, template := true }, ?_⟩
  rw [List.cons_append, go, h1]
  dsimp only
  rw [c116_django_over (s := { s with stepStop := some b.id, resolved := false, template := true }) rfl hpre he]

/-! ### Examples and witnesses -/

def root : Frame := { id := 1, render := true }
def block : Frame := { id := 2, render := true }
def py : Frame := { id := 0 }

/-- A step over from the end of a block stops in the template the block is in. -/
theorem c116_example : go over ⟨true, false, some 2, false, none⟩
    [⟨.line, { id := 5 }, [block, root, py], true⟩, ⟨.ret, block, [root, py], true⟩, ⟨.line, root, [py], true⟩] =
    (⟨true, false, some 1, false, none⟩,
      some ([⟨.line, { id := 5 }, [block, root, py], true⟩, ⟨.ret, block, [root, py], true⟩], ⟨.line, root, [py], true⟩, .template)) := by
  have := c116_over_outer (s := ⟨true, false, some 2, false, none⟩) (i := 2) (j := 1)
    (pre := [⟨.line, { id := 5 }, [block, root, py], true⟩]) (r := ⟨.ret, block, [root, py], true⟩) (mid := []) (post := [])
    (e := ⟨.line, root, [py], true⟩) rfl rfl (by
      intro x hx
      rw [List.mem_singleton.mp hx]
      exact ⟨fun h => absurd h.2.1 (by decide), fun h => (by cases h.1)⟩)
    ⟨rfl, rfl, rfl⟩ rfl (fun x hx => (by cases hx)) ⟨rfl, rfl, rfl, rfl⟩
  exact this

/-- The first step over after a breakpoint in a Jinja2 template: the next line of the template is passed, the one after it is stopped at. -/
theorem c116_first_step_witness : go over ⟨true, false, none, false, none⟩ [⟨.line, root, [py], true⟩, ⟨.line, root, [py], true⟩] =
    (⟨true, false, some 1, false, none⟩, some ([⟨.line, root, [py], true⟩], ⟨.line, root, [py], true⟩, .template)) := by decide

/-- The thread stepped over in the frame 1 of a template and was then let go; at the next breakpoint, in the frame 7, the frame 1 is still kept
and a step over never stops. -/
theorem c116_stale_example (n : Nat) : go over ⟨true, false, some 1, false, none⟩
    (List.replicate n ⟨.line, { id := 7, render := true }, [py], true⟩) = (⟨true, false, some 1, false, none⟩, none) := by
  refine c116_stale_witness rfl rfl _ ?_
  intro e he
  rw [List.eq_of_mem_replicate he]
  decide

end TemplateStep
