import Verif.NextTargets.Spec
/-!
C141: the lines a frame can be moved to.
-/

namespace NextTargets

open Spec

theorem cut_unique {a b r s : Str} (ha : '<' ∉ a) (hb : '<' ∉ b) (h : a ++ '<' :: r = b ++ '<' :: s) : a = b ∧ r = s := by
  induction a generalizing b with
  | nil =>
    cases b with
    | nil => simpa using h
    | cons c b =>
      simp only [List.nil_append, List.cons_append, List.cons.injEq] at h
      exact absurd (by rw [← h.1]; simp) hb
  | cons c a ih =>
    cases b with
    | nil =>
      simp only [List.nil_append, List.cons_append, List.cons.injEq] at h
      exact absurd (by rw [h.1]; simp) ha
    | cons d b =>
      simp only [List.cons_append, List.cons.injEq] at h
      obtain ⟨h1, h2⟩ := ih (fun e => ha (by simp [e])) (fun e => hb (by simp [e])) h.2
      exact ⟨by rw [h.1, h1], h2⟩

theorem body_done {text : Str} {ms : List Int} (h : Body text ms) (e : text = c!"</xml>") : ms = [] := by
  cases h with
  | done => rfl
  | line h1 h2 h3 => simp at e

theorem body_line {text : Str} {ms : List Int} (h : Body text ms) {d rest : Str} (hd : '<' ∉ d)
    (e : text = c!"<line>" ++ d ++ c!"</line>" ++ rest) : ∃ n ns, ms = n :: ns ∧ Py.parseInt d = some n ∧ Body rest ns := by
  cases h with
  | done => simp at e
  | @line d' rest' n ns h1 h2 h3 =>
    have e' : d' ++ '<' :: (c!"/line>" ++ rest') = d ++ '<' :: (c!"/line>" ++ rest) := by simpa using e
    obtain ⟨h4, h5⟩ := cut_unique h1 hd e'
    subst h4
    have h6 : rest' = rest := by simpa using h5
    subst h6
    exact ⟨n, ns, rfl, h2, h3⟩

theorem body_unique {text : Str} {ns : List Int} (h : Body text ns) : ∀ {ms}, Body text ms → ms = ns := by
  induction h with
  | done => intro ms hm; exact body_done hm rfl
  | line h1 h2 _ ih =>
    intro ms hm
    obtain ⟨n', ns', h5, h6, h7⟩ := body_line hm h1 rfl
    rw [h2] at h6
    cases h6
    rw [h5, ih h7]

/-- C141. A text is read in at most one way. -/
theorem c141_unique {text : Str} {ns ms : List Int} (h : Reads text ns) (g : Reads text ms) : ms = ns := by
  obtain ⟨r, e, hr⟩ := h
  obtain ⟨r', e', hr'⟩ := g
  have : r' = r := by
    rw [e] at e'
    exact (List.append_cancel_left e').symm
  subst this
  exact body_unique hr hr'

theorem intStr_plain (n : Int) : '<' ∉ Py.intStr n := by
  intro h
  unfold Py.intStr at h
  have hd : ∀ k, '<' ∉ Py.natStr k := fun k h => absurd (Py.natStr_digits k _ h) (by decide)
  split at h
  · exact hd _ h
  · rcases List.mem_cons.mp h with h | h
    · exact absurd h (by decide)
    · exact hd _ h

theorem body_line_xml {rest : Str} {ns : List Int} (n : Int) (h : Body rest ns) : Body (lineXml n ++ rest) (n :: ns) :=
  .line (intStr_plain n) (Py.parseInt_intStr n) h

theorem loop_spec (is : List Item) (xml : Str) :
    (Item.raises ∈ is ∧ linesLoop xml is = none) ∨
      (Item.raises ∉ is ∧ ∃ t, linesLoop xml is = some (xml ++ t) ∧ Body (t ++ c!"</xml>") (lines is)) := by
  induction is generalizing xml with
  | nil => exact Or.inr ⟨by simp, [], by simp [linesLoop], .done⟩
  | cons i is ih =>
    cases i with
    | raises => exact Or.inl ⟨by simp, rfl⟩
    | noLine =>
      rcases ih xml with ⟨h1, h2⟩ | ⟨h1, t, h2, h3⟩
      · exact Or.inl ⟨by simp [h1], h2⟩
      · exact Or.inr ⟨by simp [h1], t, h2, h3⟩
    | line n =>
      rcases ih (xml ++ lineXml n) with ⟨h1, h2⟩ | ⟨h1, t, h2, h3⟩
      · exact Or.inl ⟨by simp [h1], h2⟩
      · refine Or.inr ⟨by simp [h1], lineXml n ++ t, ?_, ?_⟩
        · rw [linesLoop, h2, List.append_assoc]
        · rw [List.append_assoc]
          exact body_line_xml n h3

/-- C141. For a frame that is found the client reads exactly the lines at which instructions of its code begin. -/
theorem c141_lines (f : Frame) (is : List Item) (hf : f.starts = some is) (hr : Item.raises ∉ is) (t i : Str) :
    ∃ xml, nextTargets (.frame f) t i = .targets xml ∧ ∀ ns, Reads xml ns ↔ ns = lines is := by
  rcases loop_spec is c!"<xml>" with ⟨h1, _⟩ | ⟨_, b, h2, h3⟩
  · exact absurd h1 hr
  · refine ⟨c!"<xml>" ++ b ++ c!"</xml>", ?_, ?_⟩
    · unfold nextTargets
      simp only [hf, h2]
    · have hreads : Reads (c!"<xml>" ++ b ++ c!"</xml>") (lines is) := ⟨b ++ c!"</xml>", by simp, h3⟩
      intro ns
      constructor
      · intro h; exact c141_unique hreads h
      · rintro rfl; exact hreads

/-- C141. If Python does not tell the lines, the client reads the current one. -/
theorem c141_current (f : Frame) (hf : f.starts = none) (t i : Str) :
    ∃ xml, nextTargets (.frame f) t i = .targets xml ∧ ∀ ns, Reads xml ns ↔ ns = [f.lineno] := by
  refine ⟨c!"<xml>" ++ lineXml f.lineno ++ c!"</xml>", ?_, ?_⟩
  · unfold nextTargets
    simp only [hf]
  · have hreads : Reads (c!"<xml>" ++ lineXml f.lineno ++ c!"</xml>") [f.lineno] :=
      ⟨lineXml f.lineno ++ c!"</xml>", by simp, body_line_xml _ .done⟩
    intro ns
    constructor
    · intro h; exact c141_unique hreads h
    · rintro rfl; exact hreads

/-- C141. The answer is an error exactly if the frame is not found, or looking for it or for its lines fails. -/
theorem c141_error (found : Found) (t i : Str) :
    (∃ m, nextTargets found t i = .error m) ↔ ∀ f, found = .frame f → ∃ is, f.starts = some is ∧ Item.raises ∈ is := by
  cases found with
  | raises => exact ⟨fun _ f h => (nomatch h), fun _ => ⟨_, rfl⟩⟩
  | missing => exact ⟨fun _ f h => (nomatch h), fun _ => ⟨_, rfl⟩⟩
  | frame f =>
    constructor
    · rintro ⟨m, hm⟩ g hg
      cases hg
      cases hs : f.starts with
      | none =>
        obtain ⟨x, h, _⟩ := c141_current f hs t i
        rw [h] at hm
        exact nomatch hm
      | some is =>
        refine ⟨is, rfl, ?_⟩
        by_cases hr : Item.raises ∈ is
        · exact hr
        · obtain ⟨x, h, _⟩ := c141_lines f is hs hr t i
          rw [h] at hm
          exact nomatch hm
    · intro h
      obtain ⟨is, h1, h2⟩ := h f rfl
      rcases loop_spec is c!"<xml>" with ⟨_, h3⟩ | ⟨h3, _⟩
      · unfold nextTargets
        simp only [h1, h3]
        exact ⟨_, rfl⟩
      · exact absurd h2 h3

/-! ### Cases, and what is wrong -/

def frame : Frame := { lineno := 3, starts := some [.line 1, .noLine, .line 12, .line 3, .line 12] }

/-- A loop: its first line is the start of two instructions and is sent twice. -/
theorem c141_example : nextTargets (.frame frame) c!"t" c!"7" =
    .targets c!"<xml><line>1</line><line>12</line><line>3</line><line>12</line></xml>" ∧ lines [.line 1, .noLine, .line 12, .line 3, .line 12] = [1, 12, 3, 12] := by
  constructor <;> decide +kernel

/-- `dis.findlinestarts` is a generator: what fails is the iteration, so that the current line is not offered then. -/
theorem c141_generator_witness : nextTargets (.frame { lineno := 3, starts := some [.raises] }) c!"t" c!"7" =
    .error c!"Error resolving frame: 7 from thread: t" := by decide +kernel

end NextTargets
