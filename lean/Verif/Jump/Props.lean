import Verif.Jump.Spec
/-! C104: with `sys.monitoring` on Python 3.12 every visit of a line is considered once. -/

namespace Jump
open Spec

/-- `get_line_of_offset` is right where no range of another line ends at the offset. -/
theorem c104_line_of_offset_partial (c : Code) (off line : Nat) (h : OnLine c off line) (hc : Clear c off line) :
    lineOf c off = some line := by
  unfold lineOf
  obtain ⟨a, b, hm, h1, h2⟩ := h
  cases hf : c.lines.find? (fun e => e.1 ≤ off && off ≤ e.2.1) with
  | none =>
      have := List.find?_eq_none.mp hf (a, b, line) hm
      simp at this
      omega
  | some e =>
      have he := List.mem_of_find?_eq_some hf
      have hp := List.find?_some hf
      simp at hp
      obtain ⟨x, y, z⟩ := e
      have := hc x y z he hp.1 hp.2
      simp [this]

/-- The state after visits. -/
structure Inv (vs : List Visit) (last : Option (Nat × Nat)) (s : St) : Prop where
  skip : s.skip = none ∨ s.skip = last
  off : ∀ i a, (i, a) ∈ s.off → ∀ v ∈ vs, ∀ x, backOnLine v = some (i, a, x) → x = false

theorem run_visits : ∀ (vs : List Visit) (last : Option (Nat × Nat)) (s : St), Inv vs last s →
    Consistent vs → (∀ v ∈ vs, Valid v ∧ ClearVisit v) → NoClash last vs →
    (run s (vs.flatMap events)).seen = s.seen ++ vs.flatMap expected := by
  intro vs
  induction vs with
  | nil => intro last s _ _ _ _; simp [run]
  | cons v vs ih =>
    intro last s hinv hcon hval hno
    have hcon' : Consistent vs := fun v hv w hw => hcon v (List.mem_cons_of_mem _ hv) w (List.mem_cons_of_mem _ hw)
    have hval' : ∀ v ∈ vs, Valid v ∧ ClearVisit v := fun v hv => hval v (List.mem_cons_of_mem _ hv)
    have hoff' : ∀ i a, (i, a) ∈ s.off → ∀ v ∈ vs, ∀ x, backOnLine v = some (i, a, x) → x = false :=
      fun i a h v hv => hinv.off i a h v (List.mem_cons_of_mem _ hv)
    obtain ⟨hv, hcl⟩ := hval v List.mem_cons_self
    have hrun : run s ((v :: vs).flatMap events) = run (run s (events v)) (vs.flatMap events) := by
      simp [run, List.flatMap_cons]
    rw [hrun]
    have key : ∃ last', NoClash last' vs ∧ Inv vs last' (run s (events v)) ∧
        (run s (events v)).seen = s.seen ++ expected v := by
      cases v with
      | enter c l =>
        obtain ⟨h1, h2⟩ := hno
        refine ⟨none, h2, ?_⟩
        have hs : run s (events (.enter c l)) = { s with skip := none, seen := s.seen ++ [(c.file, l)] } := by
          simp only [events, run, List.foldl_cons, List.foldl_nil, step, lineEvent]
          rcases hinv.skip with e | e
          · simp [e]
          · rw [e]
            cases last with
            | none =>
              obtain ⟨a, b, d⟩ := s
              simp at e
              subst e
              rfl
            | some p =>
              obtain ⟨f, l'⟩ := p
              dsimp only
              rw [if_neg]
              intro hh
              simp [sameObject] at hh
              apply h1
              rw [hh.1.1, hh.2]
        rw [hs]
        exact ⟨⟨.inl rfl, hoff'⟩, rfl⟩
      | again c a b l both =>
        obtain ⟨hba, ha, hb⟩ := hv
        obtain ⟨hca, hcb, hl⟩ := hcl
        have hnot : (c.id, a) ∉ s.off := by
          intro hm
          have := hinv.off c.id a hm _ List.mem_cons_self true rfl
          cases this
        refine ⟨_, hno, ?_⟩
        have hj : jumpEvent s c a b l = { s with skip := some (c.file, l), seen := s.seen ++ [(c.file, l)] } := by
          unfold jumpEvent
          rw [if_neg hnot]
          dsimp only
          rw [if_neg (by omega), c104_line_of_offset_partial c a l ha hca, c104_line_of_offset_partial c b l hb hcb,
            if_neg (by simp)]
        cases both with
        | false =>
          have hs : run s (events (.again c a b l false)) = jumpEvent s c a b l := rfl
          rw [hs, hj]
          exact ⟨⟨.inr rfl, hoff'⟩, rfl⟩
        | true =>
          have hs : run s (events (.again c a b l true)) = lineEvent (jumpEvent s c a b l) c l := rfl
          rw [hs, hj]
          have : lineEvent { s with skip := some (c.file, l), seen := s.seen ++ [(c.file, l)] } c l =
              { s with skip := none, seen := s.seen ++ [(c.file, l)] } := by
            simp [lineEvent, sameObject, hl rfl]
          rw [this]
          exact ⟨⟨.inl rfl, hoff'⟩, rfl⟩
      | back c a b src l =>
        obtain ⟨hba, hne, ha, hb⟩ := hv
        obtain ⟨hca, hcb⟩ := hcl
        obtain ⟨h1, h2⟩ := hno
        refine ⟨none, h2, ?_⟩
        have hs : run s (events (.back c a b src l)) = lineEvent (jumpEvent s c a b src) c l := rfl
        rw [hs]
        by_cases hm : (c.id, a) ∈ s.off
        · have hj : jumpEvent s c a b src = s := by unfold jumpEvent; rw [if_pos hm]
          rw [hj]
          have hs : lineEvent s c l = { s with skip := none, seen := s.seen ++ [(c.file, l)] } := by
            simp only [lineEvent]
            rcases hinv.skip with e | e
            · obtain ⟨a, b, d⟩ := s
              simp at e
              subst e
              rfl
            · rw [e]
              cases last with
              | none =>
                obtain ⟨a, b, d⟩ := s
                simp at e
                subst e
                rfl
              | some p =>
                obtain ⟨f, l'⟩ := p
                dsimp only
                rw [if_neg]
                intro hh
                simp [sameObject] at hh
                apply h1
                rw [hh.1.1, hh.2]
          rw [hs]
          exact ⟨⟨.inl rfl, hoff'⟩, rfl⟩
        · have hj : jumpEvent s c a b src = { s with skip := none, off := (c.id, a) :: s.off } := by
            unfold jumpEvent
            rw [if_neg hm]
            dsimp only
            rw [if_neg (by omega), c104_line_of_offset_partial c a src ha hca,
              c104_line_of_offset_partial c b l hb hcb, if_pos (by simpa using hne)]
          rw [hj]
          simp only [lineEvent]
          refine ⟨⟨.inl rfl, ?_⟩, rfl⟩
          intro i k hik w hw x hx
          rcases List.mem_cons.mp hik with e | e
          · cases e
            exact (hcon _ List.mem_cons_self w (List.mem_cons_of_mem _ hw) _ _ false x rfl hx).symm
          · exact hoff' i k e w hw x hx
      | forward c a b src =>
        refine ⟨last, hno, ?_⟩
        have hs : run s (events (.forward c a b src)) = jumpEvent s c a b src := rfl
        rw [hs]
        unfold jumpEvent
        split
        · exact ⟨⟨hinv.skip, hoff'⟩, by simp [expected]⟩
        · dsimp only
          rw [if_pos (show a < b from hv)]
          refine ⟨⟨.inl rfl, ?_⟩, by simp [expected]⟩
          intro i k hik w hw x hx
          rcases List.mem_cons.mp hik with e | e
          · cases e
            exact (hcon _ List.mem_cons_self w (List.mem_cons_of_mem _ hw) _ _ false x rfl hx).symm
          · exact hoff' i k e w hw x hx
    obtain ⟨last', hno', hinv', hseen⟩ := key
    rw [ih last' _ hinv' hcon' hval' hno', hseen]
    simp [List.flatMap_cons]

/-- **C104 (part).** Every visit of a line, be it by coming from another line or by a round of a loop within the line,
is considered exactly once, and nothing else is, whatever events have been switched off before. Missing: offsets at
which a range of another line ends (`c104_while_witness`), lines beyond 256 where a line event comes besides the jump
event (`c104_beyond_256_witness`), and entering the same line of another frame right after a round
(`c104_recursion_witness`). -/
theorem c104_visits_partial (vs : List Visit) (hcon : Consistent vs) (hval : ∀ v ∈ vs, Valid v)
    (hcl : ∀ v ∈ vs, ClearVisit v) (hno : NoClash none vs) :
    (run {} (vs.flatMap events)).seen = vs.flatMap expected := by
  have := run_visits vs none {} ⟨.inl rfl, by simp⟩ hcon (fun v hv => ⟨hval v hv, hcl v hv⟩) hno
  simpa using this

/-! ## Examples and witnesses -/

/-- `for x in y: f(x)` on line 2, `g()` on line 3. -/
def code1 : Code := ⟨1, 7, [(0, 2, 1), (2, 20, 2), (20, 30, 3)]⟩

def visits1 : List Visit :=
  [.enter code1 2, .again code1 16 6 2 false, .again code1 16 6 2 true, .forward code1 17 19 2, .enter code1 3,
   .back code1 28 4 3 2, .again code1 16 6 2 false, .enter code1 3, .back code1 28 4 3 2]

theorem c104_example :
    Consistent visits1 ∧ (∀ v ∈ visits1, Valid v ∧ ClearVisit v) ∧ NoClash none visits1 ∧
    (run {} (visits1.flatMap events)).seen = [(7, 2), (7, 2), (7, 2), (7, 3), (7, 2), (7, 2), (7, 3), (7, 2)] := by
  refine ⟨?_, ?_, ?_, by decide⟩
  · intro v hv w hw i a x y h1 h2
    simp [visits1] at hv hw
    rcases hv with rfl | rfl | rfl | rfl | rfl | rfl | rfl | rfl | rfl <;>
      rcases hw with rfl | rfl | rfl | rfl | rfl | rfl | rfl | rfl | rfl <;> simp [backOnLine, code1] at h1 h2 <;> grind
  · have on2 : ∀ off, 2 ≤ off → off < 20 → OnLine code1 off 2 := fun off h1 h2 => ⟨2, 20, by simp [code1], h1, h2⟩
    have on3 : ∀ off, 20 ≤ off → off < 30 → OnLine code1 off 3 := fun off h1 h2 => ⟨20, 30, by simp [code1], h1, h2⟩
    have cl2 : ∀ off, 2 < off → off < 20 → Clear code1 off 2 := by
      intro off h1 h2 a b l hm ha hb
      simp [code1] at hm
      omega
    have cl3 : ∀ off, 20 < off → Clear code1 off 3 := by
      intro off h1 a b l hm ha hb
      simp [code1] at hm
      omega
    intro v hv
    simp [visits1] at hv
    rcases hv with rfl | rfl | rfl | rfl | rfl | rfl | rfl | rfl | rfl <;>
      simp [Valid, ClearVisit, on2, on3, cl2, cl3]
  · simp [NoClash, visits1]

/-- A function whose `while` is on line 4 and whose body is on line 5, as Python 3.12 compiles it: the test is repeated
after the body and followed by a jump back to the body. -/
def code2 : Code := ⟨2, 7, [(0, 2, 2), (2, 6, 3), (6, 10, 4), (10, 20, 5), (20, 26, 4), (26, 30, 6)]⟩

/-- **Twice.** The jump from the test (24) to the body (10) is taken for one within line 4, because the range of the
first test ends at 10: the line of the `while` is considered twice in each round. -/
theorem c104_while_witness :
    (run {} ([.enter code2 4, .enter code2 5, .enter code2 4, .back code2 24 10 4 5].flatMap events)).seen =
      [(7, 4), (7, 5), (7, 4), (7, 4), (7, 5)] ∧
    OnLine code2 10 5 ∧ lineOf code2 10 = some 4 := by
  refine ⟨by decide, ⟨10, 20, by simp [code2], by omega, by omega⟩, by decide⟩

/-- `code1`, far down in the file. -/
def code3 : Code := ⟨3, 7, [(0, 2, 300), (2, 20, 301), (20, 30, 302)]⟩

/-- **Twice beyond line 256.** -/
theorem c104_beyond_256_witness :
    (run {} ([.enter code3 301, .again code3 16 6 301 true].flatMap events)).seen = [(7, 301), (7, 301), (7, 301)] := by
  decide

/-- **Missed.** `def visit(node):` / `for c in node.children: visit(c)`: the second inner call is not considered. -/
theorem c104_recursion_witness :
    (run {} ([.enter code1 2, .enter code1 2, .again code1 16 6 2 false, .enter code1 2].flatMap events)).seen =
      [(7, 2), (7, 2), (7, 2)] := by decide

end Jump
