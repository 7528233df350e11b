import Verif.Disasm.Rounds

/-!
# C97: a made-up source shows every instruction on its line
-/

namespace Disasm
open Spec

theorem inv_start {c : Code} (f : Formed c) : Inv c c.instrs := by
  have f' := f
  cases f with
  | mk _ _ _ _ _ _ last precall codes =>
    refine ⟨?_, ?_, last⟩
    · intro j hj
      obtain ⟨k, hk⟩ := List.getElem?_of_mem hj
      exact ⟨k, j, hk, rfl, rfl, rfl, .inl ⟨rfl, rfl⟩⟩
    · have key : ∀ m, Chain (c.instrs.drop (c.instrs.length - m)) := by
        intro m
        induction m with
        | zero => simp [Chain]
        | succ m ih =>
          by_cases hm : m < c.instrs.length
          · have hlt : c.instrs.length - (m + 1) < c.instrs.length := by omega
            rw [List.drop_eq_getElem_cons hlt]
            have he : c.instrs.length - (m + 1) + 1 = c.instrs.length - m := by omega
            rw [he]
            refine ⟨⟨?_, ?_⟩, ih⟩
            · intro hp
              obtain ⟨j, hj, hjo⟩ := precall _ _ (List.getElem?_eq_getElem hlt) hp
              rw [he] at hj
              exact ⟨j, by rw [List.getElem?_drop]; simpa using hj, hjo⟩
            · intro d hd
              have he2 : c.instrs.length - (m + 1) + 2 = c.instrs.length - m + 1 := by omega
              rcases codes _ _ d (List.getElem?_eq_getElem hlt) hd with ⟨j, hj, hjo⟩ | ⟨j, m', hj, h1, h2, hm', h3⟩
              · rw [he] at hj
                exact .inl ⟨j, by rw [List.getElem?_drop]; simpa using hj, hjo⟩
              · rw [he] at hj
                rw [he2] at hm'
                exact .inr ⟨j, m', by rw [List.getElem?_drop]; simpa using hj, h1, h2,
                  by rw [List.getElem?_drop]; exact hm', h3⟩
          · have : c.instrs.length - (m + 1) = c.instrs.length - m := by omega
            rw [this]; exact ih
      have := key c.instrs.length
      simpa using this

/-- With more rounds than instructions there is an answer. -/
theorem build_answers : ∀ (n : Nat) {c : Code} {is : List Instr} (d : Contents), Formed c → Inv c is → weights is < n →
    ∃ d', build n c.lines is d = some (.ok d') := by
  intro n
  induction n with
  | zero => intro c is d _ _ h; omega
  | succ n ih =>
    intro c is d f hi hw
    cases is with
    | nil => exact ⟨d, by simp [build]⟩
    | cons i is =>
      have hg := next_good f hi
      rw [build]
      revert hg
      cases next c.lines i is with
      | error => intro hg; exact hg.elim
      | restart left => intro hg; exact ih d f hg.1 (by have := hg.2.1; omega)
      | hidden left => intro hg; exact ih d f hg.1 (by have := hg.2.1; omega)
      | shown s left => intro hg; exact ih _ f hg.1 (by have := hg.2.1; omega)
      | nested e s left =>
        intro hg
        obtain ⟨hil, ⟨j, hj, hlc, hit⟩, -⟩ := hg
        have fe : Formed e := by
          obtain ⟨k, i0, hk, -, ha, -⟩ := hit
          cases f with
          | mk _ _ _ _ _ _ _ _ _ _ inner => exact inner i0 (List.mem_of_getElem? hk) e (by rw [← ha]; exact hlc.2)
        have hw' : weights e.instrs + 2 + weights left ≤ weights (i :: is) := by
          rw [hj, weights, j.weight_eq, hlc.2, Arg.weight, e.weight_eq]; omega
        obtain ⟨de, hde⟩ := ih [] fe (inv_start fe) (by omega)
        dsimp only
        rw [hde]
        exact ih _ f hil (by omega)

/-- What the contents say when there is an answer. -/
theorem build_sound : ∀ (n : Nat) {c : Code} {is : List Instr} {d d' : Contents}, Formed c → Inv c is →
    build n c.lines is d = some (.ok d') →
    (DOk c d → DOk c d') ∧ (Py.Dict.Ok d → Py.Dict.Ok d') ∧ (∀ l t, CHas d l t → CHas d' l t) ∧
    (∀ j ∈ is, (Visible j → ∀ l r, Owes c.lines j l r → r ≠ [] → ∃ t, Names r t ∧ CHas d' l t) ∧
      (∀ e, LoadsCode j e → ∀ l r, Must e l r → r ≠ [] → ∃ t, Names r t ∧ CHas d' l t)) := by
  intro n
  induction n with
  | zero => intro c is d d' _ _ h; simp [build] at h
  | succ n ih =>
    intro c is d d' f hi h
    cases is with
    | nil =>
      simp only [build, Option.some.injEq, Except.ok.injEq] at h
      subst h
      exact ⟨id, id, fun _ _ h => h, by simp⟩
    | cons i is =>
      have hg := next_good f hi
      rw [build] at h
      revert hg h
      -- rounds that show `s` and leave `left`
      have go : ∀ (s : List (Nat × Text)) (left : List Instr) (d1 : Contents), Inv c left →
          Keeps c.lines (i :: is) s left → (DOk c d → DOk c d1) → (Py.Dict.Ok d → Py.Dict.Ok d1) →
          (∀ l t, CHas d l t ∨ (l, t) ∈ s → CHas d1 l t) → build n c.lines left d1 = some (.ok d') →
          (DOk c d → DOk c d') ∧ (Py.Dict.Ok d → Py.Dict.Ok d') ∧ (∀ l t, CHas d l t → CHas d' l t) ∧
          (∀ j ∈ i :: is, (Visible j → ∀ l r, Owes c.lines j l r → r ≠ [] → ∃ t, Names r t ∧ CHas d' l t) ∧
            (∀ e, LoadsCode j e → ∀ l r, Must e l r → r ≠ [] → ∃ t, Names r t ∧ CHas d' l t)) := by
        intro s left d1 hl hk h1 h2 h3 hb
        obtain ⟨a1, a2, a3, a4⟩ := ih f hl hb
        refine ⟨fun x => a1 (h1 x), fun x => a2 (h2 x), fun l t x => a3 l t (h3 l t (.inl x)), ?_⟩
        intro j hj
        refine ⟨?_, ?_⟩
        · intro hv l r ho hr
          rcases (hk j hj).1 hv l r ho hr with ⟨t, hn, ht⟩ | ⟨j', hj', hv', ho'⟩
          · exact ⟨t, hn, a3 l t (h3 l t (.inr ht))⟩
          · exact (a4 j' hj').1 hv' l r ho' hr
        · intro e he l r hm hr
          exact (a4 j ((hk j hj).2 e he)).2 e he l r hm hr
      cases next c.lines i is with
      | error => intro _ hg; exact hg.elim
      | restart left => intro h hg; exact go [] left d hg.1 hg.2.2 id id (by simp) h
      | hidden left => intro h hg; exact go [] left d hg.1 hg.2.2 id id (by simp) h
      | shown s left =>
        intro h hg
        exact go _ left _ hg.1 hg.2.2.2 (fun x => add_ok x hg.2.2.1) (fun x => add_keys x s) (fun l t x => add_has.2 x) h
      | nested e s left =>
        intro h hg
        obtain ⟨hil, ⟨j, hj, hlc, hit⟩, hs⟩ := hg
        obtain ⟨rfl, rfl⟩ := List.cons.inj hj
        have hmem : ∃ i0, i0 ∈ c.instrs ∧ i0.arg = .code e := by
          obtain ⟨k, i0, hk, -, ha, -⟩ := hit
          exact ⟨i0, List.mem_of_getElem? hk, by rw [← ha]; exact hlc.2⟩
        obtain ⟨i0, hi0, hi0a⟩ := hmem
        have fe : Formed e := by
          cases f with
          | mk _ _ _ _ _ _ _ _ _ _ inner => exact inner i0 hi0 e hi0a
        dsimp only at h
        cases hb : build n e.lines e.instrs [] with
        | none => rw [hb] at h; simp at h
        | some r =>
          rw [hb] at h
          cases r with
          | error u => simp at h
          | ok inner =>
            dsimp only at h
            obtain ⟨b1, b2, b3, b4⟩ := ih fe (inv_start fe) hb
            obtain ⟨a1, a2, a3, a4⟩ := ih f hil h
            have hinner : DOk c inner := by
              intro x hx
              have := b1 (by intro x hx; simp at hx) x hx
              refine ⟨.inner hi0 hi0a this.1, ?_⟩
              intro t ht
              rcases this.2 t ht with h | h
              · exact .inl h
              · exact .inr (.inner hi0 hi0a h)
            refine ⟨?_, ?_, ?_, ?_⟩
            · intro x; exact a1 (add_ok (mergeIn_ok inner hinner x) hs)
            · intro x; exact a2 (add_keys (mergeIn_keys inner x) s)
            · intro l t x; exact a3 l t (add_has.2 (.inl (mergeIn_keeps inner x)))
            · intro j' hj'
              rcases List.mem_cons.1 hj' with hj' | hj'
              · subst hj'
                refine ⟨fun hv => absurd hlc (hv.2 e), ?_⟩
                intro e' he' l r hm hr
                have : e' = e := by
                  have := he'.2; rw [hlc.2] at this; exact (Arg.code.inj this).symm
                subst this
                have hshown : ∃ t, Names r t ∧ CHas inner l t := by
                  cases hm with
                  | @here _ k i1 _ hk seen plain repr =>
                    refine (b4 i1 (List.mem_of_getElem? hk)).1 ⟨seen, plain⟩ _ r (.inl ⟨repr, (lineOf_eq fe hk).symm⟩) hr
                  | inner mem loads h => exact (b4 _ mem).2 _ loads l r h hr
                obtain ⟨t, hn, cs, hcs, ht⟩ := hshown
                exact ⟨t, hn, a3 l t (add_has.2 (.inl (mergeIn_has inner (Py.Dict.mem_of_get hcs) ht)))⟩
              · exact a4 j' hj'

/-! ### Rows -/

theorem insertLine_mem (e : Nat × List (Option Text)) (d : Contents) (x : Nat × List (Option Text)) :
    x ∈ insertLine e d ↔ x = e ∨ x ∈ d := by
  induction d with
  | nil => simp [insertLine]
  | cons f fs ih =>
    unfold insertLine
    split
    · simp
    · simp only [List.mem_cons, ih]; grind

theorem sortLines_mem (d : Contents) (x : Nat × List (Option Text)) : x ∈ sortLines d ↔ x ∈ d := by
  induction d with
  | nil => simp [sortLines]
  | cons e es ih => rw [sortLines, insertLine_mem, ih]; simp

/-- In increasing order of lines. -/
def Sorted : Contents → Prop
  | [] => True
  | e :: es => (∀ x ∈ es, e.1 < x.1) ∧ Sorted es

theorem insertLine_sorted (e : Nat × List (Option Text)) : ∀ d : Contents, Sorted d → (∀ x ∈ d, x.1 ≠ e.1) → Sorted (insertLine e d) := by
  intro d
  induction d with
  | nil => intro _ _; simp [insertLine, Sorted]
  | cons f fs ih =>
    intro hs hne
    unfold insertLine
    have hfe := hne f (by simp)
    split
    · rename_i hle
      refine ⟨?_, hs⟩
      intro x hx
      rcases List.mem_cons.1 hx with hx | hx
      · subst hx; omega
      · have := hs.1 x hx; omega
    · rename_i hle
      refine ⟨?_, ih hs.2 (fun x hx => hne x (List.mem_cons_of_mem _ hx))⟩
      intro x hx
      rcases (insertLine_mem e fs x).1 hx with hx | hx
      · subst hx; omega
      · exact hs.1 x hx

theorem sortLines_sorted (d : Contents) (h : Py.Dict.Ok d) : Sorted (sortLines d) := by
  induction d with
  | nil => simp [sortLines, Sorted]
  | cons e es ih =>
    simp only [Py.Dict.Ok, List.map_cons, List.nodup_cons] at h
    rw [sortLines]
    apply insertLine_sorted _ _ (ih h.2)
    intro x hx hxe
    rw [sortLines_mem] at hx
    exact h.1 (by rw [← hxe]; exact List.mem_map_of_mem hx)

theorem split_newlines (n : Nat) (s : Text) :
    Py.split1 '\n' (List.replicate n '\n' ++ s) = List.replicate n [] ++ Py.split1 '\n' s := by
  induction n with
  | zero => simp
  | succ n ih =>
    have := Py.split1_append_sep '\n' [] (List.replicate n '\n' ++ s)
    simp only [List.nil_append] at this
    rw [List.replicate_succ, List.cons_append, this, ih]
    simp [Py.split1, List.replicate_succ]

/-- The rows of what is written are the lines of the contents. -/
theorem emit_rows : ∀ (es : Contents) (last : Nat), Sorted es → (∀ e ∈ es, last < e.1 ∧ '\n' ∉ render e.2) → ∀ k,
    (∀ e ∈ es, e.1 = last + 1 + k → (Py.split1 '\n' (emit last es)).getD k [] = render e.2) ∧
    ((∀ e ∈ es, e.1 ≠ last + 1 + k) → (Py.split1 '\n' (emit last es)).getD k [] = []) := by
  intro es
  induction es with
  | nil =>
    intro last _ _ k
    refine ⟨by simp, fun _ => ?_⟩
    cases k <;> simp [emit, Py.split1]
  | cons e es ih =>
    intro last hs hok k
    obtain ⟨line, cs⟩ := e
    have h0 := hok (line, cs) (by simp)
    dsimp only at h0
    have h1 : Py.split1 '\n' (emit last ((line, cs) :: es))
        = List.replicate (line - 1 - last) [] ++ (render cs :: Py.split1 '\n' (emit line es)) := by
      rw [emit, split_newlines, Py.split1_append_sep, Py.split1_of_not_mem _ _ h0.2]; rfl
    rw [h1]
    have hlen : (List.replicate (line - 1 - last) ([] : Text)).length = line - 1 - last := by simp
    have ih' := ih line hs.2 (fun x hx => ⟨hs.1 x hx, (hok x (List.mem_cons_of_mem _ hx)).2⟩)
    simp only [List.getD_eq_getElem?_getD, List.getElem?_append, hlen] at ih' ⊢
    by_cases hk : k < line - 1 - last
    · rw [if_pos hk]
      simp only [List.getElem?_replicate, hk, if_true, Option.getD_some]
      refine ⟨?_, fun _ => trivial⟩
      intro x hx hxl
      rcases List.mem_cons.1 hx with hx | hx
      · subst hx; simp only at hxl; omega
      · have := hs.1 x hx; simp only at this; omega
    · rw [if_neg hk]
      by_cases hke : k = line - 1 - last
      · have : k - (line - 1 - last) = 0 := by omega
        rw [this]
        simp only [List.getElem?_cons_zero, Option.getD_some]
        refine ⟨?_, ?_⟩
        · intro x hx hxl
          rcases List.mem_cons.1 hx with hx | hx
          · subst hx; rfl
          · have := hs.1 x hx; simp only at this; omega
        · intro h; exact absurd (by simp only; omega) (h (line, cs) (by simp))
      · have hm : k - (line - 1 - last) = (k - (line - last)) + 1 := by omega
        rw [hm, List.getElem?_cons_succ]
        have he : line + 1 + (k - (line - last)) = last + 1 + k := by omega
        have := ih' (k - (line - last))
        rw [he] at this
        refine ⟨?_, ?_⟩
        · intro x hx hxl
          rcases List.mem_cons.1 hx with hx | hx
          · subst hx; simp only at hxl; omega
          · exact this.1 x hx hxl
        · intro h
          exact this.2 (fun x hx => h x (List.mem_cons_of_mem _ hx))

theorem render_pieces (cs : List (Option Text)) : ∃ frs : List Text, render cs = frs.flatten ∧
    ∀ t ∈ frs, t = c!", " ∨ some t ∈ cs := by
  fun_induction render cs with
  | case1 => exact ⟨[], rfl, by simp⟩
  | case2 => exact ⟨[], rfl, by simp⟩
  | case3 cs _ ih =>
    obtain ⟨frs, h1, h2⟩ := ih
    refine ⟨c!", " :: frs, by rw [h1]; rfl, ?_⟩
    intro t ht
    rcases List.mem_cons.1 ht with ht | ht
    · exact .inl ht
    · rcases h2 t ht with h | h
      · exact .inl h
      · exact .inr (List.mem_cons_of_mem _ h)
  | case4 t cs ih =>
    obtain ⟨frs, h1, h2⟩ := ih
    refine ⟨t :: frs, by rw [h1]; rfl, ?_⟩
    intro x hx
    rcases List.mem_cons.1 hx with hx | hx
    · subst hx; exact .inr (by simp)
    · rcases h2 x hx with h | h
      · exact .inl h
      · exact .inr (List.mem_cons_of_mem _ h)

theorem render_has {cs : List (Option Text)} {t : Text} (h : some t ∈ cs) : t <:+: render cs := by
  fun_induction render cs with
  | case1 => simp at h
  | case2 => simp at h
  | case3 cs _ ih =>
    have := ih (by simpa using h)
    obtain ⟨a, b, hab⟩ := this
    exact ⟨c!", " ++ a, b, by rw [← hab]; simp⟩
  | case4 x cs ih =>
    simp only [List.mem_cons, Option.some.injEq] at h
    rcases h with h | h
    · subst h; exact ⟨[], render cs, by simp⟩
    · obtain ⟨a, b, hab⟩ := ih h
      exact ⟨x ++ a, b, by rw [← hab]; simp⟩

theorem hasLine_pos {c : Code} {l : Nat} (h : HasLine c l) (f : Formed c) : 1 ≤ l := by
  induction h with
  | here at_k busy =>
    cases f with
    | mk _ _ _ _ _ _ _ _ _ lines => exact lines _ _ at_k busy
  | inner mem code _ ih =>
    cases f with
    | mk _ _ _ _ _ _ _ _ _ _ inner => exact ih (inner _ mem _ code)

theorem fixed_newline : ∀ t ∈ fixed, '\n' ∉ t := by decide

theorem shows_newline {c : Code} {l : Nat} {t : Text} (h : Shows c l t) (f : Formed c) : '\n' ∉ t := by
  induction h with
  | @name c k i r t at_k repr names =>
    cases f with
    | mk _ texts =>
      obtain ⟨r', hr', hn, -⟩ := texts i (List.mem_of_getElem? at_k)
      rw [repr] at hr'
      obtain rfl := Part.text.inj hr'
      intro ht
      apply hn
      rcases names with h | h | h | h <;> rw [h] <;> simp [ht]
  | op at_k =>
    cases f with
    | mk _ _ ops => exact ops _ (List.mem_of_getElem? at_k)
  | @value c k i v at_k arg =>
    cases f with
    | mk _ _ ops values =>
      have h1 := ops i (List.mem_of_getElem? at_k)
      have h2 := values i (List.mem_of_getElem? at_k) v arg
      simp [h1, h2]
  | offset at_k target =>
    intro h
    have := Py.natStr_digits _ _ h
    exact absurd this (by decide)
  | inner mem code _ ih =>
    cases f with
    | mk _ _ _ _ _ _ _ _ _ _ inner => exact ih (inner _ mem _ code)

theorem flatten_newline {frs : List Text} (h : ∀ t ∈ frs, '\n' ∉ t) : '\n' ∉ frs.flatten := by
  intro hm
  obtain ⟨t, ht, hc⟩ := List.mem_flatten.1 hm
  exact h t ht hc

/-- The row of a line: what the contents have for it. -/
theorem represent_rows {n : Nat} {c : Code} {out : Text} (f : Formed c) (h : represent n c = some (.ok out)) :
    ∃ d, build n c.lines c.instrs [] = some (.ok d) ∧ DOk c d ∧ Py.Dict.Ok d ∧
      ∀ l, 1 ≤ l → row out l = match Py.Dict.get d l with | some cs => render cs | none => [] := by
  unfold represent at h
  cases hb : build n c.lines c.instrs [] with
  | none => rw [hb] at h; simp at h
  | some r =>
    rw [hb] at h
    cases r with
    | error e => simp at h
    | ok d =>
      simp only [Option.some.injEq, Except.ok.injEq] at h
      subst h
      obtain ⟨a1, a2, -, -⟩ := build_sound n f (inv_start f) hb
      have hd := a1 (by intro x hx; simp at hx)
      have hk := a2 (by simp [Py.Dict.Ok])
      refine ⟨d, rfl, hd, hk, ?_⟩
      intro l hl
      have hrow := emit_rows (sortLines d) 0 (sortLines_sorted d hk)
        (by
          intro e he
          rw [sortLines_mem] at he
          have := hd e he
          refine ⟨by have := hasLine_pos this.1 f; omega, ?_⟩
          obtain ⟨frs, h1, h2⟩ := render_pieces e.2
          rw [h1]
          apply flatten_newline
          intro t ht
          rcases h2 t ht with h | h
          · rw [h]; decide
          · rcases this.2 t h with h | h
            · exact fixed_newline t h
            · exact shows_newline h f)
        (l - 1)
      have he : 0 + 1 + (l - 1) = l := by omega
      rw [he] at hrow
      unfold row
      cases hg : Py.Dict.get d l with
      | none =>
        apply hrow.2
        intro e he hel
        rw [sortLines_mem] at he
        rw [Py.Dict.get_none_iff] at hg
        exact hg (by rw [← hel]; exact List.mem_map_of_mem he)
      | some cs =>
        exact hrow.1 (l, cs) ((sortLines_mem d _).2 (Py.Dict.mem_of_get hg)) rfl

/-- **C97.** A source is made up for every code object that is well formed: the making of it ends. -/
theorem c97_answers (c : Code) (f : Formed c) : ∃ n, ∀ m, n ≤ m → ∃ out, represent m c = some (.ok out) := by
  refine ⟨weights c.instrs + 1, ?_⟩
  intro m hm
  obtain ⟨d, hd⟩ := build_answers m [] f (inv_start f) (by omega)
  exact ⟨emit 0 (sortLines d), by unfold represent; rw [hd]⟩

/-- **C97.** Row `l` of the made-up source has only punctuation, keywords and texts of instructions
that are on line `l`; without an instruction on line `l` it is empty. -/
theorem c97_rows {n : Nat} {c : Code} {out : Text} (f : Formed c) (h : represent n c = some (.ok out)) (l : Nat) (hl : 1 ≤ l) :
    (∃ frs : List Text, row out l = frs.flatten ∧ ∀ t ∈ frs, t ∈ fixed ∨ Shows c l t) ∧
    (¬ HasLine c l → row out l = []) := by
  obtain ⟨d, -, hd, -, hrow⟩ := represent_rows f h
  rw [hrow l hl]
  cases hg : Py.Dict.get d l with
  | none => exact ⟨⟨[], rfl, by simp⟩, fun _ => rfl⟩
  | some cs =>
    have := hd _ (Py.Dict.mem_of_get hg)
    refine ⟨?_, fun hn => absurd this.1 hn⟩
    obtain ⟨frs, h1, h2⟩ := render_pieces cs
    refine ⟨frs, h1, ?_⟩
    intro t ht
    rcases h2 t ht with h | h
    · left; rw [h]; decide
    · exact this.2 t h

/-- **C97.** Every instruction that is not shown as punctuation or a keyword has its argument on the
row of its line, those of the functions and classes defined in the code too. -/
theorem c97_shown {n : Nat} {c : Code} {out : Text} (f : Formed c) (h : represent n c = some (.ok out))
    {l : Nat} {r : Text} (hm : Must c l r) : ∃ t, Names r t ∧ t <:+: row out l := by
  by_cases hr : r = []
  · exact ⟨r, names_refl r, by rw [hr]; exact List.nil_infix⟩
  · obtain ⟨d, hb, hd, -, hrow⟩ := represent_rows f h
    obtain ⟨-, -, -, a4⟩ := build_sound n f (inv_start f) hb
    have : ∃ t, Names r t ∧ CHas d l t := by
      cases hm with
      | @here _ k i _ hk seen plain repr =>
        exact (a4 i (List.mem_of_getElem? hk)).1 ⟨seen, plain⟩ _ r (.inl ⟨repr, (lineOf_eq f hk).symm⟩) hr
      | inner mem loads h => exact (a4 _ mem).2 _ loads l r h hr
    obtain ⟨t, hn, cs, hcs, ht⟩ := this
    have hl := hasLine_pos (hd _ (Py.Dict.mem_of_get hcs)).1 f
    refine ⟨t, hn, ?_⟩
    rw [hrow l hl, hcs]
    exact render_has ht

/-- **C97.** Lines that are in the line cache are given as they are, up to the end of the file; only
without any is a source made up. -/
theorem c97_cached (n : Nat) (cached : List Text) (c : Code) (hne : ∀ l ∈ cached, l ≠ []) :
    decompiled n cached c = if cached = [] then represent n c else some (.ok cached.flatten) := by
  have h1 : cached.takeWhile (fun l => !l.isEmpty) = cached := by
    induction cached with
    | nil => rfl
    | cons x xs ih =>
      have hx := hne x (by simp)
      have := ih (fun l hl => hne l (List.mem_cons_of_mem _ hl))
      cases x with
      | nil => exact absurd rfl hx
      | cons a as => simp [this]
  unfold decompiled
  rw [h1]
  cases cached with
  | nil => simp
  | cons x xs =>
    have := hne x (by simp)
    cases x with
    | nil => exact absurd rfl this
    | cons a as => simp

/-! ### A concrete case -/

/-- An instruction with a number and a text. -/
def ins (op : Text) (offset : Nat) (n : Nat) (r : Text) : Instr := .mk op (.num n) false offset (.text r)

/-- `def g(): return y`, with the `return` on line 3. -/
def exInner : Code := .mk 2 [(0, 3)] [ins c!"LOAD_NAME" 0 0 c!"y", ins c!"RETURN_VALUE" 2 0 []]

/-- As Python 3.11 compiles it: the definition of `g` on line 2, and a call that takes lines 5 to 7,
`return f(x.y, 3)`. -/
def exCode : Code := .mk 1 [(0, 0), (2, 2), (8, 5), (10, 6), (14, 7), (16, 5)]
  [ins c!"RESUME" 0 0 [],
   .mk c!"LOAD_CONST" (.code exInner) false 2 (.text c!"<code object g>"), ins c!"MAKE_FUNCTION" 4 0 [], ins c!"STORE_NAME" 6 0 c!"g",
   ins c!"LOAD_NAME" 8 0 c!"NULL + f", ins c!"LOAD_NAME" 10 0 c!"x", ins c!"LOAD_ATTR" 12 0 c!"y", ins c!"LOAD_CONST" 14 0 c!"3",
   ins c!"PRECALL" 16 2 [], ins c!"CALL" 18 2 [], ins c!"RETURN_VALUE" 20 0 []]

theorem exInner_formed : Formed exInner := by
  refine .mk ?_ ?_ ?_ ?_ ?_ ?_ ?_ ?_ ?_ ?_ ?_
  · decide
  · intro i hi
    simp only [exInner, Code.instrs, List.mem_cons, List.not_mem_nil, or_false] at hi
    rcases hi with rfl | rfl
    · refine ⟨c!"y", rfl, by decide, ?_⟩
      intro s hs
      have := congrArg List.length hs
      simp at this
    · refine ⟨[], rfl, by decide, ?_⟩
      intro s hs
      simp at hs
  · decide +kernel
  · intro i hi v hv
    simp only [exInner, Code.instrs, List.mem_cons, List.not_mem_nil, or_false] at hi
    rcases hi with rfl | rfl <;> simp [ins, Instr.arg, Arg.shown] at hv
  · intro i hi h
    simp only [exInner, Code.instrs, List.mem_cons, List.not_mem_nil, or_false] at hi
    rcases hi with rfl | rfl <;> exact absurd h (by decide)
  · intro i hi h
    simp only [exInner, Code.instrs, List.mem_cons, List.not_mem_nil, or_false] at hi
    rcases hi with rfl | rfl <;> exact absurd h (by decide)
  · intro i hi; simp [exInner, Code.instrs] at hi; subst hi; decide
  · intro k i hk hp
    rcases k with _ | _ | k <;> simp [exInner, Code.instrs] at hk <;> subst hk <;> simp [ins, Instr.op] at hp
  · intro k i d hk hp
    rcases k with _ | _ | k <;> simp [exInner, Code.instrs] at hk <;> subst hk <;> simp [LoadsCode, ins, Instr.op] at hp
  · intro k i hk hp
    rcases k with _ | _ | k <;> simp [exInner, Code.instrs] at hk <;> subst hk <;> decide
  · intro i hi d hd
    simp only [exInner, Code.instrs, List.mem_cons, List.not_mem_nil, or_false] at hi
    rcases hi with rfl | rfl <;> simp [ins, Instr.arg] at hd

/-- `exCode` is well formed. -/
theorem exCode_formed : Formed exCode := by
  refine .mk ?_ ?_ ?_ ?_ ?_ ?_ ?_ ?_ ?_ ?_ ?_
  · decide
  · intro i hi
    simp only [exCode, Code.instrs, List.mem_cons, List.not_mem_nil, or_false] at hi
    have key : ∀ r : Text, '\n' ∉ r → ¬ (c!"+ NULL" <:+ r) →
        '\n' ∉ r ∧ (∀ s, r = s ++ c!"+ NULL" → ∃ t, s = t ++ c!" " ∧ t ≠ c!"NULL +") :=
      fun r h1 h2 => ⟨h1, fun s hs => absurd ⟨s, hs.symm⟩ h2⟩
    rcases hi with rfl | rfl | rfl | rfl | rfl | rfl | rfl | rfl | rfl | rfl | rfl <;>
      exact ⟨_, rfl, key _ (by decide) (by decide)⟩
  · intro i hi
    simp only [exCode, Code.instrs, List.mem_cons, List.not_mem_nil, or_false] at hi
    rcases hi with rfl | rfl | rfl | rfl | rfl | rfl | rfl | rfl | rfl | rfl | rfl <;> decide
  · intro i hi v hv
    simp only [exCode, Code.instrs, List.mem_cons, List.not_mem_nil, or_false] at hi
    rcases hi with rfl | rfl | rfl | rfl | rfl | rfl | rfl | rfl | rfl | rfl | rfl <;>
      first
      | (simp [ins, Instr.arg, Arg.shown] at hv; done)
      | (simp only [ins, Instr.arg, Arg.shown, Option.some.injEq] at hv; subst hv; decide +kernel)
  · intro i hi
    simp only [exCode, Code.instrs, List.mem_cons, List.not_mem_nil, or_false] at hi
    rcases hi with rfl | rfl | rfl | rfl | rfl | rfl | rfl | rfl | rfl | rfl | rfl <;> intro h <;>
      exact absurd h (by decide)
  · intro i hi
    simp only [exCode, Code.instrs, List.mem_cons, List.not_mem_nil, or_false] at hi
    rcases hi with rfl | rfl | rfl | rfl | rfl | rfl | rfl | rfl | rfl | rfl | rfl <;> intro h <;>
      first
      | exact absurd h (by decide)
      | exact ⟨_, rfl⟩
  · intro i hi; simp [exCode, Code.instrs] at hi; subst hi; decide
  · intro k i hk hp
    rcases k with _ | _ | _ | _ | _ | _ | _ | _ | _ | _ | _ | k <;> simp [exCode, Code.instrs] at hk <;> subst hk <;>
      first
      | exact ⟨_, rfl, rfl⟩
      | exact absurd hp (by decide)
  · intro k i d hk hp
    rcases k with _ | _ | _ | _ | _ | _ | _ | _ | _ | _ | _ | k <;> simp [exCode, Code.instrs] at hk <;> subst hk <;>
      first
      | exact .inl ⟨_, rfl, rfl⟩
      | exact absurd hp.1 (by decide)
      | (have := hp.2; simp [ins, Instr.arg] at this)
  · intro k i hk hp
    rcases k with _ | _ | _ | _ | _ | _ | _ | _ | _ | _ | _ | k <;> simp [exCode, Code.instrs] at hk <;> subst hk <;>
      first
      | exact absurd (by decide) hp
      | decide
  · intro i hi d hd
    simp only [exCode, Code.instrs, List.mem_cons, List.not_mem_nil, or_false] at hi
    rcases hi with rfl | rfl | rfl | rfl | rfl | rfl | rfl | rfl | rfl | rfl | rfl <;>
      first
      | (simp [ins, Instr.arg] at hd; done)
      | (simp only [Instr.arg, Arg.code.injEq] at hd; subst hd; exact exInner_formed)

/-- The source made up for `exCode`: the body of `g` is on line 3, the call on lines 5 to 7. -/
theorem c97_example : represent 100 exCode = some (.ok (c!"\nLOAD_CONST(code), MAKE_FUNCTION, STORE_NAME(g)\n    return y\n\nreturn f(\nx.y, \n3)\n"))
    ∧ Must exCode 3 c!"y" ∧ Must exCode 7 c!"3" := by
  refine ⟨rfl, ?_, ?_⟩
  · have h : Must exInner 3 c!"y" := .here (c := exInner) (k := 0) (i := ins c!"LOAD_NAME" 0 0 c!"y") rfl (by decide)
      (by intro d hd; exact absurd hd.1 (by decide)) rfl
    exact .inner (i := .mk c!"LOAD_CONST" (.code exInner) false 2 (.text c!"<code object g>")) (by simp [exCode, Code.instrs]) ⟨rfl, rfl⟩ h
  · exact .here (c := exCode) (k := 7) (i := ins c!"LOAD_CONST" 14 0 c!"3") rfl (by decide)
      (by intro d hd; have := hd.2; simp [ins, Instr.arg] at this) rfl

/-- `f(**kw)` as Python 3.8 compiles it: an empty tuple is built after a load. -/
def emptyTuple : Code := .mk 1 [(0, 1)]
  [ins c!"LOAD_NAME" 0 0 c!"f", ins c!"BUILD_TUPLE" 2 0 [], ins c!"LOAD_NAME" 4 0 c!"kw", ins c!"CALL_FUNCTION_EX" 6 1 [],
   ins c!"RETURN_VALUE" 8 0 []]

/-- What is left after a round. -/
def emptyTupleLeft : List Instr :=
  [ins c!"LOAD_NAME" 0 0 c!"f", .mk c!"BUILD_TUPLE" (.num 0) false 2 (.many [.msg 1 (.text c!"("), .msg 1 (.text c!")")]),
   ins c!"LOAD_NAME" 4 0 c!"kw", ins c!"CALL_FUNCTION_EX" 6 1 [], ins c!"RETURN_VALUE" 8 0 []]

/-- The restriction to code that builds no empty tuple is needed: with one after a load, the making
of a source never ends. -/
theorem c97_empty_tuple_witness : ∀ n, represent n emptyTuple = none := by
  have left : ∀ n d, build n emptyTuple.lines emptyTupleLeft d = none := by
    intro n
    induction n with
    | zero => intro d; rfl
    | succ n ih => intro d; exact ih d
  intro n
  have : build n emptyTuple.lines emptyTuple.instrs [] = none := by
    cases n with
    | zero => rfl
    | succ n => exact left n []
  unfold represent
  rw [this]

/-- The restriction to lines from 1 on is needed: code with an instruction on line 0 (as can be given
to the code made from a tree) has all its lines one row too low. -/
theorem c97_line_zero_witness :
    ∃ c : Code, represent 10 c = some (.ok c!"return a\nreturn b\n") ∧ Spec.lineAt c 2 = 1 ∧
      c.instrs[2]? = some (ins c!"LOAD_NAME" 4 0 c!"b") :=
  ⟨.mk 0 [(0, 0), (4, 1)] [ins c!"LOAD_NAME" 0 0 c!"a", ins c!"RETURN_VALUE" 2 0 [], ins c!"LOAD_NAME" 4 0 c!"b",
    ins c!"RETURN_VALUE" 6 0 []], rfl, rfl, rfl⟩

end Disasm
