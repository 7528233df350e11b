import Verif.IgnoreExc.Model
/-!
C67: whether an exception at a line is ignored follows the text of the file as it is now and what the client sent, whatever
was cached before.
-/

namespace IgnoreExc

/-! ### Specification -/

/-- The line carries the comment: after its first `#`, and before its end, comes the tag. -/
def Tagged (line : List Char) : Prop :=
  ∃ pre mid post, line = pre ++ '#' :: (mid ++ "@IgnoreException".toList ++ post) ∧ '#' ∉ pre ∧ '\n' ∉ mid

theorem contains_iff (pat s : List Char) : contains pat s = true ↔ ∃ a b, s = a ++ pat ++ b := by
  induction s with
  | nil => simp [contains]
  | cons c cs ih =>
    simp only [contains, Bool.or_eq_true, List.isPrefixOf_iff_prefix, ih]
    constructor
    · rintro (⟨b, hb⟩ | ⟨a, b, h⟩)
      · exact ⟨[], b, hb.symm⟩
      · exact ⟨c :: a, b, by rw [h]; simp⟩
    · rintro ⟨a, b, h⟩
      cases a with
      | nil => exact .inl ⟨b, h.symm⟩
      | cons x a =>
        simp only [List.cons_append, List.cons.injEq] at h
        exact .inr ⟨a, b, h.2⟩

theorem takeWhile_split (p : Char → Bool) (l a b : List Char) (h : l.takeWhile p = a ++ b) : ∃ c, l = a ++ b ++ c := by
  refine ⟨l.dropWhile p, ?_⟩
  rw [← h, List.takeWhile_append_dropWhile]

theorem takeWhile_of_all (p : Char → Bool) (a b : List Char) (h : ∀ x ∈ a, p x = true) :
    (a ++ b).takeWhile p = a ++ b.takeWhile p := by
  induction a with
  | nil => rfl
  | cons x a ih => simp [h x (by simp), ih (fun y hy => h y (by simp [hy]))]

/-- The comment is recognised exactly when it is there. -/
theorem c67_tag (line : List Char) : tagged line = true ↔ Tagged line := by
  unfold tagged Tagged
  induction line with
  | nil =>
    rw [contains_iff]
    constructor
    · rintro ⟨a, b, h⟩
      have := congrArg List.length h
      simp [comment] at this
    · rintro ⟨pre, mid, post, h, _⟩
      cases pre <;> exact nomatch h
  | cons c cs ih =>
    by_cases hc : c = '#'
    · subst hc
      simp only [comment, if_true]
      rw [contains_iff]
      constructor
      · rintro ⟨a, b, h⟩
        obtain ⟨d, hd⟩ := takeWhile_split _ _ _ _ h
        refine ⟨[], a, b ++ d, by rw [hd]; simp, by simp, ?_⟩
        intro hn
        have hm : '\n' ∈ cs.takeWhile (· ≠ '\n') := by rw [h]; simp [hn]
        have := List.all_takeWhile (p := (· ≠ '\n')) (l := cs)
        simp only [List.all_eq_true] at this
        have := this _ hm
        simp at this
      · rintro ⟨pre, mid, post, h, hp, hm⟩
        cases pre with
        | cons x pre =>
          simp only [List.cons_append, List.cons.injEq] at h
          exact absurd (h.1 ▸ List.mem_cons_self) hp
        | nil =>
          simp only [List.nil_append, List.cons.injEq, true_and] at h
          refine ⟨mid, post.takeWhile (· ≠ '\n'), ?_⟩
          rw [h, takeWhile_of_all]
          intro x hx
          rcases List.mem_append.1 hx with hx | hx
          · simp only [ne_eq, decide_not, Bool.not_eq_true', decide_eq_false_iff_not]
            exact fun he => hm (he ▸ hx)
          · have : ∀ y ∈ "@IgnoreException".toList, y ≠ '\n' := by decide
            simpa using this x hx
    · simp only [comment, hc, if_false]
      rw [ih]
      constructor
      · rintro ⟨pre, mid, post, h, hp, hm⟩
        exact ⟨c :: pre, mid, post, by rw [h]; rfl, by simp only [List.mem_cons, not_or]; exact ⟨fun h => hc h.symm, hp⟩, hm⟩
      · rintro ⟨pre, mid, post, h, hp, hm⟩
        cases pre with
        | nil => simp only [List.nil_append, List.cons.injEq] at h; exact absurd h.1 hc
        | cons x pre =>
          simp only [List.cons_append, List.cons.injEq] at h
          exact ⟨pre, mid, post, h.2, fun hh => hp (List.mem_cons_of_mem _ hh), hm⟩

/-! ### The caches -/

structure Inv (w : World) (s : State) : Prop where
  old : ∀ c v, s.disk c = some v → v < s.next
  oldStat : ∀ a v, s.statInfo a = some v → v < s.next
  oldCache : ∀ a v, s.linecache a = some v → v < s.next
  /-- once the current version was seen under a name, `linecache` holds no other one for it -/
  cache : ∀ a v x, s.statInfo a = some v → s.disk (w.canon a) = some v → s.linecache a = some x → x = v
  /-- what is remembered about a line is true of the current version, once that was seen under some name -/
  lines : ∀ a v n b, s.statInfo a = some v → s.disk (w.canon a) = some v → s.lines (w.canon a) n = some b →
    b = tagged (w.text (w.canon a) v n)

theorem inv_start (w : World) (disk : Disk) (next : Nat) (h : ∀ c v, disk c = some v → v < next) : Inv w (start disk next) :=
  ⟨h, by simp [start], by simp [start], by simp [start], by simp [start]⟩

theorem inv_checkcache (w : World) (s : State) (a : Abs) (h : Inv w s) : Inv w (checkcache w s a) := by
  unfold checkcache
  split
  · exact h
  · split
    · exact h
    · refine ⟨h.old, h.oldStat, ?_, ?_, h.lines⟩
      · intro x v hx
        simp only [set] at hx
        split at hx
        · exact nomatch hx
        · exact h.oldCache x v hx
      · intro x v y h1 h2 h3
        simp only [set] at h3
        split at h3
        · exact nomatch h3
        · exact h.cache x v y h1 h2 h3

theorem inv_getline (w : World) (s : State) (a : Abs) (n : Nat) (h : Inv w s) : Inv w (getline w s a n).1 := by
  unfold getline
  split
  · exact h
  · split
    · exact h
    · rename_i v hv
      refine ⟨h.old, h.oldStat, ?_, ?_, h.lines⟩
      · intro x u hx
        simp only [set] at hx
        split at hx
        · rw [← Option.some.inj hx]; exact h.old _ _ hv
        · exact h.oldCache x u hx
      · intro x u y h1 h2 h3
        simp only [set] at h3
        split at h3
        · rename_i he
          subst he
          have h2' := h2
          simp only at h2'
          rw [hv] at h2'
          rw [← Option.some.inj h3, ← Option.some.inj h2']
        · exact h.cache x u y h1 h2 h3

theorem checkcache_rest (w : World) (s : State) (a : Abs) :
    (checkcache w s a).disk = s.disk ∧ (checkcache w s a).statInfo = s.statInfo ∧ (checkcache w s a).lines = s.lines ∧
    (checkcache w s a).user = s.user ∧ (checkcache w s a).next = s.next ∧
    ((checkcache w s a).linecache a = none ∨ (checkcache w s a).linecache a = s.disk (w.canon a)) ∧
    ∀ x, x ≠ a → (checkcache w s a).linecache x = s.linecache x := by
  unfold checkcache
  split
  · rename_i h; exact ⟨rfl, rfl, rfl, rfl, rfl, .inl h, fun _ _ => rfl⟩
  · rename_i v hv
    split
    · rename_i h; exact ⟨rfl, rfl, rfl, rfl, rfl, .inr (hv.trans h.symm), fun _ _ => rfl⟩
    · exact ⟨rfl, rfl, rfl, rfl, rfl, .inl (by simp [set]), fun x hx => by simp [set, hx]⟩

theorem inv_refresh (w : World) (s : State) (a : Abs) (h : Inv w s) :
    Inv w (refresh w s a) ∧ (refresh w s a).disk = s.disk ∧ (refresh w s a).user = s.user ∧
    (refresh w s a).statInfo a = s.disk (w.canon a) := by
  unfold refresh
  split
  · rename_i he; exact ⟨h, rfl, rfl, he⟩
  · rename_i hne
    obtain ⟨h1, h2, h3, h4, h5, h6, h7⟩ := checkcache_rest w
      { s with statInfo := set s.statInfo a (s.disk (w.canon a)), lines := set s.lines (w.canon a) (fun _ => none) } a
    refine ⟨⟨?_, ?_, ?_, ?_, ?_⟩, h1, h4, by rw [h2]; simp [set]⟩
    · intro c v hv; rw [h1] at hv; rw [h5]; exact h.old c v hv
    · intro x v hv
      rw [h2] at hv; rw [h5]
      simp only [set] at hv
      split at hv
      · exact h.old _ _ hv
      · exact h.oldStat x v hv
    · intro x v hv
      rw [h5]
      by_cases hx : x = a
      · subst hx
        rcases h6 with h6 | h6
        · rw [h6] at hv; exact nomatch hv
        · rw [h6] at hv; exact h.old _ _ hv
      · rw [h7 x hx] at hv; exact h.oldCache x v hv
    · intro x v y e1 e2 e3
      rw [h1] at e2
      by_cases hx : x = a
      · subst hx
        rcases h6 with h6 | h6
        · rw [h6] at e3; exact nomatch e3
        · rw [h6] at e3
          simp only at e2 e3
          rw [e2] at e3; exact (Option.some.inj e3).symm
      · rw [h7 x hx] at e3
        rw [h2] at e1
        simp only [set, hx, if_false] at e1
        exact h.cache x v y e1 e2 e3
    · intro x v n b e1 e2 e3
      rw [h1] at e2
      rw [h3] at e3
      rw [h2] at e1
      simp only [set] at e3 e1
      split at e3
      · exact nomatch e3
      · rename_i hc
        have hx : x ≠ a := fun hh => hc (by rw [hh])
        simp only [hx, if_false] at e1
        exact h.lines x v n b e1 e2 e3

theorem isIgnored_eq (w : World) (s : State) (a : Abs) (n : Nat) :
    isIgnored w s a n =
      match (if (refresh w s a).user (w.canon a) n then some true else (refresh w s a).lines (w.canon a) n) with
      | some b => (refresh w s a, b)
      | none =>
        ({ (getline w (refresh w s a) a n).1 with
            lines := set (getline w (refresh w s a) a n).1.lines (w.canon a)
              (set ((getline w (refresh w s a) a n).1.lines (w.canon a)) n (some (tagged (getline w (refresh w s a) a n).2))) },
          tagged (getline w (refresh w s a) a n).2) := rfl

theorem getline_rest (w : World) (s : State) (a : Abs) (n : Nat) :
    (getline w s a n).1.disk = s.disk ∧ (getline w s a n).1.statInfo = s.statInfo ∧ (getline w s a n).1.lines = s.lines ∧
    (getline w s a n).1.user = s.user ∧ (getline w s a n).1.next = s.next := by
  unfold getline
  repeat' split
  all_goals exact ⟨rfl, rfl, rfl, rfl, rfl⟩

/-- After `refresh`, a file that exists is read as it is now. -/
theorem getline_current (w : World) (s : State) (a : Abs) (n v : Nat) (h : Inv w s) (hs : s.statInfo a = s.disk (w.canon a))
    (hv : s.disk (w.canon a) = some v) : (getline w s a n).2 = w.text (w.canon a) v n := by
  unfold getline
  split
  · rename_i x hx
    rw [h.cache a v x (hs.trans hv) hv hx]
  · rw [hv]

theorem inv_isIgnored (w : World) (s : State) (a : Abs) (n : Nat) (h : Inv w s) :
    Inv w (isIgnored w s a n).1 ∧ (isIgnored w s a n).1.disk = s.disk ∧ (isIgnored w s a n).1.user = s.user := by
  obtain ⟨hr, hd, hu, hst⟩ := inv_refresh w s a h
  rw [isIgnored_eq]
  split
  · exact ⟨hr, hd, hu⟩
  · have hg := inv_getline w (refresh w s a) a n hr
    obtain ⟨g1, g2, g3, g4, g5⟩ := getline_rest w (refresh w s a) a n
    refine ⟨⟨hg.old, hg.oldStat, hg.oldCache, hg.cache, ?_⟩, g1.trans hd, g4.trans hu⟩
    intro x v m b e1 e2 e3
    simp only [set] at e3
    split at e3
    · rename_i hc
      simp only [set] at e3
      split at e3
      · rename_i hm
        subst hm
        simp only at e2
        rw [g1, hc, hd] at e2
        rw [← Option.some.inj e3, getline_current w _ a m v hr (by rw [hst, hd]) (by rw [hd]; exact e2), hc]
      · exact hg.lines x v m b e1 e2 (by rw [hc]; exact e3)
    · exact hg.lines x v m b e1 e2 e3

theorem addUser_rest (w : World) (es : List (Option (Abs × Nat))) : ∀ s : State,
    (addUser w s es).disk = s.disk ∧ (addUser w s es).statInfo = s.statInfo ∧ (addUser w s es).lines = s.lines ∧
    (addUser w s es).linecache = s.linecache ∧ (addUser w s es).next = s.next := by
  induction es with
  | nil => intro s; exact ⟨rfl, rfl, rfl, rfl, rfl⟩
  | cons e es ih =>
    intro s
    cases e with
    | none => exact ⟨rfl, rfl, rfl, rfl, rfl⟩
    | some p =>
      obtain ⟨h1, h2, h3, h4, h5⟩ := ih (if (s.disk (w.canon p.1)).isSome then
        { s with user := set s.user (w.canon p.1) (set (s.user (w.canon p.1)) p.2 true) } else s)
      simp only [addUser]
      rw [h1, h2, h3, h4, h5]
      split <;> exact ⟨rfl, rfl, rfl, rfl, rfl⟩

theorem inv_step (w : World) (s : State) (act : Action) (h : Inv w s) : Inv w (step w s act) := by
  cases act with
  | write c =>
    refine ⟨?_, fun a v hv => Nat.lt_succ_of_lt (h.oldStat a v hv), fun a v hv => Nat.lt_succ_of_lt (h.oldCache a v hv), ?_, ?_⟩
    · intro c' v hv
      simp only [step, set] at hv ⊢
      split at hv
      · rw [← Option.some.inj hv]; exact Nat.lt_succ_self _
      · exact Nat.lt_succ_of_lt (h.old c' v hv)
    · intro a v x e1 e2 e3
      simp only [step, set] at e1 e2 e3
      split at e2
      · have := h.oldStat a v e1
        rw [← Option.some.inj e2] at this
        exact absurd this (Nat.lt_irrefl _)
      · exact h.cache a v x e1 e2 e3
    · intro a v n b e1 e2 e3
      simp only [step, set] at e1 e2 e3
      split at e2
      · have := h.oldStat a v e1
        rw [← Option.some.inj e2] at this
        exact absurd this (Nat.lt_irrefl _)
      · exact h.lines a v n b e1 e2 e3
  | delete c =>
    refine ⟨?_, h.oldStat, h.oldCache, ?_, ?_⟩
    · intro c' v hv
      simp only [step, set] at hv ⊢
      split at hv
      · exact nomatch hv
      · exact h.old c' v hv
    · intro a v x e1 e2 e3
      simp only [step, set] at e1 e2 e3
      split at e2
      · exact nomatch e2
      · exact h.cache a v x e1 e2 e3
    · intro a v n b e1 e2 e3
      simp only [step, set] at e1 e2 e3
      split at e2
      · exact nomatch e2
      · exact h.lines a v n b e1 e2 e3
  | otherGetline a n => exact inv_getline w s a n h
  | otherCheckcache a => exact inv_checkcache w s a h
  | clearcache => exact ⟨h.old, h.oldStat, by simp [step], by simp [step], h.lines⟩
  | exception on here raised =>
    simp only [step, suppressed]
    split
    · split
      · exact (inv_isIgnored w s _ _ h).1
      · exact (inv_isIgnored w _ _ _ (inv_isIgnored w s _ _ h).1).1
    · exact h
  | command rep es =>
    simp only [step, cmdIgnore]
    obtain ⟨h1, h2, h3, h4, h5⟩ := addUser_rest w es (if rep = true then { s with user := fun _ _ => false } else s)
    have e : ∀ {α : Type} (g : State → α), (∀ u, g { s with user := u } = g s) →
        g (if rep = true then { s with user := fun _ _ => false } else s) = g s := by
      intro α g hg; split
      · exact hg _
      · rfl
    rw [e (·.disk) (fun _ => rfl)] at h1
    rw [e (·.statInfo) (fun _ => rfl)] at h2
    rw [e (·.lines) (fun _ => rfl)] at h3
    rw [e (·.linecache) (fun _ => rfl)] at h4
    rw [e (·.next) (fun _ => rfl)] at h5
    exact ⟨by rw [h1, h5]; exact h.old, by rw [h2, h5]; exact h.oldStat, by rw [h4, h5]; exact h.oldCache,
      by rw [h1, h2, h4]; exact h.cache, by rw [h1, h2, h3]; exact h.lines⟩

theorem inv_run (w : World) (as : List Action) : ∀ s, Inv w s → Inv w (run w s as) := by
  induction as with
  | nil => intro s h; exact h
  | cons a as ih => intro s h; exact ih _ (inv_step w s a h)

theorem isIgnored_answer (w : World) (s : State) (a : Abs) (n v : Nat) (h : Inv w s) (hv : s.disk (w.canon a) = some v) :
    (isIgnored w s a n).2 = true ↔ s.user (w.canon a) n = true ∨ Tagged (w.text (w.canon a) v n) := by
  obtain ⟨hr, hd, hu, hst⟩ := inv_refresh w s a h
  rw [← c67_tag, isIgnored_eq, hu]
  cases hus : s.user (w.canon a) n with
  | true => simp
  | false =>
    simp only [Bool.false_eq_true, if_false, false_or]
    cases hl : (refresh w s a).lines (w.canon a) n with
    | some b =>
      simp only
      rw [hr.lines a v n b (hst.trans hv) (by rw [hd]; exact hv) hl]
    | none =>
      simp only
      rw [getline_current w _ a n v hr (by rw [hst, hd]) (by rw [hd]; exact hv)]

/-- After any history of edits, exceptions, commands and other uses of the source cache, an exception is passed over exactly
when the feature is on and the line where it is now, or the line where it was raised, is marked: by the client, or by a comment
in the file as it is now. -/
theorem c67_ignored (w : World) (disk : Disk) (next : Nat) (h0 : ∀ c v, disk c = some v → v < next) (as : List Action) (on : Bool)
    (here raised : Abs × Nat) (v1 v2 : Nat) (h1 : (run w (start disk next) as).disk (w.canon here.1) = some v1)
    (h2 : (run w (start disk next) as).disk (w.canon raised.1) = some v2) :
    (suppressed w on (run w (start disk next) as) here raised).2 = true ↔
      on = true ∧
      (((run w (start disk next) as).user (w.canon here.1) here.2 = true ∨ Tagged (w.text (w.canon here.1) v1 here.2)) ∨
       ((run w (start disk next) as).user (w.canon raised.1) raised.2 = true ∨ Tagged (w.text (w.canon raised.1) v2 raised.2))) := by
  have hi := inv_run w as _ (inv_start w disk next h0)
  generalize run w (start disk next) as = s at h1 h2 hi ⊢
  cases on with
  | false => simp [suppressed]
  | true =>
    have e1 := isIgnored_answer w s here.1 here.2 v1 hi h1
    obtain ⟨hi', hd, hu⟩ := inv_isIgnored w s here.1 here.2 hi
    have e2 := isIgnored_answer w (isIgnored w s here.1 here.2).1 raised.1 raised.2 v2 hi' (by rw [hd]; exact h2)
    rw [hu] at e2
    rw [← e1, ← e2]
    simp only [suppressed, if_true, true_and]
    split
    · rename_i h; simp [h]
    · rename_i h; simp [h]

/-! ### What the client sent -/

/-- The entries before the first malformed one. -/
def wellFormed : List (Option (Abs × Nat)) → List (Abs × Nat)
  | [] => []
  | none :: _ => []
  | some p :: es => p :: wellFormed es

theorem addUser_user (w : World) (es : List (Option (Abs × Nat))) : ∀ (s : State) (c : Canon) (n : Nat),
    (addUser w s es).user c n = true ↔
      s.user c n = true ∨ ∃ a, (a, n) ∈ wellFormed es ∧ w.canon a = c ∧ (s.disk c).isSome = true := by
  induction es with
  | nil => intro s c n; simp [addUser, wellFormed]
  | cons e es ih =>
    intro s c n
    cases e with
    | none => simp [addUser, wellFormed]
    | some p =>
      obtain ⟨a, m⟩ := p
      simp only [addUser, wellFormed]
      rw [ih]
      by_cases hd : (s.disk (w.canon a)).isSome = true
      · simp only [hd, if_true]
        by_cases hc : c = w.canon a
        · subst hc
          by_cases hm : n = m
          · subst hm; simp [set, hd]; 
          · simp [set, hm]
        · have : w.canon a ≠ c := fun h => hc h.symm
          simp only [set, hc, if_false, List.mem_cons, Prod.mk.injEq]
          constructor
          · rintro (h | ⟨x, h1, h2⟩)
            · exact .inl h
            · exact .inr ⟨x, .inr h1, h2⟩
          · rintro (h | ⟨x, h1 | h1, h2, h3⟩)
            · exact .inl h
            · exact absurd (h1.1 ▸ h2) this
            · exact .inr ⟨x, h1, h2, h3⟩
      · simp only [hd, if_false, List.mem_cons, Prod.mk.injEq]
        constructor
        · rintro (h | ⟨x, h1, h2⟩)
          · exact .inl h
          · exact .inr ⟨x, .inr h1, h2⟩
        · rintro (h | ⟨x, h1 | h1, h2, h3⟩)
          · exact .inl h
          · exact absurd h3 (by rw [← h2, h1.1]; exact hd)
          · exact .inr ⟨x, h1, h2, h3⟩

/-- A command adds its lines (in files that exist) to those sent before, or replaces them. -/
theorem c67_command (w : World) (s : State) (replace : Bool) (es : List (Option (Abs × Nat))) (c : Canon) (n : Nat) :
    (step w s (.command replace es)).user c n = true ↔
      (replace = false ∧ s.user c n = true) ∨ ∃ a, (a, n) ∈ wellFormed es ∧ w.canon a = c ∧ (s.disk c).isSome = true := by
  simp only [step, cmdIgnore, addUser_user]
  cases replace <;> simp

/-- Nothing else changes them. -/
theorem c67_client_lines_stay (w : World) (s : State) (h : Inv w s) (act : Action) (hn : ∀ r es, act ≠ .command r es) :
    (step w s act).user = s.user := by
  cases act with
  | write => rfl
  | delete => rfl
  | otherGetline a n => exact (getline_rest w s a n).2.2.2.1
  | otherCheckcache a => exact (checkcache_rest w s a).2.2.2.1
  | clearcache => rfl
  | exception on here raised =>
    simp only [step, suppressed]
    split
    · split
      · exact (inv_isIgnored w s _ _ h).2.2
      · rw [(inv_isIgnored w _ _ _ (inv_isIgnored w s _ _ h).1).2.2]; exact (inv_isIgnored w s _ _ h).2.2
    · rfl
  | command r es => exact absurd rfl (hn r es)

/-! ### Examples and what goes wrong -/

namespace Ex

/-- Line 1 of file 0 carries the comment in version 1 only. -/
def w : World where
  canon a := if a = 7 then 0 else a
  text _ v n := if v = 1 ∧ n = 1 then "raise X  # @IgnoreException\n".toList else "raise X\n".toList

def disk : Disk := fun c => if c = 0 then some 0 else none

/-- The comment is put into the file while the program runs, after the line was already looked at. -/
theorem c67_example :
    let s := run w (start disk 1) [.exception true (0, 1) (7, 1), .otherGetline 0 1, .write 0]
    s.disk 0 = some 1 ∧ (suppressed w true s (7, 1) (0, 1)).2 = true ∧
    (suppressed w true (run w (start disk 1) []) (7, 1) (0, 1)).2 = false := by decide +kernel

/-- A `#` inside a string counts as the start of a comment. -/
theorem c67_string_witness : tagged "f('#@IgnoreException')".toList = true := by decide +kernel

/-- An edit that gives the file its former size and time (a restored backup): with `next` set back to the earlier version, the
answer comes from the version in between. -/
theorem c67_restored_witness :
    let s := run w (start disk 1) [.exception true (0, 2) (0, 2), .write 0, .otherCheckcache 0, .otherGetline 0 1]
    let s := { s with disk := disk }
    (suppressed w true s (0, 1) (0, 1)).2 = true ∧ tagged (w.text 0 0 1) = false := by decide +kernel

end Ex

end IgnoreExc
