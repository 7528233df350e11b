import Verif.Startup.Spec
/-!
# The invariants behind C98
-/
namespace Startup
open Spec

/-! ### Basics -/

theorem upd_self {α : Type} (f : Nat → α) (k : Nat) (v : α) : upd f k v k = v := by simp [upd]

theorem upd_other {α : Type} (f : Nat → α) {k n : Nat} (v : α) (h : n ≠ k) : upd f k v n = f n := by
  simp [upd, h]

theorem upd_apply {α : Type} (f : Nat → α) (k n : Nat) (v : α) :
    upd f k v n = if n = k then v else f n := rfl

theorem go_mono {h : List Ev} {d : Nat} (x : Go h d) (e : List Ev) : Go (h ++ e) d := by
  obtain ⟨c, r, hr, hm⟩ := x
  exact ⟨c, r, hr, List.mem_append_left _ hm⟩

theorem setUp_mono {h : List Ev} {d : Nat} (x : SetUp h d) (e : List Ev) : SetUp (h ++ e) d := by
  obtain ⟨t, a, hm, hb, hw⟩ := x
  exact ⟨t, a, List.mem_append_left _ hm, fun y => List.mem_append_left _ (hb y), fun y => go_mono (hw y) e⟩

theorem failed_mono {h : List Ev} {d : Nat} (x : Failed h d) (e : List Ev) : Failed (h ++ e) d :=
  List.mem_append_left _ x

/-- Something true of every event and what was before it. -/
def AllPre (P : List Ev → Ev → Prop) (h : List Ev) : Prop :=
  ∀ pre e post, h = pre ++ e :: post → P pre e

theorem allPre_nil (P : List Ev → Ev → Prop) : AllPre P [] := by
  intro pre e post h
  cases pre <;> cases h

theorem allPre_snoc {P : List Ev → Ev → Prop} {h : List Ev} {e : Ev} (x : AllPre P h) (y : P h e) :
    AllPre P (h ++ [e]) := by
  intro pre e' post hh
  rcases List.eq_nil_or_concat post with hp | ⟨q, l, hp⟩
  · subst hp
    obtain ⟨h1, h2⟩ := List.append_inj' hh rfl
    injection h2 with h2
    subst h1 h2
    exact y
  · subst hp
    have h3 : h ++ [e] = (pre ++ e' :: q) ++ [l] := by rw [hh]; simp
    obtain ⟨h1, _⟩ := List.append_inj' h3 rfl
    exact x pre e' q h1

/-- Something the last event decides: it turns it on, or leaves it unless it turns it off. -/
theorem since_snoc (On Off : Ev → Prop) (h : List Ev) (e : Ev) :
    (∃ pre x post, h ++ [e] = pre ++ x :: post ∧ On x ∧ ∀ y ∈ post, ¬ Off y) ↔
      On e ∨ ((∃ pre x post, h = pre ++ x :: post ∧ On x ∧ ∀ y ∈ post, ¬ Off y) ∧ ¬ Off e) := by
  constructor
  · rintro ⟨pre, x, post, hh, hx, hp⟩
    rcases List.eq_nil_or_concat post with hq | ⟨q, l, hq⟩
    · subst hq
      obtain ⟨h1, h2⟩ := List.append_inj' hh rfl
      injection h2 with h2
      subst h2
      exact Or.inl hx
    · subst hq
      have h3 : h ++ [e] = (pre ++ x :: q) ++ [l] := by rw [hh]; simp
      obtain ⟨h1, h2⟩ := List.append_inj' h3 rfl
      injection h2 with h2
      subst h2
      exact Or.inr ⟨⟨pre, x, q, h1, hx, fun y hy => hp y (by simp [hy])⟩, hp e (by simp)⟩
  · rintro (hx | ⟨⟨pre, x, post, hh, hx, hp⟩, he⟩)
    · exact ⟨h, e, [], rfl, hx, by simp⟩
    · refine ⟨pre, x, post ++ [e], by rw [hh]; simp, hx, ?_⟩
      intro y hy
      rcases List.mem_append.1 hy with hy | hy
      · exact hp y hy
      · rw [List.mem_singleton.1 hy]; exact he

/-- The event is a `configurationDone` of a client of `d`. -/
def Configures (d : Nat) (e : Ev) : Prop := ∃ c b, e = .handled d c .configurationDone b

theorem attached_iff (h : List Ev) (d : Nat) :
    Attached h d ↔ ∃ pre x post, h = pre ++ x :: post ∧ Configures d x ∧ ∀ y ∈ post, ¬ Clears d y := by
  constructor
  · rintro ⟨pre, c, b, post, h1, h2⟩
    exact ⟨pre, _, post, h1, ⟨c, b, rfl⟩, h2⟩
  · rintro ⟨pre, x, post, h1, ⟨c, b, rfl⟩, h2⟩
    exact ⟨pre, c, b, post, h1, h2⟩

theorem attached_snoc (h : List Ev) (e : Ev) (d : Nat) :
    Attached (h ++ [e]) d ↔ Configures d e ∨ (Attached h d ∧ ¬ Clears d e) := by
  rw [attached_iff, attached_iff]
  exact since_snoc (Configures d) (Clears d) h e

/-- The event is a `launch` or `attach` of the connection. -/
def Launches (c : Nat) (e : Ev) : Prop := ∃ d r b, e = .handled d c r b ∧ (r = .launch ∨ r = .attach)

/-- The event is a `disconnect` of the connection. -/
def Leaves (c : Nat) (e : Ev) : Prop := ∃ d b, e = .handled d c .disconnect b

theorem launched_iff (h : List Ev) (c : Nat) :
    Launched h c ↔ ∃ pre x post, h = pre ++ x :: post ∧ Launches c x ∧ ∀ y ∈ post, ¬ Leaves c y := by
  constructor
  · rintro ⟨pre, d, r, b, post, h1, h2, h3⟩
    refine ⟨pre, _, post, h1, ⟨d, r, b, rfl, h2⟩, ?_⟩
    rintro y hy ⟨d', b', rfl⟩
    exact h3 _ hy d' b' rfl
  · rintro ⟨pre, x, post, h1, ⟨d, r, b, rfl, h2⟩, h3⟩
    exact ⟨pre, d, r, b, post, h1, h2, fun e he d' b' hh => h3 e he ⟨d', b', hh⟩⟩

theorem launched_snoc (h : List Ev) (e : Ev) (c : Nat) :
    Launched (h ++ [e]) c ↔ Launches c e ∨ (Launched h c ∧ ¬ Leaves c e) := by
  rw [launched_iff, launched_iff]
  exact since_snoc (Launches c) (Leaves c) h e

theorem cancelSet_snoc (h : List Ev) (e : Ev) (n : Nat) :
    CancelSet (h ++ [e]) n ↔ CancelSet h n ∨ e = .cancelled n ∨ ∃ t d, e = .attached t d (some n) := by
  unfold CancelSet
  simp only [List.mem_append, List.mem_singleton]
  constructor
  · rintro ((h1 | h1) | ⟨t, d, h1 | h1⟩)
    · exact Or.inl (Or.inl h1)
    · exact Or.inr (Or.inl h1.symm)
    · exact Or.inl (Or.inr ⟨t, d, h1⟩)
    · exact Or.inr (Or.inr ⟨t, d, h1.symm⟩)
  · rintro ((h1 | ⟨t, d, h1⟩) | h1 | ⟨t, d, h1⟩)
    · exact Or.inl (Or.inl h1)
    · exact Or.inr ⟨t, d, Or.inl h1⟩
    · exact Or.inl (Or.inr h1.symm)
    · exact Or.inr ⟨t, d, Or.inr h1.symm⟩

/-! ### The events of clients -/

/-- What the flags say is what happened. -/
structure Flags (s : St) : Prop where
  connDbg : ∀ c, c < s.nextC → (s.conn c).dbg < s.next
  evDbg : ∀ d c r b, Ev.handled d c r b ∈ s.hist → d < s.next ∧ c < s.nextC
  configured : ∀ d, (s.dbg d).configured = true ↔ Attached s.hist d
  launched : ∀ c, (c < s.nextC ∧ (s.conn c).launched = true) ↔ Launched s.hist c
  cancel : ∀ n, s.cancel n = true → CancelSet s.hist n
  ready : ∀ d, Go s.hist d → (s.dbg d).ready = true

/-- Events which say nothing of clients. -/
def quiet : Ev → Bool
  | .dropped _ => false
  | .handled _ _ _ _ => false
  | .cancelled _ => false
  | .attached _ _ _ => false
  | _ => true

theorem attached_quiet {h : List Ev} {e : Ev} {d : Nat} (q : quiet e = true) :
    Attached (h ++ [e]) d ↔ Attached h d := by
  rw [attached_snoc]
  cases e <;> simp_all [quiet, Configures, Clears]

theorem launched_quiet {h : List Ev} {e : Ev} {c : Nat} (q : quiet e = true) :
    Launched (h ++ [e]) c ↔ Launched h c := by
  rw [launched_snoc]
  cases e <;> simp_all [quiet, Launches, Leaves]

theorem cancelSet_mono {h : List Ev} {n : Nat} (x : CancelSet h n) (e : Ev) : CancelSet (h ++ [e]) n := by
  rw [cancelSet_snoc]; exact Or.inl x

theorem not_attached_new {s : St} (f : Flags s) {d : Nat} (h : s.next ≤ d) : ¬ Attached s.hist d := by
  rintro ⟨pre, c, b, post, hh, _⟩
  have := f.evDbg d c .configurationDone b (by rw [hh]; simp)
  omega

theorem not_launched_new {s : St} (f : Flags s) {c : Nat} (h : s.nextC ≤ c) : ¬ Launched s.hist c := by
  rintro ⟨pre, d, r, b, post, hh, _⟩
  have := f.evDbg d c r b (by rw [hh]; simp)
  omega

theorem not_go_new {s : St} (f : Flags s) {d : Nat} (h : s.next ≤ d) : ¬ Go s.hist d := by
  rintro ⟨c, r, _, hm⟩
  have := f.evDbg d c r true hm
  omega

theorem go_quiet {h : List Ev} {e : Ev} {d : Nat} (q : quiet e = true) : Go (h ++ [e]) d ↔ Go h d := by
  constructor
  · rintro ⟨c, r, hr, hm⟩
    rcases List.mem_append.1 hm with hm | hm
    · exact ⟨c, r, hr, hm⟩
    · rw [← List.mem_singleton.1 hm] at q
      simp [quiet] at q
  · exact fun x => go_mono x _

/-- Adding a quiet event changes nothing. -/
theorem flags_quiet {s : St} (f : Flags s) {e : Ev} (q : quiet e = true) :
    Flags { s with hist := s.hist ++ [e] } where
  connDbg := f.connDbg
  evDbg := by
    intro d c r b h
    rcases List.mem_append.1 h with h | h
    · exact f.evDbg d c r b h
    · rw [← List.mem_singleton.1 h] at q
      simp [quiet] at q
  configured d := (f.configured d).trans (attached_quiet q).symm
  launched c := (f.launched c).trans (launched_quiet q).symm
  cancel n h := cancelSet_mono (f.cancel n h) e
  ready d h := f.ready d ((go_quiet q).1 h)

/-- What the flags do not depend on. -/
theorem flags_frame {s s' : St} (f : Flags s) (hc : s'.conn = s.conn) (hn : s'.nextC = s.nextC)
    (hx : s.next ≤ s'.next) (hd : ∀ d, (s'.dbg d).configured = (s.dbg d).configured)
    (hr : ∀ d, d < s.next → (s.dbg d).ready = true → (s'.dbg d).ready = true)
    (he : s'.cancel = s.cancel) (hh : s'.hist = s.hist) : Flags s' where
  connDbg c h := by
    rw [hc]; rw [hn] at h
    exact Nat.lt_of_lt_of_le (f.connDbg c h) hx
  evDbg d c r b h := by
    rw [hh] at h
    have := f.evDbg d c r b h
    exact ⟨Nat.lt_of_lt_of_le this.1 hx, hn ▸ this.2⟩
  configured d := by rw [hd, hh]; exact f.configured d
  launched c := by rw [hn, hc, hh]; exact f.launched c
  cancel n h := by rw [he] at h; rw [hh]; exact f.cancel n h
  ready d h := by
    rw [hh] at h
    refine hr d ?_ (f.ready d h)
    apply Decidable.byContradiction
    intro hx
    exact not_go_new f (by omega) h

/-- A new connection. -/
theorem flags_network {s : St} (f : Flags s) {d : Nat} (h : d < s.next) : Flags (network s d) where
  connDbg c hc := by
    simp only [network, upd_apply] at hc ⊢
    split
    · exact h
    · exact f.connDbg c (by omega)
  evDbg d c r b h := by
    have := f.evDbg d c r b h
    exact ⟨this.1, Nat.lt_succ_of_lt this.2⟩
  configured d' := by
    simp only [network, upd_apply]
    split
    · rename_i hd; subst hd; exact f.configured _
    · exact f.configured d'
  launched c := by
    simp only [network, upd_apply]
    split
    · rename_i hc
      subst hc
      have := not_launched_new f (Nat.le_refl s.nextC)
      simp [this]
    · rename_i hc
      rw [← f.launched c]
      constructor
      · rintro ⟨h1, h2⟩; exact ⟨by omega, h2⟩
      · rintro ⟨h1, h2⟩; exact ⟨by omega, h2⟩
  cancel := f.cancel
  ready d' hg := by
    simp only [network, upd_apply]
    split
    · rename_i hd; subst hd; exact f.ready _ hg
    · exact f.ready d' hg

/-- A request. -/
theorem flags_handle {s : St} (f : Flags s) (c : Nat) (r : Req) : Flags (handle s c r) := by
  unfold handle
  split
  case isFalse => exact f
  rename_i hc
  have hd := f.connDbg c hc
  constructor
  · intro c' h'
    simp only [upd_apply]
    split
    · cases r <;> exact hd
    · exact f.connDbg c' h'
  · intro d' c' r' b' h'
    rcases List.mem_append.1 h' with h' | h'
    · exact f.evDbg d' c' r' b' h'
    · have := List.mem_singleton.1 h'
      injection this with h1 h2
      subst h1 h2
      exact ⟨hd, hc⟩
  · intro d'
    simp only [upd_apply]
    rw [attached_snoc]
    have := f.configured d'
    by_cases hx : d' = (s.conn c).dbg
    · subst hx
      rw [if_pos rfl]
      cases r <;> simp_all [onDbg, Configures, Clears]
    · rw [if_neg hx]
      have hy : (s.conn c).dbg ≠ d' := fun h => hx h.symm
      simp [this, Configures, Clears, hy]
  · intro c'
    simp only [upd_apply]
    rw [launched_snoc]
    have := f.launched c'
    by_cases hx : c' = c
    · subst hx
      rw [if_pos rfl]
      cases r <;> simp_all [onConn, Launches, Leaves]
      · exact Or.inl ⟨_, _, ⟨rfl, rfl⟩, Or.inl rfl⟩
      · exact Or.inl ⟨_, _, ⟨rfl, rfl⟩, Or.inr rfl⟩
    · rw [if_neg hx]
      have hy : c ≠ c' := fun h => hx h.symm
      simp [this, Launches, Leaves, hy]
  · intro n h
    exact cancelSet_mono (f.cancel n h) _
  · intro d' hg
    simp only [upd_apply]
    obtain ⟨c', r', hr', hm⟩ := hg
    rcases List.mem_append.1 hm with hm | hm
    · have := f.ready d' ⟨c', r', hr', hm⟩
      split
      · rename_i hx; subst hx
        cases r <;> simp_all [onDbg]
      · exact this
    · have := List.mem_singleton.1 hm
      injection this with h1 h2 h3 h4
      subst h1 h2 h3
      rw [if_pos rfl]
      rcases hr' with h | h <;> subst h <;> rfl

end Startup
