import Verif.Logging.Spec
/-!
C125: every process has a log of its own, with every message it logs at an enabled level, in order.
-/

namespace Logging

open Logging.Spec (PSt St Dest told)

/-! ### The names of the files -/

theorem natStr_no_dot (n : Nat) : '.' ∉ Py.natStr n := by
  intro h
  have := Py.natStr_digits n _ h
  revert this
  decide

theorem natStr_inj {a b : Nat} (h : Py.natStr a = Py.natStr b) : a = b := by
  have h1 := Py.parseDigits_natStr a
  rw [h, Py.parseDigits_natStr b] at h1
  exact (Option.some.inj h1).symm

theorem takeWhile_dot {s r : Str} (h : '.' ∉ s) : (s ++ '.' :: r).takeWhile (· ≠ '.') = s := by
  induction s with
  | nil => simp
  | cons a s ih =>
    have ha : a ≠ '.' := fun e => h (e ▸ List.mem_cons_self ..)
    rw [List.cons_append, List.takeWhile_cons, if_pos (by simpa using ha), ih fun hh => h (List.mem_cons_of_mem _ hh)]

theorem dropWhile_dot {s r : Str} (h : '.' ∉ s) : (s ++ '.' :: r).dropWhile (· ≠ '.') = '.' :: r := by
  induction s with
  | nil => simp
  | cons a s ih =>
    have ha : a ≠ '.' := fun e => h (e ▸ List.mem_cons_self ..)
    rw [List.cons_append, List.dropWhile_cons, if_pos (by simpa using ha), ih fun hh => h (List.mem_cons_of_mem _ hh)]

/-- a text without dots after the first characters that are no dots -/
theorem last_dot (s : Str) (h : '.' ∈ s) : ∃ a b, s = a ++ '.' :: b ∧ '.' ∉ b := by
  induction s with
  | nil => cases h
  | cons c s ih =>
    by_cases hs : '.' ∈ s
    · obtain ⟨a, b, rfl, hb⟩ := ih hs
      exact ⟨c :: a, b, rfl, hb⟩
    · rcases List.mem_cons.mp h with e | h
      · exact ⟨[], s, by rw [← e]; rfl, hs⟩
      · exact absurd h hs

theorem splitext_last (a b : Str) (hb : '.' ∉ b) :
    splitext (a ++ '.' :: b) = if a.any (· ≠ '.') then (a, '.' :: b) else (a ++ '.' :: b, []) := by
  have hr : '.' ∉ b.reverse := by simpa using hb
  have e : (a ++ '.' :: b).reverse = b.reverse ++ '.' :: a.reverse := by simp
  unfold splitext
  rw [e, takeWhile_dot hr, dropWhile_dot hr]
  simp only [List.any_reverse, List.reverse_reverse]

theorem dropWhile_nil {s : Str} (h : '.' ∉ s) : s.dropWhile (· ≠ '.') = [] := by
  induction s with
  | nil => rfl
  | cons a s ih =>
    have ha : a ≠ '.' := fun e => h (e ▸ List.mem_cons_self ..)
    rw [List.dropWhile_cons, if_pos (by simpa using ha), ih fun hh => h (List.mem_cons_of_mem _ hh)]

theorem splitext_none (b : Str) (hb : '.' ∉ b) : splitext b = (b, []) := by
  have hr : '.' ∉ b.reverse := by simpa using hb
  have : b.reverse.dropWhile (· ≠ '.') = [] := dropWhile_nil hr
  unfold splitext
  rw [this]

/-- the two shapes of a base name -/
theorem splitext_cases (b : Str) :
    (splitext b = (b, []) ∧ ∀ a c, b = a ++ '.' :: c → ∀ x ∈ a, x = '.') ∨
    ∃ a c, b = a ++ '.' :: c ∧ '.' ∉ c ∧ splitext b = (a, '.' :: c) ∧ ∃ x ∈ a, x ≠ '.' := by
  by_cases h : '.' ∈ b
  · obtain ⟨a, c, rfl, hc⟩ := last_dot b h
    rw [splitext_last a c hc]
    by_cases ha : a.any (· ≠ '.') = true
    · right
      rw [if_pos ha]
      obtain ⟨x, hx, hn⟩ := List.any_eq_true.mp ha
      exact ⟨a, c, rfl, hc, rfl, x, hx, by simpa using hn⟩
    · left
      rw [if_neg ha]
      refine ⟨rfl, ?_⟩
      have hall : ∀ x ∈ a, x = '.' := by
        intro x hx
        exact Classical.byContradiction fun hn => ha (List.any_eq_true.mpr ⟨x, hx, by simpa using hn⟩)
      intro a' c' e x hx
      rcases List.append_eq_append_iff.mp e with ⟨d, hd, hc'⟩ | ⟨d, hd, hc'⟩
      · cases d with
        | nil => exact hall x (by simpa [hd] using hx)
        | cons y d =>
          obtain ⟨_, rfl⟩ := List.cons.inj hc'
          exact absurd (by simp) hc
      · exact hall x (by rw [hd]; exact List.mem_append_left _ hx)
  · left
    refine ⟨splitext_none b h, ?_⟩
    intro a c e
    exact absurd (by rw [e]; simp) h

theorem append_dot_inj {a b c d : Str} (hb : '.' ∉ b) (hd : '.' ∉ d) (h : a ++ '.' :: b = c ++ '.' :: d) :
    a = c ∧ b = d := by
  have e : b.reverse ++ '.' :: a.reverse = d.reverse ++ '.' :: c.reverse := by
    have := congrArg List.reverse h
    simpa using this
  have h1 := takeWhile_dot (s := b.reverse) (r := a.reverse) (by simpa using hb)
  rw [e, takeWhile_dot (by simpa using hd)] at h1
  have h2 := dropWhile_dot (s := b.reverse) (r := a.reverse) (by simpa using hb)
  rw [e, dropWhile_dot (by simpa using hd)] at h2
  exact ⟨(List.reverse_inj.mp (List.cons.inj h2).2).symm, (List.reverse_inj.mp h1).symm⟩

/-- C125. No two processes, and no two targets, have one file. -/
theorem c125_files_distinct (t t' : Target) (p p' : Nat) (h : filenameWithPid t p = filenameWithPid t' p') :
    t = t' ∧ p = p' := by
  obtain ⟨d, b⟩ := t
  obtain ⟨d', b'⟩ := t'
  unfold filenameWithPid at h
  simp only [Target.mk.injEq] at h
  obtain ⟨rfl, h⟩ := h
  have np := natStr_no_dot p
  have np' := natStr_no_dot p'
  rcases splitext_cases b with ⟨e, hd⟩ | ⟨a, c, rfl, hc, e, x, hx, hn⟩ <;>
    rcases splitext_cases b' with ⟨e', hd'⟩ | ⟨a', c', rfl, hc', e', x', hx', hn'⟩ <;>
    rw [e, e'] at h <;> dsimp only at h
  · simp only [List.append_nil] at h
    obtain ⟨rfl, h2⟩ := append_dot_inj np np' h
    exact ⟨rfl, natStr_inj h2⟩
  · have h : b ++ '.' :: Py.natStr p = (a' ++ '.' :: Py.natStr p') ++ '.' :: c' := by simpa using h
    obtain ⟨h1, _⟩ := append_dot_inj np hc' h
    exact absurd (hd a' _ h1 x' hx') hn'
  · have h : (a ++ '.' :: Py.natStr p) ++ '.' :: c = b' ++ '.' :: Py.natStr p' := by simpa using h
    obtain ⟨h1, _⟩ := append_dot_inj hc np' h
    exact absurd (hd' a _ h1.symm x hx) hn
  · have h : (a ++ '.' :: Py.natStr p) ++ '.' :: c = (a' ++ '.' :: Py.natStr p') ++ '.' :: c' := by simpa using h
    obtain ⟨h1, rfl⟩ := append_dot_inj hc hc' h
    obtain ⟨rfl, h2⟩ := append_dot_inj np np' h1
    exact ⟨rfl, natStr_inj h2⟩

/-- C125. The files of all the processes are listed, if the target has a directory. -/
theorem c125_listed (ls : Str → Option (List Str)) (t : Target) (p : Nat) (fs : List Str) (hd : t.dir ≠ [])
    (h1 : ls t.dir = some fs) (h2 : (filenameWithPid t p).base ∈ fs) : filenameWithPid t p ∈ listLogFiles ls t := by
  unfold listLogFiles
  rw [if_neg hd, h1]
  refine List.mem_map.mpr ⟨_, List.mem_filter.mpr ⟨h2, ?_⟩, rfl⟩
  rw [Bool.and_eq_true, Py.startsWith_iff, Py.endsWith_iff]
  unfold filenameWithPid
  refine ⟨⟨'.' :: Py.natStr p ++ (splitext t.base).2, by simp⟩, ⟨(splitext t.base).1 ++ '.' :: Py.natStr p, by simp⟩⟩

/-- C125. With a name that has no directory nothing is listed; and files of other logs are listed too. -/
theorem c125_list_witness :
    (∀ ls p, filenameWithPid ⟨[], c!"log.txt"⟩ p ∉ listLogFiles ls ⟨[], c!"log.txt"⟩) ∧
    (let ls := fun _ => some [c!"logs_of_mine.txt"]
     listLogFiles ls ⟨c!"/d", c!"log.txt"⟩ = [⟨c!"/d", c!"logs_of_mine.txt"⟩] ∧
     ∀ p, filenameWithPid ⟨c!"/d", c!"log.txt"⟩ p ≠ ⟨c!"/d", c!"logs_of_mine.txt"⟩) := by
  refine ⟨?_, by decide +kernel, ?_⟩
  · intro ls p h
    simp [listLogFiles] at h
  · intro p h
    have e : splitext c!"log.txt" = (c!"log", c!".txt") := by decide +kernel
    unfold filenameWithPid at h
    simp only [e, Target.mk.injEq] at h
    have := congrArg (fun s => s.drop 3 |>.head?) h.2
    simp at this

/-! ### The messages -/

/-- the settings at the bottom: as asked, and the stream is that of the target, if it was opened -/
def Base (canOpen : Target → Nat → Bool) (w : World) (s : St) (p : Nat) (x : PSt) (c : Settings) : Prop :=
  c.level = x.level ∧ c.target = x.target ∧
  match c.target with
  | none => c.init = true → c.stream = .stderr
  | some t =>
    if canOpen t p then
      if c.init then c.stream = .file (filenameWithPid t p) ∧ w.disk (filenameWithPid t p) = told s (.target t p)
      else told s (.target t p) = []
    else c.init = true → c.stream = .stderr

/-- the settings in the contexts -/
def Nested (canOpen : Target → Nat → Bool) (w : World) (s : St) (p : Nat) (x : PSt) :
    Settings → List Settings → List (Int × Nat) → Prop
  | c, [], [] => Base canOpen w s p x c
  | c, d :: ds, (l, n) :: cs => c.level = l ∧ c.stream = .user n ∧ c.init = true ∧ Nested canOpen w s p x d ds cs
  | _, _, _ => False

structure Inv (canOpen : Target → Nat → Bool) (w : World) (s : St) : Prop where
  none_iff : ∀ p, Py.Dict.get w.procs p = none ↔ s.procs p = none
  procs : ∀ p g x, Py.Dict.get w.procs p = some g → s.procs p = some x →
    g.once = x.once ∧ Nested canOpen w s p x g.cur g.saved x.ctxs
  files : ∀ t p, told s (.target t p) ≠ [] → w.disk (filenameWithPid t p) = told s (.target t p)
  fresh : ∀ p, s.procs p = none → ∀ t, told s (.target t p) = []
  stderr : w.stderr = told s .stderr
  users : ∀ n, w.users n = told s (.user n)

/-- what the settings of a process depend on -/
theorem Nested.congr {canOpen : Target → Nat → Bool} {w w' : World} {s s' : St} {p : Nat} {x x' : PSt}
    (hl : x'.level = x.level) (ht : x'.target = x.target)
    (hd : ∀ t, x.target = some t → w.disk (filenameWithPid t p) = told s (.target t p) →
      w'.disk (filenameWithPid t p) = told s' (.target t p))
    (he : ∀ t, x.target = some t → told s (.target t p) = [] → told s' (.target t p) = []) :
    ∀ {cs ds c}, Nested canOpen w s p x c ds cs → Nested canOpen w' s' p x' c ds cs
  | [], [], c, h => by
    unfold Nested Base at h ⊢
    obtain ⟨h1, h2, h3⟩ := h
    refine ⟨h1.trans hl.symm, h2.trans ht.symm, ?_⟩
    cases hc : c.target with
    | none => rw [hc] at h3; exact h3
    | some t =>
      rw [hc] at h3
      dsimp only at h3 ⊢
      have hx : x.target = some t := by rw [← h2, hc]
      split at h3
      · rename_i hco
        rw [if_pos hco]
        split at h3
        · rename_i hi
          rw [if_pos hi]
          exact ⟨h3.1, hd t hx h3.2⟩
        · rename_i hi
          rw [if_neg hi]
          exact he t hx h3
      · rename_i hco
        rw [if_neg hco]
        exact h3
  | (l, n) :: cs, d :: ds, c, h => by
    unfold Nested at h ⊢
    exact ⟨h.1, h.2.1, h.2.2.1, Nested.congr hl ht hd he h.2.2.2⟩
  | [], _ :: _, c, h => by unfold Nested at h; exact h.elim
  | _ :: _, [], c, h => by unfold Nested at h; exact h.elim

theorem told_say (s : St) (d e : Dest) (m : Str) :
    told { s with said := s.said ++ [(d, m)] } e = if d = e then told s e ++ [m] else told s e := by
  unfold told
  rw [List.filter_append, List.map_append]
  by_cases h : d = e
  · simp [h]
  · simp [h]

theorem told_upd (s : St) (p : Nat) (x : PSt) (d : Dest) : told (Spec.upd s p x) d = told s d := rfl

theorem filename_ne {t t' : Target} {p p' : Nat} (h : ¬ (t = t' ∧ p = p')) :
    filenameWithPid t p ≠ filenameWithPid t' p' := fun e => h (c125_files_distinct _ _ _ _ e)

/-- opening the stream of a process whose file has no messages -/
theorem inv_open {canOpen : Target → Nat → Bool} {w : World} {s : St} {p : Nat} {x : PSt} {c : Settings}
    (hl : c.level = x.level) (ht : c.target = x.target)
    (he : ∀ t, c.target = some t → canOpen t p = true → told s (.target t p) = []) :
    let r := openStream canOpen w p c
    Base canOpen r.1 s p x r.2 ∧ r.2.init = true ∧ r.2.level = c.level ∧ r.1.procs = w.procs ∧ r.1.stderr = w.stderr ∧
    r.1.users = w.users ∧
    (∀ t q, w.disk (filenameWithPid t q) = told s (.target t q) → r.1.disk (filenameWithPid t q) = told s (.target t q)) := by
  unfold openStream
  cases hc : c.target with
  | none =>
    refine ⟨⟨hl, by rw [← ht, hc], ?_⟩, rfl, rfl, rfl, rfl, rfl, fun _ _ h => h⟩
    exact fun _ => rfl
  | some t =>
    dsimp only
    by_cases hco : canOpen t p = true
    · rw [if_pos hco]
      refine ⟨⟨hl, by dsimp only; rw [← ht, hc], ?_⟩, rfl, rfl, rfl, rfl, rfl, ?_⟩
      · dsimp only
        rw [if_pos hco, if_pos rfl]
        refine ⟨rfl, ?_⟩
        rw [he t hc hco]
        simp [updDisk]
      · intro t' q h
        dsimp only [updDisk]
        by_cases e : filenameWithPid t' q = filenameWithPid t p
        · rw [if_pos e]
          obtain ⟨rfl, rfl⟩ := c125_files_distinct _ _ _ _ e
          exact (he _ hc hco).symm
        · rw [if_neg e]
          exact h
    · rw [if_neg hco]
      refine ⟨⟨hl, by dsimp only; rw [← ht, hc], ?_⟩, rfl, rfl, rfl, rfl, rfl, fun _ _ h => h⟩
      dsimp only
      rw [if_neg hco]
      exact fun _ => rfl

/-- the process `p` gets new settings, and nothing is said: the invariant stays -/
theorem inv_set {canOpen : Target → Nat → Bool} {w : World} {s : St} (h : Inv canOpen w s) {p : Nat} {g : Proc} {x : PSt}
    (hg : g.once = x.once) (hn : Nested canOpen w s p x g.cur g.saved x.ctxs) :
    Inv canOpen (setProc w p g) (Spec.upd s p x) := by
  refine ⟨?_, ?_, h.files, ?_, h.stderr, h.users⟩
  · intro q
    show Py.Dict.get (Py.Dict.set w.procs p g) q = none ↔ (if q = p then some x else s.procs q) = none
    rw [Py.Dict.get_set]
    by_cases e : q = p
    · subst e; simp
    · have e' : ¬ p = q := fun hh => e hh.symm
      simp [e, h.none_iff]
  · intro q g' x' h1 h2
    replace h1 : Py.Dict.get (Py.Dict.set w.procs p g) q = some g' := h1
    replace h2 : (if q = p then some x else s.procs q) = some x' := h2
    rw [Py.Dict.get_set] at h1
    by_cases e : q = p
    · subst e
      simp at h1 h2
      subst h1; subst h2
      exact ⟨hg, (by refine Nested.congr rfl rfl ?_ ?_ hn <;> exact fun _ _ h => h)⟩
    · have e' : ¬ p = q := fun hh => e hh.symm
      simp [e] at h1 h2
      obtain ⟨a, b⟩ := h.procs q g' x' h1 h2
      exact ⟨a, (by refine Nested.congr rfl rfl ?_ ?_ b <;> exact fun _ _ h => h)⟩
  · intro q hq t
    replace hq : (if q = p then some x else s.procs q) = none := hq
    by_cases e : q = p
    · simp [e] at hq
    · rw [if_neg e] at hq
      exact h.fresh q hq t

theorem upd_self {s : St} {p : Nat} {x : PSt} (h : s.procs p = some x) : Spec.upd s p x = s := by
  unfold Spec.upd
  have : (fun q => if q = p then some x else s.procs q) = s.procs := by
    funext q
    by_cases e : q = p
    · rw [if_pos e, e, h]
    · rw [if_neg e]
  rw [this]

theorem inv_disk {canOpen : Target → Nat → Bool} {w w' : World} {s : St} (h : Inv canOpen w s) (h1 : w'.procs = w.procs)
    (h2 : w'.stderr = w.stderr) (h3 : w'.users = w.users)
    (h4 : ∀ t q, w.disk (filenameWithPid t q) = told s (.target t q) → w'.disk (filenameWithPid t q) = told s (.target t q)) :
    Inv canOpen w' s := by
  refine ⟨?_, ?_, fun t p hn => h4 t p (h.files t p hn), h.fresh, h2.trans h.stderr, fun n => by rw [h3]; exact h.users n⟩
  · intro p; rw [h1]; exact h.none_iff p
  · intro p g x hg hx
    rw [h1] at hg
    obtain ⟨a, b⟩ := h.procs p g x hg hx
    exact ⟨a, b.congr rfl rfl (fun t _ => h4 t p) (fun _ _ h => h)⟩

/-- a message is said, and written to where it should be -/
theorem inv_said {canOpen : Target → Nat → Bool} {w w' : World} {s : St} (h : Inv canOpen w s) (d : Dest) (m : Str)
    (h1 : w'.procs = w.procs)
    (h2 : ∀ t q, d ≠ .target t q → w'.disk (filenameWithPid t q) = w.disk (filenameWithPid t q))
    (h3 : ∀ t q, d = .target t q → w'.disk (filenameWithPid t q) = told s d ++ [m] ∧
      ∃ g x, Py.Dict.get w.procs q = some g ∧ s.procs q = some x ∧ x.ctxs = [] ∧ g.cur.init = true)
    (h4 : w'.stderr = if d = .stderr then w.stderr ++ [m] else w.stderr)
    (h5 : ∀ n, w'.users n = if d = .user n then w.users n ++ [m] else w.users n) :
    Inv canOpen w' { s with said := s.said ++ [(d, m)] } := by
  have hfile : ∀ t q, w.disk (filenameWithPid t q) = told s (.target t q) →
      w'.disk (filenameWithPid t q) = told { s with said := s.said ++ [(d, m)] } (.target t q) := by
    intro t q hd
    rw [told_say]
    by_cases e : d = .target t q
    · rw [if_pos e, (h3 t q e).1, e]
    · rw [if_neg e, h2 t q e, hd]
  refine ⟨?_, ?_, ?_, ?_, ?_, ?_⟩
  · intro p; rw [h1]; exact h.none_iff p
  · intro p g x hg hx
    rw [h1] at hg
    obtain ⟨a, b⟩ := h.procs p g x hg hx
    refine ⟨a, ?_⟩
    by_cases e : ∃ t, d = .target t p
    · obtain ⟨t, e⟩ := e
      obtain ⟨hd, g', x', hg', hx', hc, hi⟩ := h3 t p e
      rw [hg] at hg'; cases hg'
      replace hx : s.procs p = some x := hx
      rw [hx] at hx'; cases hx'
      rw [hc] at b ⊢
      cases hs : g.saved with
      | cons a r => rw [hs] at b; unfold Nested at b; exact b.elim
      | nil =>
        rw [hs] at b
        unfold Nested Base at b ⊢
        obtain ⟨b1, b2, b3⟩ := b
        refine ⟨b1, b2, ?_⟩
        cases ht : g.cur.target with
        | none => rw [ht] at b3; exact b3
        | some t' =>
          rw [ht] at b3
          dsimp only at b3 ⊢
          by_cases hco : canOpen t' p = true
          · rw [if_pos hco, if_pos hi] at b3 ⊢
            exact ⟨b3.1, hfile t' p b3.2⟩
          · rw [if_neg hco] at b3 ⊢
            exact b3
    · refine b.congr rfl rfl (fun t _ => hfile t p) ?_
      intro t _ ht
      rw [told_say, if_neg fun hh => e ⟨t, hh⟩]
      exact ht
  · intro t p hn
    by_cases e : d = .target t p
    · rw [told_say, if_pos e, (h3 t p e).1, e]
    · rw [told_say, if_neg e] at hn
      exact hfile t p (h.files t p hn)
  · intro p hp t
    rw [told_say]
    by_cases e : d = .target t p
    · obtain ⟨_, g, x, _, hx, _⟩ := h3 t p e
      replace hp : s.procs p = none := hp
      rw [hp] at hx
      cases hx
    · rw [if_neg e]
      exact h.fresh p hp t
  · rw [told_say, h4, h.stderr]
  · intro n
    rw [told_say, h5 n, h.users n]

theorem inv_write {canOpen : Target → Nat → Bool} {w : World} {s : St} (h : Inv canOpen w s) {p : Nat} {g : Proc} {x : PSt}
    (hg : Py.Dict.get w.procs p = some g) (hx : s.procs p = some x) (hi : g.cur.init = true) (m : Str) :
    Inv canOpen (write w g.cur.stream m) { s with said := s.said ++ [(Spec.dest canOpen p x, m)] } := by
  obtain ⟨_, hn⟩ := h.procs p g x hg hx
  have herr : g.cur.stream = .stderr → Spec.dest canOpen p x = .stderr →
      Inv canOpen (write w g.cur.stream m) { s with said := s.said ++ [(Spec.dest canOpen p x, m)] } := by
    intro e1 e2
    rw [e1, e2]
    refine inv_said h _ m rfl (fun _ _ _ => rfl) (fun _ _ e => by cases e) ?_ ?_
    · rw [if_pos rfl]; rfl
    · intro n; rw [if_neg (by simp)]; rfl
  cases hc : x.ctxs with
  | cons a cs =>
    obtain ⟨l, n⟩ := a
    rw [hc] at hn
    cases hs : g.saved with
    | nil => rw [hs] at hn; unfold Nested at hn; exact hn.elim
    | cons d ds =>
      rw [hs] at hn
      unfold Nested at hn
      have e2 : Spec.dest canOpen p x = .user n := by unfold Spec.dest; rw [hc]
      rw [hn.2.1, e2]
      refine inv_said h _ m rfl (fun _ _ _ => rfl) (fun _ _ e => by cases e) ?_ ?_
      · rw [if_neg (by simp)]; rfl
      · intro k
        show (if k = n then w.users n ++ [m] else w.users k) = _
        by_cases e : k = n
        · subst e; simp
        · have e' : ¬ Dest.user n = Dest.user k := fun hh => e (Dest.user.inj hh).symm
          rw [if_neg e, if_neg e']
  | nil =>
    rw [hc] at hn
    cases hs : g.saved with
    | cons d ds => rw [hs] at hn; unfold Nested at hn; exact hn.elim
    | nil =>
      rw [hs] at hn
      unfold Nested Base at hn
      obtain ⟨_, h2, h3⟩ := hn
      cases ht : g.cur.target with
      | none =>
        rw [ht] at h3
        exact herr (h3 hi) (by unfold Spec.dest; rw [hc, ← h2, ht])
      | some t =>
        rw [ht] at h3
        dsimp only at h3
        by_cases hco : canOpen t p = true
        · rw [if_pos hco, if_pos hi] at h3
          have e2 : Spec.dest canOpen p x = .target t p := by
            unfold Spec.dest
            rw [hc, ← h2, ht]
            dsimp only
            rw [if_pos hco]
          rw [h3.1, e2]
          refine inv_said h _ m rfl ?_ ?_ ?_ ?_
          · intro t' q hne
            show (if filenameWithPid t' q = filenameWithPid t p then _ else _) = _
            rw [if_neg]
            intro e
            obtain ⟨rfl, rfl⟩ := c125_files_distinct _ _ _ _ e
            exact hne rfl
          · intro t' q e
            cases e
            refine ⟨?_, g, x, hg, hx, hc, hi⟩
            show (if filenameWithPid t p = filenameWithPid t p then _ else _) = _
            rw [if_pos rfl, h3.2]
          · rw [if_neg (by simp)]; rfl
          · intro n; rw [if_neg (by simp)]; rfl
        · rw [if_neg hco] at h3
          refine herr (h3 hi) ?_
          unfold Spec.dest
          rw [hc, ← h2, ht]
          dsimp only
          rw [if_neg hco]

theorem nested_level {canOpen : Target → Nat → Bool} {w : World} {s : St} {p : Nat} {x : PSt} {c : Settings}
    {ds : List Settings} (h : Nested canOpen w s p x c ds x.ctxs) : c.level = Spec.level x := by
  unfold Spec.level
  cases hc : x.ctxs with
  | nil =>
    rw [hc] at h
    cases ds with
    | nil => unfold Nested Base at h; exact h.1
    | cons a r => unfold Nested at h; exact h.elim
  | cons a cs =>
    obtain ⟨l, n⟩ := a
    rw [hc] at h
    cases ds with
    | nil => unfold Nested at h; exact h.elim
    | cons a r => unfold Nested at h; exact h.1

/-- a stream that is not open yet is that of the target -/
theorem nested_not_init {canOpen : Target → Nat → Bool} {w : World} {s : St} {p : Nat} {x : PSt} {c : Settings}
    {ds : List Settings} (h : Nested canOpen w s p x c ds x.ctxs) (hi : ¬ c.init = true) :
    ds = [] ∧ x.ctxs = [] ∧ Base canOpen w s p x c := by
  cases hc : x.ctxs with
  | nil =>
    rw [hc] at h
    cases ds with
    | nil => unfold Nested at h; exact ⟨rfl, rfl, h⟩
    | cons a r => unfold Nested at h; exact h.elim
  | cons a cs =>
    obtain ⟨l, n⟩ := a
    rw [hc] at h
    cases ds with
    | nil => unfold Nested at h; exact h.elim
    | cons a r => unfold Nested at h; exact absurd h.2.2.1 hi

theorem inv_log {canOpen : Target → Nat → Bool} {w : World} {s : St} (h : Inv canOpen w s) {p : Nat} {g : Proc} {x : PSt}
    (hg : Py.Dict.get w.procs p = some g) (hx : s.procs p = some x) (lvl : Int) (m : Str) :
    Inv canOpen (pydevdLog canOpen w p g lvl m) (Spec.say canOpen s p x lvl m) := by
  obtain ⟨ho, hn⟩ := h.procs p g x hg hx
  unfold pydevdLog Spec.say
  rw [nested_level hn]
  by_cases hl : lvl ≤ Spec.level x
  · rw [if_pos hl, if_pos hl]
    by_cases hi : g.cur.init = true
    · have e : initStream canOpen w p g.cur = (w, g.cur) := by unfold initStream; rw [if_pos hi]
      rw [e]
      dsimp only
      have h' := inv_set h (p := p) (g := { g with cur := g.cur }) ho hn
      rw [upd_self hx] at h'
      exact inv_write h' (g := { g with cur := g.cur }) (by show Py.Dict.get (Py.Dict.set _ _ _) _ = _; rw [Py.Dict.get_set, if_pos rfl]) hx hi m
    · obtain ⟨e1, e2, hb⟩ := nested_not_init hn hi
      have hempty : ∀ t, g.cur.target = some t → canOpen t p = true → told s (.target t p) = [] := by
        intro t ht hco
        have := hb.2.2
        rw [ht] at this
        dsimp only at this
        rw [if_pos hco, if_neg hi] at this
        exact this
      have ho' := inv_open (canOpen := canOpen) (w := w) (s := s) (p := p) hb.1 hb.2.1 hempty
      have e : initStream canOpen w p g.cur = openStream canOpen w p g.cur := by unfold initStream; rw [if_neg hi]
      rw [e]
      dsimp only at ho' ⊢
      obtain ⟨b, bi, _, p1, p2, p3, p4⟩ := ho'
      have hw := inv_disk h p1 p2 p3 p4
      have h' := inv_set hw (p := p) (g := { g with cur := (openStream canOpen w p g.cur).2 }) (x := x) ho
        (by rw [e1, e2]; unfold Nested; exact b)
      rw [upd_self hx] at h'
      exact inv_write h' (g := { g with cur := (openStream canOpen w p g.cur).2 })
        (by show Py.Dict.get (Py.Dict.set _ _ _) _ = _; rw [Py.Dict.get_set, if_pos rfl]) hx bi m
  · rw [if_neg hl, if_neg hl]
    exact h

theorem told_nil {s : St} {d : Dest} (h : ∀ m, (d, m) ∉ s.said) : told s d = [] := by
  unfold told
  rw [List.map_eq_nil_iff, List.filter_eq_nil_iff]
  rintro ⟨e, m⟩ hm he
  have : e = d := by simpa using he
  exact h m (this ▸ hm)

theorem inv_step {canOpen : Target → Nat → Bool} {w : World} {s : St} (h : Inv canOpen w s) (o : Op) (ok : Spec.Ok s o) :
    Inv canOpen (step canOpen w o) (Spec.step canOpen s o) := by
  have both : ∀ p, (Py.Dict.get w.procs p = none ∧ s.procs p = none) ∨
      ∃ g x, Py.Dict.get w.procs p = some g ∧ s.procs p = some x := by
    intro p
    cases hg : Py.Dict.get w.procs p with
    | none => exact Or.inl ⟨rfl, (h.none_iff p).mp hg⟩
    | some g =>
      cases hx : s.procs p with
      | none => rw [(h.none_iff p).mpr hx] at hg; cases hg
      | some x => exact Or.inr ⟨g, x, rfl, rfl⟩
  cases o with
  | log p lvl m =>
    unfold step Spec.step
    rcases both p with ⟨h1, h2⟩ | ⟨g, x, h1, h2⟩ <;> simp only [h1, h2]
    · exact h
    · exact inv_log h h1 h2 lvl m
  | once p m =>
    unfold step Spec.step
    rcases both p with ⟨h1, h2⟩ | ⟨g, x, h1, h2⟩ <;> simp only [h1, h2]
    · exact h
    · obtain ⟨ho, hn⟩ := h.procs p g x h1 h2
      rw [ho]
      by_cases hm : m ∈ x.once
      · rw [if_pos hm, if_pos hm]; exact h
      · rw [if_neg hm, if_neg hm]
        have h' := inv_set h (p := p) (g := { g with once := m :: x.once }) (x := { x with once := m :: x.once }) rfl
          ((by refine Nested.congr (x := x) ?_ ?_ ?_ ?_ hn <;> first | rfl | exact fun _ _ h => h))
        refine inv_log h' ?_ ?_ 0 m
        · show Py.Dict.get (Py.Dict.set _ _ _) _ = _
          rw [Py.Dict.get_set, if_pos rfl]
        · show (if p = p then _ else _) = _
          rw [if_pos rfl]
  | logTo p t lvl =>
    unfold step Spec.step
    rcases both p with ⟨h1, h2⟩ | ⟨g, x, h1, h2⟩ <;> simp only [h1, h2]
    · exact h
    · obtain ⟨ho, hn⟩ := h.procs p g x h1 h2
      obtain ⟨hc, hne⟩ := ok x h2
      rw [hc] at hn
      cases hs : g.saved with
      | cons a r => rw [hs] at hn; unfold Nested at hn; exact hn.elim
      | nil =>
        rw [hs] at hn
        unfold Nested Base at hn
        obtain ⟨b1, b2, b3⟩ := hn
        refine inv_set h (x := { x with level := lvl, target := t }) ?_ ?_
        · exact ho
        show Nested _ _ _ _ _ _ [] x.ctxs
        rw [hc]
        unfold Nested Base
        by_cases e : g.cur.target = t
        · rw [if_neg (by simpa using e)]
          exact ⟨rfl, e, b3⟩
        · rw [if_pos (by simpa using e)]
          refine ⟨rfl, rfl, ?_⟩
          dsimp only
          cases t with
          | none => intro hh; cases hh
          | some f =>
            dsimp only
            split
            · rw [if_neg (by simp)]
              exact told_nil (hne (fun hh => e (b2.trans hh.symm)) f rfl)
            · intro hh; cases hh
  | enter p lvl n =>
    unfold step Spec.step
    rcases both p with ⟨h1, h2⟩ | ⟨g, x, h1, h2⟩ <;> simp only [h1, h2]
    · exact h
    · obtain ⟨ho, hn⟩ := h.procs p g x h1 h2
      refine inv_set h (x := { x with ctxs := (lvl, n) :: x.ctxs }) ?_ ?_
      · exact ho
      show Nested _ _ _ _ _ _ (g.cur :: g.saved) ((lvl, n) :: x.ctxs)
      unfold Nested
      exact ⟨rfl, rfl, rfl, (by refine Nested.congr (x := x) ?_ ?_ ?_ ?_ hn <;> first | rfl | exact fun _ _ h => h)⟩
  | exit p =>
    unfold step Spec.step
    rcases both p with ⟨h1, h2⟩ | ⟨g, x, h1, h2⟩ <;> simp only [h1, h2]
    · exact h
    · obtain ⟨ho, hn⟩ := h.procs p g x h1 h2
      cases hs : g.saved with
      | nil =>
        have hc : x.ctxs = [] := by
          cases hc : x.ctxs with
          | nil => rfl
          | cons a r => rw [hs, hc] at hn; unfold Nested at hn; exact hn.elim
        have : ({ x with ctxs := x.ctxs.tail } : PSt) = x := by rw [hc]; cases x; cases hc; rfl
        rw [this, upd_self h2]
        exact h
      | cons d ds =>
        dsimp only
        refine inv_set h (x := { x with ctxs := x.ctxs.tail }) ?_ ?_
        · exact ho
        cases hc : x.ctxs with
        | nil => rw [hs, hc] at hn; unfold Nested at hn; exact hn.elim
        | cons a r =>
          obtain ⟨l, n⟩ := a
          rw [hs, hc] at hn
          unfold Nested at hn
          exact (by refine Nested.congr (x := x) ?_ ?_ ?_ ?_ hn.2.2.2 <;> first | rfl | exact fun _ _ h => h)
  | fork p q =>
    unfold step Spec.step
    rcases both p with ⟨h1, h2⟩ | ⟨g, x, h1, h2⟩ <;> simp only [h1, h2]
    · exact h
    · obtain ⟨ho, hn⟩ := h.procs p g x h1 h2
      obtain ⟨hc, hq⟩ := ok
      have hc := hc x h2
      rw [hc] at hn
      cases hs : g.saved with
      | cons a r => rw [hs] at hn; unfold Nested at hn; exact hn.elim
      | nil =>
        rw [hs] at hn
        unfold Nested Base at hn
        obtain ⟨b1, b2, b3⟩ := hn
        by_cases hi : g.cur.init = true
        · have e : reinitStream canOpen w q g.cur = openStream canOpen w q g.cur := by unfold reinitStream; rw [if_pos hi]
          have ho' := inv_open (canOpen := canOpen) (w := w) (s := s) (p := q) b1 b2 fun t _ _ => h.fresh q hq t
          rw [e]
          dsimp only at ho' ⊢
          obtain ⟨b, bi, _, p1, p2, p3, p4⟩ := ho'
          refine inv_set (inv_disk h p1 p2 p3 p4) (x := x) ?_ ?_
          · exact ho
          show Nested _ _ _ _ _ _ [] x.ctxs
          rw [hc]
          unfold Nested
          exact b
        · have e : reinitStream canOpen w q g.cur = (w, g.cur) := by unfold reinitStream; rw [if_neg hi]
          rw [e]
          dsimp only
          refine inv_set h (x := x) ?_ ?_
          · exact ho
          show Nested _ _ _ _ _ _ [] x.ctxs
          rw [hc]
          unfold Nested Base
          refine ⟨b1, b2, ?_⟩
          dsimp only
          cases g.cur.target with
          | none => exact fun hh => absurd hh hi
          | some t =>
            dsimp only
            split
            · try rw [if_neg hi]
              exact h.fresh q hq t
            · exact fun hh => absurd hh hi

theorem inv_start (canOpen : Target → Nat → Bool) (p : Nat) (lvl : Int) (t : Option Target) (disk : Target → List Str) :
    Inv canOpen (start p lvl t disk) (Spec.start p lvl t) := by
  refine ⟨?_, ?_, ?_, ?_, rfl, fun _ => rfl⟩
  · intro q
    show Py.Dict.get [(p, _)] q = none ↔ (if q = p then _ else _) = none
    rw [Py.Dict.get_cons]
    by_cases e : q = p
    · subst e; simp
    · have e' : ¬ p = q := fun hh => e hh.symm
      simp [e, e', Py.Dict.get_nil]
  · intro q g x hg hx
    replace hg : Py.Dict.get [(p, _)] q = some g := hg
    replace hx : (if q = p then _ else _) = some x := hx
    rw [Py.Dict.get_cons] at hg
    by_cases e : q = p
    · subst e
      simp at hg hx
      subst hg; subst hx
      refine ⟨rfl, ?_⟩
      unfold Nested Base
      refine ⟨rfl, rfl, ?_⟩
      dsimp only
      cases t with
      | none => exact fun hh => by cases hh
      | some f =>
        dsimp only
        split
        · rw [if_neg (by simp)]
          rfl
        · exact fun hh => by cases hh
    · rw [if_neg e] at hx
      cases hx
  · intro t' q hn
    exact absurd rfl hn
  · intro q _ t'
    rfl

theorem inv_run {canOpen : Target → Nat → Bool} (ops : List Op) {w : World} {s : St} (h : Inv canOpen w s)
    (ok : Spec.AllOk canOpen s ops) : Inv canOpen (run canOpen w ops) (Spec.run canOpen s ops) := by
  induction ops generalizing w s with
  | nil => exact h
  | cons o os ih => exact ih (inv_step h o ok.1) ok.2

/-- C125. After any history of messages, `log_to`, contexts and forks, the file of each process for each target it logged to
has exactly the messages the process said to it at an enabled level, in order; and so have the standard error and the streams of
the contexts. -/
theorem c125_log (canOpen : Target → Nat → Bool) (p0 : Nat) (lvl : Int) (t0 : Option Target) (disk : Target → List Str)
    (ops : List Op) (ok : Spec.AllOk canOpen (Spec.start p0 lvl t0) ops) :
    let w := run canOpen (start p0 lvl t0 disk) ops
    let s := Spec.run canOpen (Spec.start p0 lvl t0) ops
    (∀ t p, told s (.target t p) ≠ [] → w.disk (filenameWithPid t p) = told s (.target t p)) ∧
    w.stderr = told s .stderr ∧ (∀ n, w.users n = told s (.user n)) := by
  have h := inv_run ops (inv_start canOpen p0 lvl t0 disk) ok
  exact ⟨h.files, h.stderr, h.users⟩

/-! ### Contexts -/

/-- what may be in a context of a process: anything of the others, messages, `log_to`, forks, and contexts in it -/
inductive Balanced (p : Nat) : List Op → Prop
  | nil : Balanced p []
  | log (l m) : Balanced p [.log p l m]
  | once (m) : Balanced p [.once p m]
  | logTo (t l) : Balanced p [.logTo p t l]
  | fork (a q) : q ≠ p → Balanced p [.fork a q]
  | otherLog (q l m) : q ≠ p → Balanced p [.log q l m]
  | otherOnce (q m) : q ≠ p → Balanced p [.once q m]
  | otherLogTo (q t l) : q ≠ p → Balanced p [.logTo q t l]
  | otherEnter (q l n) : q ≠ p → Balanced p [.enter q l n]
  | otherExit (q) : q ≠ p → Balanced p [.exit q]
  | context (l n body) : Balanced p body → Balanced p (.enter p l n :: body ++ [.exit p])
  | append (a b) : Balanced p a → Balanced p b → Balanced p (a ++ b)

theorem write_procs (w : World) (s : Stream) (m : Str) : (write w s m).procs = w.procs := by
  cases s <;> rfl

theorem open_procs (canOpen : Target → Nat → Bool) (w : World) (p : Nat) (s : Settings) :
    (openStream canOpen w p s).1.procs = w.procs := by
  unfold openStream
  split
  · rfl
  · split <;> rfl

theorem init_procs (canOpen : Target → Nat → Bool) (w : World) (p : Nat) (s : Settings) :
    (initStream canOpen w p s).1.procs = w.procs ∧ (reinitStream canOpen w p s).1.procs = w.procs := by
  unfold initStream reinitStream
  constructor <;> split <;> first | rfl | exact open_procs ..

theorem log_procs (canOpen : Target → Nat → Bool) (w : World) (p : Nat) (g : Proc) (l : Int) (m : Str) (q : Nat)
    (hg : Py.Dict.get w.procs p = some g) :
    (q ≠ p → Py.Dict.get (pydevdLog canOpen w p g l m).procs q = Py.Dict.get w.procs q) ∧
    (∃ g', Py.Dict.get (pydevdLog canOpen w p g l m).procs p = some g' ∧ g'.saved = g.saved) := by
  unfold pydevdLog
  split
  · dsimp only
    rw [write_procs]
    show (q ≠ p → Py.Dict.get (Py.Dict.set _ _ _) _ = _) ∧ ∃ g', Py.Dict.get (Py.Dict.set _ _ _) _ = some g' ∧ _
    rw [(init_procs canOpen w p g.cur).1]
    refine ⟨fun e => ?_, { g with cur := (initStream canOpen w p g.cur).2 }, ?_, rfl⟩
    · rw [Py.Dict.get_set, if_neg e]
    · rw [Py.Dict.get_set, if_pos rfl]
  · exact ⟨fun _ => rfl, g, hg, rfl⟩

/-- an operation of another process leaves the settings of this -/
theorem other_op (canOpen : Target → Nat → Bool) (w : World) (p : Nat) (o : Op)
    (h : match o with
      | .log q _ _ => q ≠ p | .once q _ => q ≠ p | .logTo q _ _ => q ≠ p | .enter q _ _ => q ≠ p | .exit q => q ≠ p
      | .fork _ q => q ≠ p) :
    Py.Dict.get (step canOpen w o).procs p = Py.Dict.get w.procs p := by
  cases o with
  | log q l m =>
    cases hq : Py.Dict.get w.procs q with
    | none => simp only [step, hq]
    | some g => simp only [step, hq]; exact (log_procs canOpen w q g l m p hq).1 (Ne.symm h)
  | once q m =>
    cases hq : Py.Dict.get w.procs q with
    | none => simp only [step, hq]
    | some g =>
      simp only [step, hq]
      split
      · rfl
      · rw [(log_procs canOpen _ q _ 0 m p (by show Py.Dict.get (Py.Dict.set _ _ _) _ = _; rw [Py.Dict.get_set, if_pos rfl])).1
          (Ne.symm h)]
        show Py.Dict.get (Py.Dict.set _ _ _) _ = _
        rw [Py.Dict.get_set, if_neg (Ne.symm h)]
  | logTo q t l =>
    cases hq : Py.Dict.get w.procs q with
    | none => simp only [step, hq]
    | some g =>
      simp only [step, hq]
      show Py.Dict.get (Py.Dict.set _ _ _) _ = _
      rw [Py.Dict.get_set, if_neg (Ne.symm h)]
  | enter q l n =>
    cases hq : Py.Dict.get w.procs q with
    | none => simp only [step, hq]
    | some g =>
      simp only [step, hq]
      show Py.Dict.get (Py.Dict.set _ _ _) _ = _
      rw [Py.Dict.get_set, if_neg (Ne.symm h)]
  | exit q =>
    cases hq : Py.Dict.get w.procs q with
    | none => simp only [step, hq]
    | some g =>
      simp only [step, hq]
      cases g.saved with
      | nil => rfl
      | cons a r =>
        show Py.Dict.get (Py.Dict.set _ _ _) _ = _
        rw [Py.Dict.get_set, if_neg (Ne.symm h)]
  | fork a q =>
    cases hq : Py.Dict.get w.procs a with
    | none => simp only [step, hq]
    | some g =>
      simp only [step, hq]
      show Py.Dict.get (Py.Dict.set _ _ _) _ = _
      rw [Py.Dict.get_set, if_neg (Ne.symm h), (init_procs canOpen w q g.cur).2]

theorem enter_get {canOpen : Target → Nat → Bool} {w : World} {p : Nat} {g : Proc} (l : Int) (n : Nat)
    (hg : Py.Dict.get w.procs p = some g) : Py.Dict.get (step canOpen w (.enter p l n)).procs p
      = some { g with cur := { g.cur with level := l, stream := .user n, init := true }, saved := g.cur :: g.saved } := by
  simp only [step, hg]
  show Py.Dict.get (Py.Dict.set _ _ _) _ = _
  rw [Py.Dict.get_set, if_pos rfl]

theorem exit_get {canOpen : Target → Nat → Bool} {w : World} {p : Nat} {g : Proc} {c : Settings} {cs : List Settings}
    (hg : Py.Dict.get w.procs p = some g) (hs : g.saved = c :: cs) :
    Py.Dict.get (step canOpen w (.exit p)).procs p = some { g with cur := c, saved := cs } := by
  simp only [step, hg, hs]
  show Py.Dict.get (Py.Dict.set _ _ _) _ = _
  rw [Py.Dict.get_set, if_pos rfl]

theorem balanced_saved (canOpen : Target → Nat → Bool) {p : Nat} {ops : List Op} (hb : Balanced p ops) :
    ∀ (w : World) (g : Proc), Py.Dict.get w.procs p = some g →
      ∃ g', Py.Dict.get (run canOpen w ops).procs p = some g' ∧ g'.saved = g.saved := by
  induction hb with
  | nil => intro w g hg; exact ⟨g, hg, rfl⟩
  | log l m =>
    intro w g hg
    have := (log_procs canOpen w p g l m p hg).2
    simpa [run, step, hg] using this
  | once m =>
    intro w g hg
    simp only [run, List.foldl_cons, List.foldl_nil, step, hg]
    split
    · exact ⟨g, hg, rfl⟩
    · exact (log_procs canOpen _ p { g with once := m :: g.once } 0 m p
        (by show Py.Dict.get (Py.Dict.set _ _ _) _ = _; rw [Py.Dict.get_set, if_pos rfl])).2
  | logTo t l =>
    intro w g hg
    simp only [run, List.foldl_cons, List.foldl_nil, step, hg]
    refine ⟨_, (Py.Dict.get_set ..).trans (if_pos rfl), ?_⟩
    rfl
  | fork a q h => intro w g hg; exact ⟨g, (other_op canOpen w p (.fork a q) h).trans hg, rfl⟩
  | otherLog q l m h => intro w g hg; exact ⟨g, (other_op canOpen w p (.log q l m) h).trans hg, rfl⟩
  | otherOnce q m h => intro w g hg; exact ⟨g, (other_op canOpen w p (.once q m) h).trans hg, rfl⟩
  | otherLogTo q t l h => intro w g hg; exact ⟨g, (other_op canOpen w p (.logTo q t l) h).trans hg, rfl⟩
  | otherEnter q l n h => intro w g hg; exact ⟨g, (other_op canOpen w p (.enter q l n) h).trans hg, rfl⟩
  | otherExit q h => intro w g hg; exact ⟨g, (other_op canOpen w p (.exit q) h).trans hg, rfl⟩
  | append a b _ _ iha ihb =>
    intro w g hg
    obtain ⟨g1, h1, e1⟩ := iha w g hg
    obtain ⟨g2, h2, e2⟩ := ihb _ g1 h1
    refine ⟨g2, ?_, e2.trans e1⟩
    unfold run at h2 ⊢
    rw [List.foldl_append]
    exact h2
  | context l n body _ ih =>
    intro w g hg
    have h0 := enter_get (canOpen := canOpen) l n hg
    obtain ⟨g1, h1, e1⟩ := ih _ _ h0
    refine ⟨{ g1 with cur := g.cur, saved := g.saved }, ?_, rfl⟩
    unfold run at h1 ⊢
    rw [List.cons_append, List.foldl_cons, List.foldl_append]
    exact exit_get (canOpen := canOpen) h1 e1

/-- C125. When a context ends, the level, the target and the stream are those from before it, whatever was done in it. -/
theorem c125_context (canOpen : Target → Nat → Bool) (w : World) (p : Nat) (g : Proc) (l : Int) (n : Nat) (body : List Op)
    (hg : Py.Dict.get w.procs p = some g) (hb : Balanced p body) :
    ∃ g', Py.Dict.get (run canOpen w (.enter p l n :: body ++ [.exit p])).procs p = some g' ∧
      g'.cur = g.cur ∧ g'.saved = g.saved := by
  have h0 := enter_get (canOpen := canOpen) l n hg
  obtain ⟨g1, h1, e1⟩ := balanced_saved canOpen hb _ _ h0
  refine ⟨{ g1 with cur := g.cur, saved := g.saved }, ?_, rfl, rfl⟩
  unfold run at h1 ⊢
  rw [List.cons_append, List.foldl_cons, List.foldl_append]
  exact exit_get (canOpen := canOpen) h1 e1

/-! ### Violations without the provisos -/

def ta : Target := ⟨c!"/l", c!"a.log"⟩
def tb : Target := ⟨c!"/l", c!"b.log"⟩

/-- C125. Logging to another file and back drops what was in the first. -/
theorem c125_back_witness :
    (run (fun _ _ => true) (start 7 0 none fun _ => [])
      [.logTo 7 (some ta) 3, .log 7 0 c!"one", .logTo 7 (some tb) 3, .log 7 0 c!"two", .logTo 7 (some ta) 3,
       .log 7 0 c!"three"]).disk ⟨c!"/l", c!"a.7.log"⟩ = [c!"three"] := by
  decide +kernel

/-- C125. A process forked in a context says in the file of its parent what it says after the context. -/
theorem c125_fork_witness :
    let w := run (fun _ _ => true) (start 7 0 (some ta) fun _ => [])
      [.log 7 0 c!"one", .enter 7 3 0, .fork 7 8, .exit 8, .log 8 0 c!"two"]
    w.disk ⟨c!"/l", c!"a.7.log"⟩ = [c!"one", c!"two"] ∧ w.disk ⟨c!"/l", c!"a.8.log"⟩ = [] := by
  decide +kernel

/-! ### Examples -/

/-- two processes, two targets, a context and a message said once -/
def sample : List Op :=
  [.log 7 0 c!"early", .logTo 7 (some ta) 2, .log 7 3 c!"no", .log 7 2 c!"one", .fork 7 8, .log 8 1 c!"child",
   .enter 7 3 0, .log 7 3 c!"ctx", .exit 7, .once 7 c!"o", .once 7 c!"o", .logTo 8 (some tb) 0, .log 8 0 c!"moved"]

example : Spec.AllOk (fun _ _ => true) (Spec.start 7 0 none) sample := by
  simp [Spec.AllOk, sample, Spec.Ok, Spec.step, Spec.start, Spec.upd, Spec.say, Spec.level, Spec.dest, ta, tb]

example :
    let w := run (fun _ _ => true) (start 7 0 none fun _ => []) sample
    w.stderr = [c!"early"] ∧ w.disk ⟨c!"/l", c!"a.7.log"⟩ = [c!"one", c!"o"] ∧
    w.disk ⟨c!"/l", c!"a.8.log"⟩ = [c!"child"] ∧ w.disk ⟨c!"/l", c!"b.8.log"⟩ = [c!"moved"] ∧ w.users 0 = [c!"ctx"] := by
  decide +kernel

example : Balanced 7 ([.enter 7 3 0, .logTo 7 (some tb) 1, .exit 7] ++ [.log 8 0 c!"x"]) :=
  .append _ _ (.context 3 0 [.logTo 7 (some tb) 1] (.logTo _ _)) (.otherLog 8 0 _ (by decide))

end Logging
