import Verif.Canonical.Model
/-!
C120: a file has one name throughout a session, which is that of the file.
-/

namespace Canonical
open Py

/-! ### Specification -/

/-- The first place of a text in a path. -/
def IsFirst (m r : Path) (i : Nat) : Prop := m <+: r.drop i ∧ ∀ j, j < i → ¬ m <+: r.drop j

/-- Where the name of an archive seems to end, `i + 4` being the place after it. -/
def FirstMarker (r : Path) (i : Nat) : Prop :=
  IsFirst c!".zip" r i ∨ ((∀ j, ¬ c!".zip" <+: r.drop j) ∧ IsFirst c!".egg" r i)

/-- Nothing looks like the name of an archive. -/
def NoMarker (r : Path) : Prop := ∀ j, ¬ c!".zip" <+: r.drop j ∧ ¬ c!".egg" <+: r.drop j

/-- What may follow the name of an archive: nothing, a separator, or a separator and the name of something in it (or the same after `!`). -/
def Follows (t : Path) : Prop :=
  t = [] ∨ t = c!"!" ∨ t = c!"/" ∨ t = c!"\\" ∨ t = c!"!/" ∨ t = c!"!\\" ∨
  ∃ c rest, c ≠ '/' ∧ (t = '/' :: c :: rest ∨ t = '!' :: '/' :: c :: rest)

/-- Where the file of a relative path is looked for: in the first directory of `sys.path` that has it, or else with the libraries. -/
def InPath (w : World) (func : Path → Path) (f r : Path) : Prop :=
  (∃ before p after, w.sysPath = before ++ p :: after ∧ (∀ q ∈ before, w.ex (func (join q f)) = false) ∧ w.ex (func (join p f)) = true ∧
    r = func (join p f)) ∨
  ((∀ q ∈ w.sysPath, w.ex (func (join q f)) = false) ∧ r = func (join w.lib f))

/-- Where a file is: at its path if that is absolute or exists, or else in the first directory of `sys.path` that has it, or else with the libraries. -/
def Located (w : World) (func : Path → Path) (f r : Path) : Prop :=
  ((isabs f = true ∨ w.ex (func f) = true) ∧ r = func f) ∨ (isabs f = false ∧ w.ex (func f) = false ∧ InPath w func f r)

/-- A path that names something in an archive: the archive `z`, and the name in it (after the separator). -/
def InArchive (g z inner : Path) : Prop :=
  ∃ i t sep, FirstMarker g i ∧ (t = g.drop (i + 4) ∧ z = g.take (i + 4) ∧ t.head? ≠ some '!' ∨ '!' :: t = g.drop (i + 4) ∧ z = g.take (i + 4) ++ ['!']) ∧
    t = sep ++ inner ∧ (sep = ['/'] ∨ sep = ['\\'] ∨ sep = [] ∧ inner.head? ≠ some '/' ∧ inner.head? ≠ some '\\')

/-- A file exists: it does, or it is found from `sys.path`, or it is in an archive (which has `/` for separator). -/
def Exists (w : World) (f : Path) : Prop :=
  w.ex f = true ∨ ∃ g, (isabs f = true ∧ g = f ∨ isabs f = false ∧ InPath w w.abs f g) ∧
    ((isabs f = false ∧ w.ex g = true) ∨
      ∃ z inner names, InArchive g z inner ∧ w.zip z = some names ∧ (inner.map fun c => if c = '\\' then '/' else c) ∈ names)

/-- The names that are of no file. -/
def Special (n : Path) : Prop := n = [] ∨ n.head? = some '<'

/-- The name is that of the file. -/
def Kept (r : Path) : Prop := NoMarker r ∨ ∃ i, FirstMarker r i ∧ Follows (r.drop (i + 4))

/-- The name of the source file for the name of a compiled one. -/
inductive SourceOf : Path → Path → Prop
  | pyc (x) : SourceOf (x ++ c!".pyc") (x ++ c!".py")
  | cls (x) : SourceOf (x ++ c!"$py.class") (x ++ c!".py")
  | same (f) (h1 : ¬ c!".pyc" <:+ f) (h2 : ¬ c!"$py.class" <:+ f) : SourceOf f f

/-! ### Archives -/

theorem find_some {p s : Path} {i : Nat} (h : find p s = some i) : IsFirst p s i := by
  induction s generalizing i with
  | nil =>
    rw [find] at h
    split at h
    · rename_i hp
      cases h
      subst hp
      exact ⟨List.nil_prefix, fun j hj => absurd hj (Nat.not_lt_zero j)⟩
    · cases h
  | cons c cs ih =>
    rw [find] at h
    split at h
    · rename_i hp
      cases h
      exact ⟨List.isPrefixOf_iff_prefix.mp hp, fun j hj => absurd hj (Nat.not_lt_zero j)⟩
    · rename_i hp
      cases hf : find p cs with
      | none => rw [hf] at h; cases h
      | some k =>
        rw [hf] at h
        cases h
        obtain ⟨h1, h2⟩ := ih hf
        refine ⟨h1, ?_⟩
        intro j hj
        cases j with
        | zero => intro hh; exact hp (List.isPrefixOf_iff_prefix.mpr hh)
        | succ j => exact h2 j (Nat.lt_of_succ_lt_succ hj)

theorem find_none {p s : Path} (hp : p ≠ []) (h : find p s = none) (j : Nat) : ¬ p <+: s.drop j := by
  induction s generalizing j with
  | nil =>
    rw [List.drop_nil, List.prefix_nil]
    exact hp
  | cons c cs ih =>
    rw [find] at h
    split at h
    · cases h
    · rename_i hpre
      cases hf : find p cs with
      | none =>
        cases j with
        | zero => intro hh; exact hpre (List.isPrefixOf_iff_prefix.mpr hh)
        | succ j => exact ih hf j
      | some k => rw [hf] at h; cases h

theorem first_unique {p s : Path} {i j : Nat} (h : IsFirst p s i) (g : IsFirst p s j) : i = j := by
  rcases Nat.lt_trichotomy i j with hlt | heq | hlt
  · exact absurd h.1 (g.2 i hlt)
  · exact heq
  · exact absurd g.1 (h.2 j hlt)

theorem marker_some {r : Path} {i : Nat} (h : FirstMarker r i) : marker r = some i := by
  unfold marker
  rcases h with h | ⟨hno, h⟩
  · cases hf : find c!".zip" r with
    | none => exact absurd h.1 (find_none (by decide) hf i)
    | some k => rw [first_unique (find_some hf) h]
  · cases hf : find c!".zip" r with
    | none =>
      dsimp only
      cases hg : find c!".egg" r with
      | none => exact absurd h.1 (find_none (by decide) hg i)
      | some k => rw [first_unique (find_some hg) h]
    | some k => exact absurd (find_some hf).1 (hno k)

theorem marker_first {r : Path} {i : Nat} (h : marker r = some i) : FirstMarker r i := by
  unfold marker at h
  cases hf : find c!".zip" r with
  | some k => rw [hf] at h; cases h; exact .inl (find_some hf)
  | none =>
    rw [hf] at h
    exact .inr ⟨find_none (by decide) hf, find_some h⟩

theorem marker_none {r : Path} (h : NoMarker r) : marker r = none := by
  cases hm : marker r with
  | none => rfl
  | some i =>
    rcases marker_first hm with h' | h'
    · exact absurd h'.1 (h i).1
    · exact absurd h'.2.1 (h i).2

theorem no_marker {r : Path} (h : marker r = none) : NoMarker r := by
  unfold marker at h
  cases hf : find c!".zip" r with
  | some k => rw [hf] at h; cases h
  | none =>
    rw [hf] at h
    exact fun j => ⟨find_none (by decide) hf j, find_none (by decide) h j⟩

/-- **C120**: a path in which nothing looks like an archive is only normalized. -/
theorem c120_plain (norm : Path → Path) (r : Path) (h : NoMarker r) : fix norm r = norm r := by
  unfold fix
  rw [marker_none h]

theorem first_split {r : Path} {i : Nat} (h : FirstMarker r i) : ∃ m, (m = c!".zip" ∨ m = c!".egg") ∧ r = r.take i ++ m ++ r.drop (i + 4) ∧
    r.take (i + 4) = r.take i ++ m ∧ i + 4 ≤ r.length := by
  have : ∃ m, (m = c!".zip" ∨ m = c!".egg") ∧ m <+: r.drop i := by
    rcases h with h | h
    · exact ⟨_, .inl rfl, h.1⟩
    · exact ⟨_, .inr rfl, h.2.1⟩
  obtain ⟨m, hm, t, ht⟩ := this
  have hl : m.length = 4 := by rcases hm with rfl | rfl <;> rfl
  have hlen : i + 4 ≤ r.length := by
    have := congrArg List.length ht
    rw [List.length_append, List.length_drop, hl] at this
    omega
  have hd : r.drop (i + 4) = t := by
    rw [← List.drop_drop, ← ht, ← hl, List.drop_left]
  have ht' : r.take (i + 4) = r.take i ++ m := by
    rw [List.take_add, ← ht, ← hl, List.take_left]
  refine ⟨m, hm, ?_, ht', hlen⟩
  rw [hd, List.append_assoc, ht, List.take_append_drop]

theorem last_of {l m : Path} (hm : m = c!".zip" ∨ m = c!".egg") : (l ++ m).getLast? ≠ some '/' ∧ l ++ m ≠ [] := by
  rcases hm with rfl | rfl
  · refine ⟨?_, by simp⟩
    rw [List.getLast?_append]; simp
  · refine ⟨?_, by simp⟩
    rw [List.getLast?_append]; simp

/-- What becomes of a path `r = z ++ t`, by what follows the archive's name. -/
def fixTail (r z t : Path) : Path :=
  if t = [] ∨ t = ['!'] then r
  else
    let zi : Path × Path := if t.head? = some '!' then (z ++ ['!'], t.tail) else (z, t)
    if zi.2.head? = some '/' ∨ zi.2.head? = some '\\' then
      (if zi.2.tail = [] then r else if zi.2.tail.head? = some '/' then zi.2.tail else zi.1 ++ '/' :: zi.2.tail)
    else zi.1 ++ '/' :: zi.2

theorem tail_nil (r z : Path) : fixTail r z [] = r := rfl

theorem tail_bang (r z : Path) : fixTail r z ['!'] = r := rfl

theorem tail_bang_cons (r z : Path) (c : Char) (rest : Path) : fixTail r z ('!' :: c :: rest) =
    if c = '/' ∨ c = '\\' then (if rest = [] then r else if rest.head? = some '/' then rest else z ++ '!' :: '/' :: rest)
    else z ++ '!' :: '/' :: c :: rest := by
  simp [fixTail]

theorem tail_cons (r z : Path) (c : Char) (rest : Path) (hb : c ≠ '!') : fixTail r z (c :: rest) =
    if c = '/' ∨ c = '\\' then (if rest = [] then r else if rest.head? = some '/' then rest else z ++ '/' :: rest)
    else z ++ '/' :: c :: rest := by
  simp [fixTail, hb]

theorem fix_cases {r : Path} {i : Nat} (h : FirstMarker r i) :
    ∃ z t, r = z ++ t ∧ z = r.take (i + 4) ∧ t = r.drop (i + 4) ∧
    fix id r = fixTail r z t := by
  obtain ⟨m, hm, hr, hz, _⟩ := first_split h
  refine ⟨r.take (i + 4), r.drop (i + 4), (List.take_append_drop _ _).symm, rfl, rfl, ?_⟩
  unfold fix
  rw [marker_some h]
  dsimp only
  unfold archive
  have hlast := @last_of (r.take i) m hm
  rw [← hz] at hlast
  generalize r.take (i + 4) = z at *
  generalize r.drop (i + 4) = t at *
  have hj : ∀ b, join z b = if b.head? = some '/' then b else z ++ '/' :: b := by
    intro b
    unfold join
    split
    · rfl
    · rw [if_neg]
      rintro (h | h)
      · exact hlast.2 h
      · exact hlast.1 h
  have hj' : ∀ b, join (z ++ ['!']) b = if b.head? = some '/' then b else z ++ '!' :: '/' :: b := by
    intro b
    unfold join
    split
    · rfl
    · rw [if_neg]
      · simp
      · rintro (h | h)
        · simp at h
        · rw [List.getLast?_append] at h; simp at h
  match t with
  | [] => simp [tail_nil, tail_bang, tail_bang_cons, tail_cons, startsWith, dropSep]
  | ['!'] => simp [tail_nil, tail_bang, tail_bang_cons, tail_cons, startsWith, dropSep]
  | '!' :: c :: rest =>
    by_cases hc : c = '/'
    · subst hc
      by_cases hrest : rest = []
      · simp [tail_nil, tail_bang, tail_bang_cons, tail_cons, startsWith, dropSep, hrest]
      · simp [tail_nil, tail_bang, tail_bang_cons, tail_cons, startsWith, dropSep, hrest, hj']
    · by_cases hc' : c = '\\'
      · subst hc'
        by_cases hrest : rest = []
        · simp [tail_nil, tail_bang, tail_bang_cons, tail_cons, startsWith, dropSep, hrest]
        · simp [tail_nil, tail_bang, tail_bang_cons, tail_cons, startsWith, dropSep, hrest, hj']
      · simp [tail_nil, tail_bang, tail_bang_cons, tail_cons, startsWith, dropSep, hj', hc, hc', Ne.symm hc, Ne.symm hc']
  | c :: rest =>
    by_cases hb : c = '!'
    · subst hb
      cases rest with
      | nil => simp [tail_nil, tail_bang, tail_bang_cons, tail_cons, startsWith, dropSep]
      | cons d rest =>
        by_cases hc : d = '/'
        · subst hc
          by_cases hrest : rest = []
          · simp [tail_nil, tail_bang, tail_bang_cons, tail_cons, startsWith, dropSep, hrest]
          · simp [tail_nil, tail_bang, tail_bang_cons, tail_cons, startsWith, dropSep, hrest, hj']
        · by_cases hc' : d = '\\'
          · subst hc'
            by_cases hrest : rest = []
            · simp [tail_nil, tail_bang, tail_bang_cons, tail_cons, startsWith, dropSep, hrest]
            · simp [tail_nil, tail_bang, tail_bang_cons, tail_cons, startsWith, dropSep, hrest, hj']
          · simp [tail_nil, tail_bang, tail_bang_cons, tail_cons, startsWith, dropSep, hj', hc, hc', Ne.symm hc, Ne.symm hc']
    · by_cases hc : c = '/'
      · subst hc
        by_cases hrest : rest = []
        · simp [tail_nil, tail_bang, tail_bang_cons, tail_cons, startsWith, dropSep, hrest]
        · simp [tail_cons, startsWith, dropSep, hrest, hj]
      · by_cases hc' : c = '\\'
        · subst hc'
          by_cases hrest : rest = []
          · simp [tail_nil, tail_bang, tail_bang_cons, tail_cons, startsWith, dropSep, hrest]
          · simp [tail_cons, startsWith, dropSep, hrest, hj]
        · simp [tail_cons, startsWith, dropSep, hj, hb, hc, hc', Ne.symm hb, Ne.symm hc, Ne.symm hc']

/-- **C120**: a path in which something looks like an archive is kept exactly if what follows it is the end or a path in it: otherwise another name is made. -/
theorem c120_kept (r : Path) (i : Nat) (h : FirstMarker r i) : fix id r = r ↔ Follows (r.drop (i + 4)) := by
  obtain ⟨z, t, hr, _, ht, hf⟩ := fix_cases h
  rw [hf, ← ht]
  have hcancel : ∀ a, z ++ a = r ↔ a = t := by
    intro a
    rw [hr]
    exact ⟨fun h => List.append_cancel_left h, fun h => by rw [h]⟩
  have hshort : ∀ a : Path, a.length < t.length → ¬ a = r := by
    rintro a hl rfl
    have := congrArg List.length hr
    rw [List.length_append] at this
    omega
  match t with
  | [] => simp [Follows, tail_nil]
  | ['!'] => simp [Follows, tail_bang]
  | '!' :: c :: rest =>
    rw [tail_bang_cons]
    simp only [Follows]
    by_cases hc : c = '/'
    · subst hc
      cases rest with
      | nil => simp
      | cons d rest =>
        by_cases hd : d = '/'
        · subst hd
          simp
          exact hshort _ (by simp)
        · simp [hd, hcancel]
    · by_cases hc' : c = '\\'
      · subst hc'
        cases rest with
        | nil => simp
        | cons d rest =>
          by_cases hd : d = '/'
          · subst hd
            simp
            exact hshort _ (by simp)
          · simp [hd, hcancel]
      · simp [hc, hc', hcancel]
  | c :: rest =>
    by_cases hb : c = '!'
    · subst hb
      cases rest with
      | nil => simp [Follows, tail_bang]
      | cons d rest =>
        rw [tail_bang_cons]
        simp only [Follows]
        by_cases hc : d = '/'
        · subst hc
          cases rest with
          | nil => simp
          | cons d rest =>
            by_cases hd : d = '/'
            · subst hd
              simp
              exact hshort _ (by simp)
            · simp [hd, hcancel]
        · by_cases hc' : d = '\\'
          · subst hc'
            cases rest with
            | nil => simp
            | cons d rest =>
              by_cases hd : d = '/'
              · subst hd
                simp
                exact hshort _ (by simp)
              · simp [hd, hcancel]
          · simp [hc, hc', hcancel]
    · rw [tail_cons _ _ _ _ hb]
      simp only [Follows]
      by_cases hc : c = '/'
      · subst hc
        cases rest with
        | nil => simp
        | cons d rest =>
          by_cases hd : d = '/'
          · subst hd
            simp
            exact hshort _ (by simp)
          · simp [hd, hcancel]
      · by_cases hc' : c = '\\'
        · subst hc'
          cases rest with
          | nil => simp
          | cons d rest =>
            by_cases hd : d = '/'
            · subst hd
              simp
              exact hshort _ (by simp)
            · simp [hd, hcancel]
        · simp [hc, hc', hcancel, hb]

theorem window {a b c d : Char} (l : Path) (j : Nat) :
    [a, b, c, d] <+: l.drop j ↔ l[j]? = some a ∧ l[j + 1]? = some b ∧ l[j + 2]? = some c ∧ l[j + 3]? = some d := by
  have h : ∀ k, l[j + k]? = (l.drop j)[k]? := fun k => List.getElem?_drop.symm
  rw [h 1, h 2, h 3, show l[j]? = (l.drop j)[0]? from h 0]
  generalize l.drop j = u
  match u with
  | [] => simp
  | [_] => simp
  | [_, _] => simp
  | [_, _, _] => simp
  | x :: y :: z :: w :: u =>
    simp [List.cons_prefix_cons]
    constructor
    · rintro ⟨rfl, rfl, rfl, rfl⟩; exact ⟨rfl, rfl, rfl, rfl⟩
    · rintro ⟨rfl, rfl, rfl, rfl⟩; exact ⟨rfl, rfl, rfl, rfl⟩

/-- The place of the archive's name is where it was. -/
theorem first_again {r : Path} {i : Nat} (h : FirstMarker r i) (b inner : Path) (hb : b = [] ∨ b = ['!']) (hs : inner <:+ r) :
    FirstMarker (r.take (i + 4) ++ (b ++ '/' :: inner)) i := by
  obtain ⟨_, _, _, _, hlen⟩ := first_split h
  have hz : (r.take (i + 4)).length = i + 4 := by rw [List.length_take]; omega
  have hlow : ∀ k, k < i + 4 → (r.take (i + 4) ++ (b ++ '/' :: inner))[k]? = r[k]? := by
    intro k hk
    rw [List.getElem?_append_left (by omega), List.getElem?_take_of_lt hk]
  have hwin : ∀ {a b' c d : Char} {j : Nat}, j ≤ i →
      ([a, b', c, d] <+: (r.take (i + 4) ++ (b ++ '/' :: inner)).drop j ↔ [a, b', c, d] <+: r.drop j) := by
    intro a b' c d j hj
    rw [window, window, hlow j (by omega), hlow (j + 1) (by omega), hlow (j + 2) (by omega), hlow (j + 3) (by omega)]
  have hfirst : ∀ {a b' c d : Char}, IsFirst [a, b', c, d] r i → IsFirst [a, b', c, d] (r.take (i + 4) ++ (b ++ '/' :: inner)) i :=
    fun hh => ⟨(hwin (Nat.le_refl i)).mpr hh.1, fun j hj hp => hh.2 j hj ((hwin (Nat.le_of_lt hj)).mp hp)⟩
  rcases h with h | ⟨hno, h⟩
  · exact .inl (hfirst h)
  · refine .inr ⟨?_, hfirst h⟩
    intro j hp
    by_cases hj : j ≤ i
    · exact hno j ((hwin hj).mp hp)
    · rw [window] at hp
      obtain ⟨y, hy⟩ := hs
      have hhigh : ∀ k, (r.take (i + 4) ++ (b ++ '/' :: inner))[i + 4 + b.length + 1 + k]? = r[y.length + k]? := by
        intro k
        rw [← hy, List.getElem?_append_right (by rw [hy, hz]; omega), hy, hz, List.getElem?_append_right (by omega),
          show i + 4 + b.length + 1 + k - (i + 4) - b.length = k + 1 by omega, List.getElem?_cons_succ, ← hy,
          List.getElem?_append_right (by omega)]
        congr 1
        omega
      have hsep : (r.take (i + 4) ++ (b ++ '/' :: inner))[i + 4 + b.length]? = some '/' := by
        rw [List.getElem?_append_right (by omega), hz, List.getElem?_append_right (by omega)]
        rw [show i + 4 + b.length - (i + 4) - b.length = 0 by omega]
        rfl
      by_cases hP : i + 4 + b.length < j
      · obtain ⟨k, rfl⟩ : ∃ k, j = i + 4 + b.length + 1 + k := ⟨j - (i + 4 + b.length + 1), by omega⟩
        refine hno (y.length + k) ((window _ _).mpr ?_)
        rw [show i + 4 + b.length + 1 + k + 1 = i + 4 + b.length + 1 + (k + 1) by omega,
          show i + 4 + b.length + 1 + k + 2 = i + 4 + b.length + 1 + (k + 2) by omega,
          show i + 4 + b.length + 1 + k + 3 = i + 4 + b.length + 1 + (k + 3) by omega, hhigh, hhigh, hhigh, hhigh] at hp
        exact hp
      · have h1 : i + 4 + b.length = j ∨ i + 4 + b.length = j + 1 ∨ i + 4 + b.length = j + 2 ∨ i + 4 + b.length = j + 3 ∨
            (b = ['!'] ∧ i + 4 = j + 3) := by
          rcases hb with rfl | rfl
          · simp only [List.length_nil] at *; omega
          · simp only [List.length_singleton, true_and] at *; omega
        rcases h1 with h1 | h1 | h1 | h1 | ⟨rfl, h1⟩
        · rw [h1] at hsep; rw [hsep] at hp; exact absurd hp.1 (by decide)
        · rw [h1] at hsep; rw [hsep] at hp; exact absurd hp.2.1 (by decide)
        · rw [h1] at hsep; rw [hsep] at hp; exact absurd hp.2.2.1 (by decide)
        · rw [h1] at hsep; rw [hsep] at hp; exact absurd hp.2.2.2 (by decide)
        · have hbang : (r.take (i + 4) ++ (['!'] ++ '/' :: inner))[i + 4]? = some '!' := by
            rw [List.getElem?_append_right (by omega), hz, Nat.sub_self]
            rfl
          rw [show j + 3 = i + 4 by omega, hbang] at hp; exact absurd hp.2.2.2 (by decide)

/-- The name made is one that is kept. -/
theorem made_kept {r : Path} {i : Nat} (h : FirstMarker r i) (b inner : Path) (hb : b = [] ∨ b = ['!']) (hs : inner <:+ r) (hne : inner ≠ [])
    (hh : inner.head? ≠ some '/') : fix id (r.take (i + 4) ++ (b ++ '/' :: inner)) = r.take (i + 4) ++ (b ++ '/' :: inner) := by
  rw [c120_kept _ i (first_again h b inner hb hs)]
  obtain ⟨_, _, _, _, hlen⟩ := first_split h
  have hz : (r.take (i + 4)).length = i + 4 := by rw [List.length_take]; omega
  rw [List.drop_left' hz]
  cases inner with
  | nil => exact absurd rfl hne
  | cons c rest =>
    have hc : c ≠ '/' := fun h => hh (by rw [h]; rfl)
    rcases hb with rfl | rfl
    · exact .inr (.inr (.inr (.inr (.inr (.inr ⟨c, rest, hc, .inl rfl⟩)))))
    · exact .inr (.inr (.inr (.inr (.inr (.inr ⟨c, rest, hc, .inr rfl⟩)))))

/-- **C120**: the name of a name is that name, for paths without an empty part (`//`, or `/` after a backslash). -/
theorem c120_again (r : Path) (h1 : ¬ c!"//" <:+: r) (h2 : ¬ c!"\\/" <:+: r) : fix id (fix id r) = fix id r := by
  cases hm : marker r with
  | none =>
    have : fix id r = r := c120_plain id r (no_marker hm)
    rw [this, this]
  | some i =>
    have h := marker_first hm
    obtain ⟨z, t, hr, hz, ht, hf⟩ := fix_cases h
    have hkeep : ∀ u, u = r → fix id r = u → fix id u = u := by
      rintro u rfl h; exact h
    have hsep : ∀ (x : Path) (s : Char) (rest : Path), r = x ++ s :: rest → (s = '/' ∨ s = '\\') → rest.head? ≠ some '/' := by
      rintro x s rest hx hs hhead
      cases rest with
      | nil => cases hhead
      | cons d rest =>
        cases hhead
        rcases hs with rfl | rfl
        · exact h1 ⟨x, rest, by rw [hx]; simp⟩
        · exact h2 ⟨x, rest, by rw [hx]; simp⟩
    have hmade : ∀ (b inner : Path) (x : Path), (b = [] ∨ b = ['!']) → r = x ++ inner → inner ≠ [] → inner.head? ≠ some '/' →
        fix id (z ++ (b ++ '/' :: inner)) = z ++ (b ++ '/' :: inner) := by
      intro b inner x hb hx hne hh
      rw [hz]
      exact made_kept h b inner hb ⟨x, hx.symm⟩ hne hh
    rw [hf]
    rw [hf] at hkeep
    clear hf
    match t with
    | [] => exact hkeep r rfl rfl
    | ['!'] => exact hkeep r rfl rfl
    | '!' :: c :: rest =>
      rw [tail_bang_cons] at hkeep ⊢
      split
      · rename_i hc
        rw [if_pos hc] at hkeep
        split
        · rename_i hrest
          rw [if_pos hrest] at hkeep
          exact hkeep r rfl rfl
        · rename_i hrest
          have := hsep (z ++ ['!']) c rest (by rw [hr]; simp) hc
          rw [if_neg this]
          exact hmade ['!'] rest (z ++ ['!', c]) (.inr rfl) (by rw [hr]; simp) hrest this
      · rename_i hc
        exact hmade ['!'] (c :: rest) (z ++ ['!']) (.inr rfl) (by rw [hr]; simp) (by simp) (by simp; exact fun h => hc (.inl h))
    | c :: rest =>
      by_cases hb : c = '!'
      · subst hb
        cases rest with
        | nil => exact hkeep r rfl rfl
        | cons c rest =>
          rw [tail_bang_cons] at hkeep ⊢
          split
          · rename_i hc
            rw [if_pos hc] at hkeep
            split
            · rename_i hrest
              rw [if_pos hrest] at hkeep
              exact hkeep r rfl rfl
            · rename_i hrest
              have := hsep (z ++ ['!']) c rest (by rw [hr]; simp) hc
              rw [if_neg this]
              exact hmade ['!'] rest (z ++ ['!', c]) (.inr rfl) (by rw [hr]; simp) hrest this
          · rename_i hc
            exact hmade ['!'] (c :: rest) (z ++ ['!']) (.inr rfl) (by rw [hr]; simp) (by simp) (by simp; exact fun h => hc (.inl h))
      · rw [tail_cons _ _ _ _ hb] at hkeep ⊢
        split
        · rename_i hc
          rw [if_pos hc] at hkeep
          split
          · rename_i hrest
            rw [if_pos hrest] at hkeep
            exact hkeep r rfl rfl
          · rename_i hrest
            have := hsep z c rest hr hc
            rw [if_neg this]
            exact hmade [] rest (z ++ [c]) (.inl rfl) (by rw [hr]; simp) hrest this
        · rename_i hc
          exact hmade [] (c :: rest) z (.inl rfl) hr (by simp) (by simp; exact fun h => hc (.inl h))

/-- **C120**: a path is given as it is exactly if nothing in it looks like an archive but archives. -/
theorem c120_kept_iff (r : Path) : fix id r = r ↔ Kept r := by
  cases hm : marker r with
  | none => exact ⟨fun _ => .inl (no_marker hm), fun _ => c120_plain id r (no_marker hm)⟩
  | some i =>
    have h := marker_first hm
    rw [c120_kept r i h]
    constructor
    · exact fun hf => .inr ⟨i, h, hf⟩
    · rintro (hf | ⟨j, hj, hf⟩)
      · rw [marker_none hf] at hm; cases hm
      · have := marker_some hj
        rw [hm] at this
        cases this
        exact hf

/-! ### Lookups -/

theorem search_some {w : World} {func : Path → Path} {f r : Path} {l : List Path} (h : searchPath w func f l = some r) :
    ∃ before p after, l = before ++ p :: after ∧ (∀ q ∈ before, w.ex (func (join q f)) = false) ∧ w.ex (func (join p f)) = true ∧ r = func (join p f) := by
  induction l with
  | nil => cases h
  | cons p rest ih =>
    rw [searchPath] at h
    split at h
    · rename_i he
      cases h
      exact ⟨[], p, rest, rfl, fun q hq => (by cases hq), he, rfl⟩
    · rename_i he
      obtain ⟨b, q, a, h1, h2, h3, h4⟩ := ih h
      refine ⟨p :: b, q, a, by rw [h1]; rfl, ?_, h3, h4⟩
      intro q' hq'
      rcases List.mem_cons.mp hq' with rfl | hq'
      · simpa using he
      · exact h2 q' hq'

theorem search_none {w : World} {func : Path → Path} {f : Path} {l : List Path} (h : searchPath w func f l = none) :
    ∀ q ∈ l, w.ex (func (join q f)) = false := by
  induction l with
  | nil => intro q hq; cases hq
  | cons p rest ih =>
    rw [searchPath] at h
    split at h
    · cases h
    · rename_i he
      intro q hq
      rcases List.mem_cons.mp hq with rfl | hq
      · simpa using he
      · exact ih h q hq

theorem relative_in (w : World) (func : Path → Path) (f : Path) : InPath w func f (relative w func f) := by
  unfold relative
  cases h : searchPath w func f w.sysPath with
  | some r => exact .inl (search_some h)
  | none => exact .inr ⟨search_none h, rfl⟩

theorem inPath_unique {w : World} {func : Path → Path} {f r r' : Path} (h : InPath w func f r) (h' : InPath w func f r') : r = r' := by
  rcases h with ⟨b, p, a, h1, h2, h3, h4⟩ | ⟨h1, h2⟩
  · rcases h' with ⟨b', p', a', h1', h2', h3', h4'⟩ | ⟨h1', h2'⟩
    · have : p = p' := by
        rw [h1] at h1'
        clear h4 h4' h1
        induction b generalizing b' with
        | nil =>
          cases b' with
          | nil => exact (List.cons.inj h1').1
          | cons q b' =>
            have := (List.cons.inj h1').1
            subst this
            have := h2' p (List.mem_cons_self ..)
            rw [h3] at this
            cases this
        | cons q b ih =>
          cases b' with
          | nil =>
            have := (List.cons.inj h1').1
            subst this
            have := h2 q (List.mem_cons_self ..)
            rw [h3'] at this
            cases this
          | cons q' b' =>
            exact ih (fun x hx => h2 x (List.mem_cons_of_mem _ hx)) b' (List.cons.inj h1').2 (fun x hx => h2' x (List.mem_cons_of_mem _ hx))
      rw [h4, h4', this]
    · have := h1' p (by rw [h1]; simp)
      rw [h3] at this
      cases this
  · rcases h' with ⟨b', p', a', h1', h2', h3', h4'⟩ | ⟨h1', h2'⟩
    · have := h1 p' (by rw [h1']; simp)
      rw [h3'] at this
      cases this
    · rw [h2, h2']

theorem head_lt (n : Path) : startsWith n ['<'] = true ↔ n.head? = some '<' := by
  cases n with
  | nil => simp [startsWith]
  | cons c n =>
    simp [startsWith]
    exact ⟨fun h => h.symm, fun h => h.symm⟩

/-- What is computed for a path that is a file's. -/
theorem apply_located (w : World) (norm func : Path → Path) (f : Path) (h : f.head? ≠ some '<') :
    ∃ r, Located w func f r ∧ apply w norm func f = fix norm r := by
  unfold apply
  rw [if_neg (by rw [head_lt]; exact h)]
  refine ⟨_, ?_, rfl⟩
  cases ha : isabs f with
  | true => exact .inl ⟨.inl ha, by simp⟩
  | false =>
    cases he : w.ex (func f) with
    | true => exact .inl ⟨.inr he, by simp⟩
    | false => exact .inr ⟨ha, he, by simpa using relative_in w func f⟩

theorem strip_source {n f : Path} (h : SourceOf n f) : strip n = f := by
  unfold strip
  cases h with
  | pyc x =>
    rw [if_pos (by rw [endsWith_iff]; exact List.suffix_append _ _)]
    rw [show x ++ c!".pyc" = (x ++ c!".py") ++ ['c'] by simp, List.take_left' (by simp)]
  | cls x =>
    rw [if_neg, if_pos (by rw [endsWith_iff]; exact List.suffix_append _ _)]
    · rw [List.take_left' (by simp)]
    · rw [endsWith_iff]
      rintro ⟨y, hy⟩
      have := congrArg List.getLast? hy
      rw [List.getLast?_append, List.getLast?_append] at this
      simp at this
  | same _ h1 h2 => rw [if_neg (by rwa [endsWith_iff]), if_neg (by rwa [endsWith_iff])]

theorem source_head {n f : Path} (h : SourceOf n f) (hn : ¬ Special n) : f.head? ≠ some '<' := by
  cases h with
  | pyc x =>
    cases x with
    | nil => decide
    | cons c x => exact fun h => hn (.inr h)
  | cls x =>
    cases x with
    | nil => decide
    | cons c x => exact fun h => hn (.inr h)
  | same _ _ _ => exact fun h => hn (.inr h)

theorem source_exists (n : Path) : ∃ f, SourceOf n f := by
  by_cases h1 : c!".pyc" <:+ n
  · obtain ⟨x, rfl⟩ := h1
    exact ⟨_, .pyc x⟩
  · by_cases h2 : c!"$py.class" <:+ n
    · obtain ⟨x, rfl⟩ := h2
      exact ⟨_, .cls x⟩
    · exact ⟨n, .same n h1 h2⟩

/-- The answer for a name of no file. -/
def special (nc : Path → Path) (n : Path) : Res :=
  let f := if n = [] then c!"<string>" else n
  ⟨f, nc f, f⟩

theorem special_iff (n : Path) : startsWith (if n = [] then c!"<string>" else n) ['<'] = true ↔ Special n := by
  unfold Special
  split
  · rename_i h; subst h; simp [startsWith]
  · rename_i h; rw [head_lt]; simp [h]

/-- What a cached answer is. -/
def Ans (nc : Path → Path) (s : St) (k : Path) (x : Res) : Prop :=
  (Special k ∧ x = special nc k) ∨ (¬ Special k ∧ Dict.get s.norm (strip k) = some (x.abs, x.canon) ∧ x.base = basename x.canon)

structure Inv (nc : Path → Path) (s : St) (seen : List World) : Prop where
  world : s.world ∈ seen
  norm : ∀ f v, Dict.get s.norm f = some v → ∃ w ∈ seen, v = compute nc w f
  base : ∀ k x, Dict.get s.base k = some x → bdist k = false → Ans nc s k x

/-- Nothing cached is forgotten or changed. -/
structure Mono (s s' : St) : Prop where
  norm : ∀ k v, Dict.get s.norm k = some v → Dict.get s'.norm k = some v
  base : ∀ k v, Dict.get s.base k = some v → Dict.get s'.base k = some v
  world : s'.world = s.world
  zips : s'.zips = s.zips

theorem mono_refl (s : St) : Mono s s := ⟨fun _ _ h => h, fun _ _ h => h, rfl, rfl⟩

theorem ans_mono {nc : Path → Path} {s s' : St} {k : Path} {x : Res} (m : Mono s s') (h : Ans nc s k x) : Ans nc s' k x := by
  rcases h with h | ⟨h1, h2, h3⟩
  · exact .inl h
  · exact .inr ⟨h1, m.norm _ _ h2, h3⟩

/-- A state and an answer just given, for a name. -/
def Given (nc : Path → Path) (s : St) (n : Path) (x : Res) : Prop :=
  Dict.get s.base n = some x ∨ (Dict.get s.base n = none ∧ Special n ∧ x = special nc n)

theorem absCanonical_spec {nc : Path → Path} {s : St} {seen : List World} (i : Inv nc s seen) (f : Path) :
    Inv nc (absCanonical nc s f).1 seen ∧ Mono s (absCanonical nc s f).1 ∧
    Dict.get (absCanonical nc s f).1.norm f = some (absCanonical nc s f).2 ∧ (absCanonical nc s f).1.base = s.base := by
  unfold absCanonical
  cases h : Dict.get s.norm f with
  | some r => exact ⟨i, mono_refl s, h, rfl⟩
  | none =>
    dsimp only
    have m : Mono s { s with norm := Dict.set s.norm f (compute nc s.world f) } := by
      refine ⟨?_, fun _ _ h => h, rfl, rfl⟩
      intro k v hk
      dsimp only
      rw [Dict.get_set]
      split
      · rename_i he; subst he; rw [h] at hk; cases hk
      · exact hk
    refine ⟨⟨i.world, ?_, ?_⟩, m, ?_, rfl⟩
    · intro g v hg
      dsimp only at hg
      rw [Dict.get_set] at hg
      split at hg
      · rename_i he; subst he; cases hg; exact ⟨s.world, i.world, rfl⟩
      · exact i.norm g v hg
    · intro k x hk hb
      exact ans_mono m (i.base k x hk hb)
    · rw [Dict.get_set, if_pos rfl]

theorem fromFile_spec {nc : Path → Path} {s : St} {seen : List World} (i : Inv nc s seen) (n : Path) :
    Inv nc (fromFile nc s n).1 seen ∧ Mono s (fromFile nc s n).1 ∧ Given nc (fromFile nc s n).1 n (fromFile nc s n).2 := by
  unfold fromFile
  cases h : Dict.get s.base n with
  | some r => exact ⟨i, mono_refl s, .inl h⟩
  | none =>
    dsimp only
    by_cases hs : Special n
    · rw [if_pos ((special_iff n).mpr hs)]
      exact ⟨i, mono_refl s, .inr ⟨h, hs, rfl⟩⟩
    · rw [if_neg (fun h => hs ((special_iff n).mp h))]
      have hn : n ≠ [] := fun h => hs (.inl h)
      rw [if_neg hn]
      obtain ⟨i1, m1, g1, b1⟩ := absCanonical_spec i (strip n)
      generalize absCanonical nc s (strip n) = sac at *
      obtain ⟨s1, ac⟩ := sac
      dsimp only at *
      have m2 : Mono s1 { s1 with base := Dict.set s1.base n ⟨ac.1, ac.2, basename ac.2⟩ } := by
        refine ⟨fun _ _ h => h, ?_, rfl, rfl⟩
        intro k v hk
        dsimp only
        rw [Dict.get_set]
        split
        · rename_i he; subst he; rw [b1, h] at hk; cases hk
        · exact hk
      refine ⟨⟨i1.world, i1.norm, ?_⟩, ⟨fun k v h => m2.norm k v (m1.norm k v h), fun k v h => m2.base k v (m1.base k v h), m1.world, m1.zips⟩, ?_⟩
      · intro k x hk hb
        dsimp only at hk
        rw [Dict.get_set] at hk
        split at hk
        · rename_i he
          subst he
          cases hk
          exact .inr ⟨hs, g1, rfl⟩
        · exact i1.base k x hk hb
      · refine .inl ?_
        dsimp only
        rw [Dict.get_set, if_pos rfl]

theorem special_bdist {n : Path} (h : Special n) : bdist n = false := by
  rcases h with rfl | h
  · decide
  · cases n with
    | nil => cases h
    | cons c n => cases h; simp [bdist, startsWith, List.isPrefixOf]

theorem given_ans {nc : Path → Path} {s : St} {seen : List World} (i : Inv nc s seen) {n : Path} {x : Res} (h : Given nc s n x) (hb : bdist n = false) :
    Ans nc s n x := by
  rcases h with h | ⟨_, h1, h2⟩
  · exact i.base n x h hb
  · exact .inl ⟨h1, h2⟩

theorem fromFrame_spec {nc : Path → Path} {s : St} {seen : List World} (i : Inv nc s seen) (co file : Path) :
    Inv nc (fromFrame nc s co file).1 seen ∧ Mono s (fromFrame nc s co file).1 ∧
    Dict.get (fromFrame nc s co file).1.base co = some (fromFrame nc s co file).2 := by
  unfold fromFrame
  cases h : Dict.get s.base co with
  | some r => exact ⟨i, mono_refl s, h⟩
  | none =>
    dsimp only
    obtain ⟨i1, m1, g1⟩ := fromFile_spec (nc := nc) i (if bdist co = true then file else co)
    generalize fromFile nc s (if bdist co = true then file else co) = sx at *
    obtain ⟨s1, x⟩ := sx
    dsimp only at *
    have hsame : bdist co = false → Given nc s1 co x := by
      intro hb
      rw [hb] at g1
      exact g1
    have m2 : Mono s { s1 with base := Dict.set s1.base co x } := by
      refine ⟨m1.norm, ?_, m1.world, m1.zips⟩
      intro k v hk
      dsimp only
      rw [Dict.get_set]
      split
      · rename_i he
        subst he
        rw [h] at hk; cases hk
      · exact m1.base k v hk
    refine ⟨⟨i1.world, i1.norm, ?_⟩, m2, by rw [Dict.get_set, if_pos rfl]⟩
    intro k y hk hb
    dsimp only at hk
    rw [Dict.get_set] at hk
    split at hk
    · rename_i he
      subst he
      cases hk
      rcases given_ans i1 (hsame hb) hb with h' | h'
      · exact .inl h'
      · exact .inr h'
    · exact i1.base k y hk hb

theorem exists_spec (s : St) (f : Path) : (exists_ s f).1.norm = s.norm ∧ (exists_ s f).1.base = s.base ∧ (exists_ s f).1.world = s.world := by
  unfold exists_
  split
  · exact ⟨rfl, rfl, rfl⟩
  · dsimp only
    generalize (if (!isabs f) = true then relative s.world s.world.abs f else f) = g
    split
    · exact ⟨rfl, rfl, rfl⟩
    · cases marker g with
      | none => exact ⟨rfl, rfl, rfl⟩
      | some i =>
        dsimp only
        cases Dict.get s.zips (archive g i).1 with
        | some names => exact ⟨rfl, rfl, rfl⟩
        | none =>
          dsimp only
          cases s.world.zip (archive g i).1 <;> exact ⟨rfl, rfl, rfl⟩

/-- The invariant of a run. -/
structure RInv (nc : Path → Path) (r : Run) : Prop where
  inv : Inv nc r.st r.seen
  log : ∀ n x, (n, x) ∈ r.log → Given nc r.st n x

theorem given_mono {nc : Path → Path} {s s' : St} {seen : List World} (i' : Inv nc s' seen) (m : Mono s s') {n : Path} {x : Res}
    (h : Given nc s n x) : Given nc s' n x := by
  rcases h with h | ⟨_, h1, h2⟩
  · exact .inl (m.base _ _ h)
  · cases hg : Dict.get s'.base n with
    | none => exact .inr ⟨hg, h1, h2⟩
    | some y =>
      refine .inl ?_
      rw [hg]
      rcases i'.base n y hg (special_bdist h1) with h' | h'
      · rw [h'.2, h2]
      · exact absurd h1 h'.1

theorem rinv_step {nc : Path → Path} {r : Run} (i : RInv nc r) (a : Act) : RInv nc (r.step nc a) := by
  obtain ⟨inv, log⟩ := i
  cases a with
  | world w =>
    refine ⟨⟨List.mem_cons_self .., ?_, inv.base⟩, log⟩
    intro f v h
    obtain ⟨w', hw, hv⟩ := inv.norm f v h
    exact ⟨w', List.mem_cons_of_mem _ hw, hv⟩
  | file n =>
    obtain ⟨i1, m1, g1⟩ := fromFile_spec inv n
    simp only [Run.step]
    refine ⟨i1, ?_⟩
    intro k x hk
    rcases List.mem_cons.mp hk with h | h
    · cases h; exact g1
    · exact given_mono i1 m1 (log k x h)
  | frame co f =>
    obtain ⟨i1, m1, g1⟩ := fromFrame_spec inv co f
    simp only [Run.step]
    refine ⟨i1, ?_⟩
    intro k x hk
    rcases List.mem_cons.mp hk with h | h
    · cases h; exact .inl g1
    · exact given_mono i1 m1 (log k x h)
  | exists_ f =>
    obtain ⟨h1, h2, h3⟩ := exists_spec r.st f
    simp only [Run.step]
    refine ⟨⟨by rw [h3]; exact inv.world, by rw [h1]; exact inv.norm, ?_⟩, ?_⟩
    · rw [h2]
      intro k x hk hb
      have := inv.base k x hk hb
      unfold Ans at *
      rw [h1]
      exact this
    · intro k x hk
      have := log k x hk
      unfold Given at *
      rw [h2]
      exact this

theorem foldl_inv {nc : Path → Path} (acts : List Act) {r : Run} (i : RInv nc r) : RInv nc (acts.foldl (Run.step nc) r) := by
  induction acts generalizing r with
  | nil => exact i
  | cons a rest ih => exact ih (rinv_step i a)

theorem run_inv (nc : Path → Path) (w : World) (acts : List Act) : RInv nc (run nc w acts) := by
  refine foldl_inv acts ⟨⟨List.mem_cons_self .., ?_, ?_⟩, ?_⟩
  · intro f v h; cases h
  · intro k x h; cases h
  · intro n x h; cases h

/-- **C120**: throughout a session, whatever changes meanwhile, a name is always answered in the same way. -/
theorem c120_stable (nc : Path → Path) (w : World) (acts : List Act) (n : Path) (x y : Res) (hx : (n, x) ∈ (run nc w acts).log)
    (hy : (n, y) ∈ (run nc w acts).log) : x = y := by
  have i := run_inv nc w acts
  rcases i.log n x hx with h | ⟨h, _, h2⟩
  · rcases i.log n y hy with h' | ⟨h', _, _⟩
    · rw [h] at h'; cases h'; rfl
    · rw [h] at h'; cases h'
  · rcases i.log n y hy with h' | ⟨_, _, h2'⟩
    · rw [h] at h'; cases h'
    · rw [h2, h2']

/-- **C120**: a compiled file and its source have one answer, whatever changes between the two being looked up. -/
theorem c120_compiled (nc : Path → Path) (w : World) (acts : List Act) (n m f : Path) (x y : Res) (hx : (n, x) ∈ (run nc w acts).log)
    (hy : (m, y) ∈ (run nc w acts).log) (hn : ¬ Special n) (hm : ¬ Special m) (bn : bdist n = false) (bm : bdist m = false)
    (sn : SourceOf n f) (sm : SourceOf m f) : x = y := by
  have i := run_inv nc w acts
  rcases given_ans i.inv (i.log n x hx) bn with h | ⟨_, h1, h2⟩
  · exact absurd h.1 hn
  rcases given_ans i.inv (i.log m y hy) bm with h | ⟨_, h1', h2'⟩
  · exact absurd h.1 hm
  rw [strip_source sn] at h1
  rw [strip_source sm, h1] at h1'
  obtain ⟨xa, xc, xb⟩ := x
  obtain ⟨ya, yc, yb⟩ := y
  dsimp only at *
  cases h1'
  rw [h2, h2']

/-- **C120**: the answer for a file is where the file was at some moment of the session (that of its first use): the path and the canonical path come from there,
and the base name is the last part of the canonical path. -/
theorem c120_value (nc : Path → Path) (w : World) (acts : List Act) (n f : Path) (x : Res) (hx : (n, x) ∈ (run nc w acts).log)
    (hn : ¬ Special n) (bn : bdist n = false) (sn : SourceOf n f) :
    ∃ v ∈ (run nc w acts).seen, ∃ a r, Located v (if v.resolve then v.real else v.abs) f a ∧ Located v v.real f r ∧
      x.abs = fix id a ∧ x.canon = fix nc r ∧ x.base = basename x.canon := by
  have i := run_inv nc w acts
  rcases given_ans i.inv (i.log n x hx) bn with h | ⟨_, h1, h2⟩
  · exact absurd h.1 hn
  rw [strip_source sn] at h1
  obtain ⟨v, hv, he⟩ := i.inv.norm _ _ h1
  have hh := source_head sn hn
  obtain ⟨a, ha, ea⟩ := apply_located v id (if v.resolve then v.real else v.abs) f hh
  obtain ⟨r, hr, er⟩ := apply_located v nc v.real f hh
  unfold compute at he
  injection he with he1 he2
  exact ⟨v, hv, a, r, ha, hr, he1.trans ea, he2.trans er, h2⟩

/-- **C120**: names like `<string>` are answered as they are, and no name as `<string>`. -/
theorem c120_synthetic (nc : Path → Path) (w : World) (acts : List Act) (n : Path) (x : Res) (hx : (n, x) ∈ (run nc w acts).log)
    (hn : Special n) : (n ≠ [] → x = ⟨n, nc n, n⟩) ∧ (n = [] → x = ⟨c!"<string>", nc c!"<string>", c!"<string>"⟩) := by
  have i := run_inv nc w acts
  rcases given_ans i.inv (i.log n x hx) (special_bdist hn) with h | h
  · rw [h.2]
    unfold special
    exact ⟨fun h => by rw [if_neg h], fun h => by rw [if_pos h]⟩
  · exact absurd hn h.1

theorem seen_fixed (nc : Path → Path) (acts : List Act) (h : ∀ v, Act.world v ∉ acts) (r : Run) :
    (acts.foldl (Run.step nc) r).seen = r.seen := by
  induction acts generalizing r with
  | nil => rfl
  | cons a rest ih =>
    rw [List.foldl_cons, ih fun v hv => h v (List.mem_cons_of_mem _ hv)]
    cases a with
    | world v => exact absurd (List.mem_cons_self ..) (h v)
    | file n => rfl
    | frame co f => rfl
    | exists_ f => rfl

/-- **C120** (Linux): while the file system stays as it is, two absolute names have one canonical path exactly if they are of one file, if nothing in its path looks
like an archive but archives. -/
theorem c120_same_file (w : World) (acts : List Act) (still : ∀ v, Act.world v ∉ acts) (n m f g : Path) (x y : Res)
    (hx : (n, x) ∈ (run id w acts).log) (hy : (m, y) ∈ (run id w acts).log) (sn : SourceOf n f) (sm : SourceOf m g)
    (an : isabs n = true) (am : isabs m = true) (kf : Kept (w.real f)) (kg : Kept (w.real g)) : x.canon = y.canon ↔ w.real f = w.real g := by
  have habs : ∀ {n f : Path}, SourceOf n f → isabs n = true → isabs f = true ∧ ¬ Special n ∧ bdist n = false := by
    intro n f hs ha
    have hhead : n.head? = some '/' := by
      cases n with
      | nil => cases ha
      | cons c n => simp [isabs, startsWith] at ha; rw [← ha]; rfl
    refine ⟨?_, ?_, ?_⟩
    · cases hs with
      | pyc x =>
        cases x with
        | nil => exact absurd hhead (by decide)
        | cons c x => cases hhead; simp [isabs, startsWith]
      | cls x =>
        cases x with
        | nil => exact absurd hhead (by decide)
        | cons c x => cases hhead; simp [isabs, startsWith]
      | same _ _ _ => exact ha
    · rintro (rfl | h)
      · cases hhead
      · rw [hhead] at h; exact absurd h (by decide)
    · cases n with
      | nil => rfl
      | cons c n => cases hhead; simp [bdist, startsWith, List.isPrefixOf]
  have hcan : ∀ {n f : Path} {x : Res}, (n, x) ∈ (run id w acts).log → SourceOf n f → isabs n = true → Kept (w.real f) → x.canon = w.real f := by
    intro n f x hx sn an kf
    obtain ⟨a1, a2, a3⟩ := habs sn an
    obtain ⟨v, hv, a, r, _, hr, _, hc, _⟩ := c120_value id w acts n f x hx a2 a3 sn
    unfold run at hv
    rw [seen_fixed id acts still] at hv
    simp only [List.mem_singleton] at hv
    subst hv
    rw [hc]
    rcases hr with ⟨_, hr⟩ | ⟨hr, _⟩
    · rw [hr]; exact (c120_kept_iff _).mpr kf
    · rw [a1] at hr; cases hr
  rw [hcan hx sn an kf, hcan hy sm am kg]

/-! ### Files that exist -/

theorem archive_iff (g z inner : Path) :
    InArchive g z inner ↔ ∃ i, marker g = some i ∧ (archive g i).1 = z ∧ dropSep (archive g i).2 = inner := by
  have hdrop : ∀ t : Path, ∃ sep, t = sep ++ dropSep t ∧
      (sep = ['/'] ∨ sep = ['\\'] ∨ sep = [] ∧ (dropSep t).head? ≠ some '/' ∧ (dropSep t).head? ≠ some '\\') := by
    intro t
    cases t with
    | nil => exact ⟨[], rfl, .inr (.inr ⟨rfl, by decide, by decide⟩)⟩
    | cons c t =>
      by_cases h1 : c = '/'
      · subst h1; exact ⟨['/'], by simp [dropSep, startsWith], .inl rfl⟩
      · by_cases h2 : c = '\\'
        · subst h2; exact ⟨['\\'], by simp [dropSep, startsWith], .inr (.inl rfl)⟩
        · have : dropSep (c :: t) = c :: t := by simp [dropSep, startsWith, Ne.symm h1, Ne.symm h2]
          rw [this]
          exact ⟨[], rfl, .inr (.inr ⟨rfl, by simpa using h1, by simpa using h2⟩)⟩
  have hdrop' : ∀ (t sep inner : Path), t = sep ++ inner →
      (sep = ['/'] ∨ sep = ['\\'] ∨ sep = [] ∧ inner.head? ≠ some '/' ∧ inner.head? ≠ some '\\') → dropSep t = inner := by
    rintro t sep inner rfl (rfl | rfl | ⟨rfl, h1, h2⟩)
    · simp [dropSep, startsWith]
    · simp [dropSep, startsWith]
    · cases inner with
      | nil => rfl
      | cons c inner =>
        have h1 : c ≠ '/' := by simpa using h1
        have h2 : c ≠ '\\' := by simpa using h2
        simp [dropSep, startsWith, Ne.symm h1, Ne.symm h2]
  have hbang : ∀ t : Path, startsWith t ['!'] = true ↔ t.head? = some '!' := by
    intro t
    cases t with
    | nil => simp [startsWith]
    | cons c t =>
      simp [startsWith]
      exact ⟨fun h => h.symm, fun h => h.symm⟩
  constructor
  · rintro ⟨i, t, sep, hf, ht, hsep, hs⟩
    refine ⟨i, marker_some hf, ?_⟩
    unfold archive
    dsimp only
    rcases ht with ⟨h1, h2, h3⟩ | ⟨h1, h2⟩
    · rw [← h1, if_neg (by rw [hbang]; exact h3)]
      exact ⟨h2.symm, hdrop' t sep inner hsep hs⟩
    · rw [← h1, if_pos (by rw [hbang]; rfl)]
      exact ⟨h2.symm, hdrop' t sep inner hsep hs⟩
  · rintro ⟨i, hm, h1, h2⟩
    unfold archive at h1 h2
    dsimp only at h1 h2
    by_cases hb : startsWith (g.drop (i + 4)) ['!'] = true
    · rw [if_pos hb] at h1 h2
      obtain ⟨sep, hsep, hs⟩ := hdrop ((g.drop (i + 4)).drop 1)
      refine ⟨i, (g.drop (i + 4)).drop 1, sep, marker_first hm, .inr ⟨?_, h1.symm⟩, ?_, ?_⟩
      · rw [hbang] at hb
        generalize g.drop (i + 4) = t at *
        cases t with
        | nil => cases hb
        | cons c t => cases hb; rfl
      · rw [← h2]; exact hsep
      · rw [← h2]; exact hs
    · rw [if_neg hb] at h1 h2
      obtain ⟨sep, hsep, hs⟩ := hdrop (g.drop (i + 4))
      rw [hbang] at hb
      refine ⟨i, g.drop (i + 4), sep, marker_first hm, .inl ⟨rfl, h1.symm, hb⟩, ?_, ?_⟩
      · rw [← h2]; exact hsep
      · rw [← h2]; exact hs

/-- What is remembered of archives is what is in them. -/
def ZipOk (s : St) : Prop := ∀ z names, Dict.get s.zips z = some names → s.world.zip z = some names

theorem exists_iff {s : St} (ok : ZipOk s) (f : Path) : ((exists_ s f).2 = true ↔ Exists s.world f) ∧ ZipOk (exists_ s f).1 := by
  unfold exists_
  by_cases he : s.world.ex f = true
  · rw [if_pos he]
    exact ⟨⟨fun _ => .inl he, fun _ => rfl⟩, ok⟩
  · rw [if_neg he]
    have hg : ∃ g, g = (if (!isabs f) = true then relative s.world s.world.abs f else f) ∧
        (isabs f = true ∧ g = f ∨ isabs f = false ∧ InPath s.world s.world.abs f g) := by
      refine ⟨_, rfl, ?_⟩
      cases ha : isabs f with
      | true => exact .inl ⟨rfl, by simp⟩
      | false => exact .inr ⟨rfl, by simpa using relative_in s.world s.world.abs f⟩
    obtain ⟨g, hgd, hgp⟩ := hg
    dsimp only
    rw [← hgd]
    have huniq : ∀ g', (isabs f = true ∧ g' = f ∨ isabs f = false ∧ InPath s.world s.world.abs f g') → g' = g := by
      intro g' h'
      rcases hgp with ⟨h1, h2⟩ | ⟨h1, h2⟩
      · rcases h' with ⟨_, h2'⟩ | ⟨h1', _⟩
        · rw [h2, h2']
        · rw [h1] at h1'; cases h1'
      · rcases h' with ⟨h1', _⟩ | ⟨_, h2'⟩
        · rw [h1] at h1'; cases h1'
        · exact inPath_unique h2' h2
    have hspec : Exists s.world f ↔ ((isabs f = false ∧ s.world.ex g = true) ∨
        ∃ z inner names, InArchive g z inner ∧ s.world.zip z = some names ∧ (inner.map fun c => if c = '\\' then '/' else c) ∈ names) := by
      constructor
      · rintro (h | ⟨g', h1, h2⟩)
        · exact absurd h he
        · rw [huniq g' h1] at h2; exact h2
      · exact fun h => .inr ⟨g, hgp, h⟩
    rw [hspec]
    by_cases hr : (!isabs f && s.world.ex g) = true
    · rw [if_pos hr]
      refine ⟨⟨fun _ => .inl ?_, fun _ => rfl⟩, ok⟩
      simpa using hr
    · rw [if_neg hr]
      have hr' : ¬ (isabs f = false ∧ s.world.ex g = true) := by simpa using hr
      cases hm : marker g with
      | none =>
        refine ⟨⟨fun h => (by cases h), ?_⟩, ok⟩
        rintro (h | ⟨z, inner, names, h1, _, _⟩)
        · exact absurd h hr'
        · obtain ⟨i, h, _⟩ := (archive_iff g z inner).mp h1
          rw [hm] at h; cases h
      | some i =>
        dsimp only
        have hin : ∀ z inner, InArchive g z inner ↔ (archive g i).1 = z ∧ dropSep (archive g i).2 = inner := by
          intro z inner
          rw [archive_iff]
          constructor
          · rintro ⟨j, h, h'⟩; rw [hm] at h; cases h; exact h'
          · exact fun h => ⟨i, hm, h⟩
        have hs2 : ((isabs f = false ∧ s.world.ex g = true) ∨
            ∃ z inner names, InArchive g z inner ∧ s.world.zip z = some names ∧ (inner.map fun c => if c = '\\' then '/' else c) ∈ names) ↔
            ∃ names, s.world.zip (archive g i).1 = some names ∧ ((dropSep (archive g i).2).map fun c => if c = '\\' then '/' else c) ∈ names := by
          constructor
          · rintro (h | ⟨z, inner, names, h1, h2, h3⟩)
            · exact absurd h hr'
            · obtain ⟨rfl, rfl⟩ := (hin z inner).mp h1
              exact ⟨names, h2, h3⟩
          · rintro ⟨names, h2, h3⟩
            exact .inr ⟨_, _, names, (hin _ _).mpr ⟨rfl, rfl⟩, h2, h3⟩
        rw [hs2]
        cases hz : Dict.get s.zips (archive g i).1 with
        | some names =>
          refine ⟨?_, ok⟩
          rw [ok _ _ hz]
          simp
        | none =>
          dsimp only
          cases hw : s.world.zip (archive g i).1 with
          | none => exact ⟨⟨fun h => (by cases h), fun ⟨_, h, _⟩ => (by cases h)⟩, ok⟩
          | some names =>
            refine ⟨by simp, ?_⟩
            intro z ns hzn
            dsimp only at hzn ⊢
            rw [Dict.get_set] at hzn
            split at hzn
            · rename_i h; subst h; cases hzn; exact hw
            · exact ok z ns hzn

theorem fromFile_zips (nc : Path → Path) (s : St) (n : Path) : (fromFile nc s n).1.zips = s.zips ∧ (fromFile nc s n).1.world = s.world := by
  unfold fromFile
  cases Dict.get s.base n with
  | some r => exact ⟨rfl, rfl⟩
  | none =>
    dsimp only
    generalize (if n = [] then c!"<string>" else n) = f
    split
    · exact ⟨rfl, rfl⟩
    · unfold absCanonical
      cases Dict.get s.norm (strip f) <;> exact ⟨rfl, rfl⟩

theorem fromFrame_zips (nc : Path → Path) (s : St) (co file : Path) :
    (fromFrame nc s co file).1.zips = s.zips ∧ (fromFrame nc s co file).1.world = s.world := by
  unfold fromFrame
  cases Dict.get s.base co with
  | some r => exact ⟨rfl, rfl⟩
  | none => exact fromFile_zips nc s _

/-- **C120**: while the file system stays as it is, whether a file exists is answered rightly: that it does, or is found from `sys.path`, or is in an archive. -/
theorem c120_exists (nc : Path → Path) (w : World) (acts : List Act) (still : ∀ v, Act.world v ∉ acts) (f : Path) (b : Bool)
    (h : (f, b) ∈ (run nc w acts).elog) : b = true ↔ Exists w f := by
  have key : ∀ (acts : List Act) (r : Run), (∀ v, Act.world v ∉ acts) → ZipOk r.st → r.st.world = w → (∀ f b, (f, b) ∈ r.elog → (b = true ↔ Exists w f)) →
      ∀ f b, (f, b) ∈ (acts.foldl (Run.step nc) r).elog → (b = true ↔ Exists w f) := by
    intro acts
    induction acts with
    | nil => intro r _ _ _ h; exact h
    | cons a rest ih =>
      intro r hs ok hw hl
      rw [List.foldl_cons]
      refine ih _ (fun v hv => hs v (List.mem_cons_of_mem _ hv)) ?_ ?_ ?_
      · cases a with
        | world v => exact absurd (List.mem_cons_self ..) (hs v)
        | file n =>
          obtain ⟨h1, h2⟩ := fromFile_zips nc r.st n
          simp only [Run.step]
          unfold ZipOk
          rw [h1, h2]; exact ok
        | frame co g =>
          obtain ⟨h1, h2⟩ := fromFrame_zips nc r.st co g
          simp only [Run.step]
          unfold ZipOk
          rw [h1, h2]; exact ok
        | exists_ g => exact (exists_iff ok g).2
      · cases a with
        | world v => exact absurd (List.mem_cons_self ..) (hs v)
        | file n => exact (fromFile_zips nc r.st n).2.trans hw
        | frame co g => exact (fromFrame_zips nc r.st co g).2.trans hw
        | exists_ g => exact (exists_spec r.st g).2.2.trans hw
      · cases a with
        | world v => exact absurd (List.mem_cons_self ..) (hs v)
        | file n => exact hl
        | frame co g => exact hl
        | exists_ g =>
          intro f b hfb
          simp only [Run.step] at hfb
          rcases List.mem_cons.mp hfb with h | h
          · cases h
            rw [← hw]
            exact (exists_iff ok g).1
          · exact hl f b h
  exact key acts _ still (fun z names h => (by cases h)) rfl (fun f b h => (by cases h)) f b h

/-- **C120**: the base name is what follows the last separator. -/
theorem c120_base (p : Path) : '/' ∉ basename p ∧ ∃ dir, p = dir ++ basename p ∧ (dir = [] ∨ dir.getLast? = some '/') := by
  unfold basename
  have hsplit : p = (p.reverse.dropWhile (· ≠ '/')).reverse ++ (p.reverse.takeWhile (· ≠ '/')).reverse := by
    rw [← List.reverse_append, List.takeWhile_append_dropWhile, List.reverse_reverse]
  refine ⟨?_, _, hsplit, ?_⟩
  · rw [List.mem_reverse]
    intro h
    have : ∀ l : Path, '/' ∉ l.takeWhile (· ≠ '/') := by
      intro l
      induction l with
      | nil => simp
      | cons c l ih =>
        rw [List.takeWhile_cons]
        split
        · rename_i hc
          rw [List.mem_cons]
          rintro (h | h)
          · subst h; simp at hc
          · exact ih h
        · simp
    exact this _ h
  · rw [List.getLast?_reverse]
    have : ∀ l : Path, l.dropWhile (· ≠ '/') = [] ∨ (l.dropWhile (· ≠ '/')).head? = some '/' := by
      intro l
      induction l with
      | nil => exact .inl rfl
      | cons c l ih =>
        rw [List.dropWhile_cons]
        split
        · exact ih
        · rename_i hc
          refine .inr ?_
          have : c = '/' := by simpa using hc
          rw [this]; rfl
    rcases this p.reverse with h | h
    · rw [h]; exact .inl rfl
    · exact .inr h

/-! ### Examples and witnesses -/

def w1 : World where
  abs p := if isabs p then p else join c!"/cwd" p
  real p := if p = c!"/link.py" then c!"/a/m.py" else if isabs p then p else join c!"/cwd" p
  ex p := [c!"/a/m.py", c!"/lib/sub/x.py", c!"/a/z.zip"].contains p
  sysPath := [c!"/a", c!"/lib"]
  lib := c!"/site"
  resolve := false
  zip z := if z = c!"/a/z.zip" then some [c!"in/y.py"] else none

def acts1 : List Act := [.file c!"/link.py", .frame c!"/a/m.pyc" [], .file c!"sub/x.py", .file c!"<string>", .exists_ c!"/a/z.zip/in\\y.py", .exists_ c!"/a/z.zip!/in/q.py",
  .file c!"nowhere.py", .file c!"/a/z.zip/in/y.py"]

theorem c120_example : (run id w1 acts1).log =
    [(c!"/a/z.zip/in/y.py", ⟨c!"/a/z.zip/in/y.py", c!"/a/z.zip/in/y.py", c!"y.py"⟩), (c!"nowhere.py", ⟨c!"/site/nowhere.py", c!"/site/nowhere.py", c!"nowhere.py"⟩),
      (c!"<string>", ⟨c!"<string>", c!"<string>", c!"<string>"⟩), (c!"sub/x.py", ⟨c!"/lib/sub/x.py", c!"/lib/sub/x.py", c!"x.py"⟩),
      (c!"/a/m.pyc", ⟨c!"/a/m.py", c!"/a/m.py", c!"m.py"⟩), (c!"/link.py", ⟨c!"/link.py", c!"/a/m.py", c!"m.py"⟩)] ∧
    (run id w1 acts1).elog = [(c!"/a/z.zip!/in/q.py", false), (c!"/a/z.zip/in\\y.py", true)] := by decide +kernel

example : (∀ v, Act.world v ∉ acts1) ∧ Kept c!"/a/z.zip/in/y.py" ∧ Kept c!"/a/m.py" ∧ SourceOf c!"/a/m.pyc" c!"/a/m.py" := by
  refine ⟨?_, (c120_kept_iff _).mp (by decide +kernel), (c120_kept_iff _).mp (by decide +kernel), .pyc c!"/a/m"⟩
  intro v h
  simp [acts1] at h

/-- A directory whose name begins like that of an archive, such as the `.eggs` of setuptools: another name is made of a path in it, and two files may get one. -/
theorem c120_eggs_witness : fix id c!"/p/.eggs/m.py" = c!"/p/.egg/s/m.py" ∧ fix id c!"/p/.eggs/m.py" = fix id c!"/p/.egg/s/m.py" ∧
    fix id c!"/p/a.zip.py" = c!"/p/a.zip/.py" := by decide +kernel

/-- An archive is read once: a file added to it later does not exist for the debugger. -/
theorem c120_zip_witness : (run id w1 [.exists_ c!"/a/z.zip/new.py", .world { w1 with zip := fun _ => some [c!"new.py"] }, .exists_ c!"/a/z.zip/new.py"]).elog =
    [(c!"/a/z.zip/new.py", false), (c!"/a/z.zip/new.py", false)] := by decide +kernel

/-- A relative name keeps the directory in which it was first used: after `os.chdir`, another file of that name is taken for the first. -/
theorem c120_chdir_witness : ((run id { w1 with ex := fun _ => true } [.file c!"m.py",
      .world { w1 with ex := fun _ => true, real := fun p => join c!"/other" p, abs := fun p => join c!"/other" p }, .file c!"m.py"]).log.map (·.2.canon)) =
    [c!"/cwd/m.py", c!"/cwd/m.py"] := by decide +kernel

/-- That symbolic links be resolved, asked for after a file was used, has no effect on that file. -/
theorem c120_resolve_witness : ((run id w1 [.file c!"/link.py", .world { w1 with resolve := true }, .file c!"/link.py"]).log.map (·.2.abs)) =
    [c!"/link.py", c!"/link.py"] ∧ ((run id { w1 with resolve := true } [.file c!"/link.py"]).log.map (·.2.abs)) = [c!"/a/m.py"] := by decide +kernel

end Canonical
