import Verif.FsNotify.Spec

namespace FsNotify

open Spec

/-! ### Paths -/

theorem join_plain {d : Str} (h : Plain d) (n : Str) : join d n = child d n := by
  unfold join child Plain at *
  rw [if_neg h]

theorem plain_child {d n : Str} (h : n ≠ []) (hs : '/' ∉ n) : Plain (child d n) := by
  unfold Plain child
  rw [List.getLast?_append]
  cases n with
  | nil => exact absurd rfl h
  | cons a n =>
    rw [List.getLast?_cons_cons]
    intro hx
    have : '/' ∈ a :: n := by
      cases hl : (a :: n).getLast? with
      | none => simp at hl
      | some y =>
        rw [hl] at hx
        have : y = '/' := by simpa using hx
        rw [← this]
        exact List.mem_of_getLast? hl
    exact hs this

theorem examined_mem {c : Cfg} {fs : FS} {d : Str} {e : Entry} (h : Examined c fs d e) : ∃ es, fs d = some es ∧ e ∈ es := by
  obtain ⟨l, l', h, _⟩ := h
  exact ⟨_, h, by simp⟩

theorem examined_name {c : Cfg} {fs : FS} (ht : Tree fs) {d : Str} {e : Entry} (h : Examined c fs d e) : e.name ≠ [] ∧ '/' ∉ e.name := by
  obtain ⟨es, h1, h2⟩ := examined_mem h
  exact (ht d es h1).2 e h2

theorem reach_plain {c : Cfg} {fs : FS} (ht : Tree fs) {n : Nat} {r d : Str} (h : Reach c fs n r d) (hr : Plain r) : Plain d := by
  induction h with
  | root => exact hr
  | sub n r d name h1 h2 h3 =>
    have := examined_name ht h2
    exact plain_child this.1 this.2

theorem reach_prefix {c : Cfg} {fs : FS} {n : Nat} {r d : Str} (h : Reach c fs n r d) : child r [] <+: child d [] := by
  induction h with
  | root => exact List.prefix_refl _
  | sub n r d name _ _ _ ih =>
    refine ih.trans ?_
    exact ⟨name ++ ['/'], by simp [child]⟩

theorem reach_count {c : Cfg} {fs : FS} (ht : Tree fs) {n : Nat} {r d : Str} (h : Reach c fs n r d) :
    d.count '/' = r.count '/' + n := by
  induction h with
  | root => rfl
  | sub n r d name _ h2 _ ih =>
    have := (examined_name ht h2).2
    have h0 : List.count '/' name = 0 := List.count_eq_zero.2 this
    simp only [child, List.count_append, List.count_cons_self, h0, ih]
    omega

theorem reach_trans {c : Cfg} {fs : FS} {n m : Nat} {a b d : Str} (h1 : Reach c fs n a b) (h2 : Reach c fs m b d) :
    Reach c fs (n + m) a d := by
  induction h2 with
  | root => exact h1
  | sub m r d name _ h3 h4 ih => exact .sub (n + m) a d name (ih h1) h3 h4

theorem first_unique {a b y : Str} (ha : '/' ∉ a) (hb : '/' ∉ b) (h1 : a ++ ['/'] <+: y) (h2 : b ++ ['/'] <+: y) : a = b := by
  have key : ∀ a : Str, '/' ∉ a → a ++ ['/'] <+: y → y.takeWhile (· != '/') = a := by
    intro a ha h
    obtain ⟨t, rfl⟩ := h
    rw [List.append_assoc, List.takeWhile_append_of_pos]
    · simp
    · intro x hx
      simp only [bne_iff_ne, ne_eq]
      rintro rfl
      exact ha hx
  rw [← key a ha h1, ← key b hb h2]

theorem child_inj {d d' n n' : Str} (hn : '/' ∉ n) (hn' : '/' ∉ n') (h : child d n = child d' n') : d = d' ∧ n = n' := by
  have h := congrArg List.reverse h
  simp only [child, List.reverse_append, List.reverse_cons, List.append_assoc, List.cons_append, List.nil_append] at h
  have key : n.reverse = n'.reverse := by
    refine first_unique (y := n.reverse ++ '/' :: d.reverse) (by simpa using hn) (by simpa using hn') ⟨d.reverse, by simp⟩ ?_
    rw [h]
    exact ⟨d'.reverse, by simp⟩
  rw [key] at h
  have h := List.append_cancel_left h
  exact ⟨by simpa using h, by simpa using key⟩

/-- a directory is below one entry only -/
theorem one_child {c : Cfg} {fs : FS} {n m : Nat} {d a b x : Str} (ha : '/' ∉ a) (hb : '/' ∉ b)
    (h1 : Reach c fs n (child d a) x) (h2 : Reach c fs m (child d b) x) : a = b := by
  have h1 := reach_prefix h1
  have h2 := reach_prefix h2
  obtain ⟨t, ht⟩ := h1
  obtain ⟨u, hu⟩ := h2
  simp only [child] at ht hu
  rw [← hu] at ht
  simp only [List.append_assoc] at ht
  have ht := List.append_cancel_left ht
  simp only [List.cons_append, List.nil_append, List.cons.injEq, true_and] at ht
  refine first_unique (y := a ++ '/' :: t) ha hb ⟨t, by simp⟩ ?_
  rw [ht]
  exact ⟨u, by simp⟩

/-! ### What is visited -/

/-- all watched directories less than `k` levels below `d` are in `V` -/
def Closed (c : Cfg) (fs : FS) (V : List Str) : Nat → Str → Prop
  | 0, _ => True
  | k + 1, d => d ∈ V ∧ ∀ name, Examined c fs d ⟨name, .dir⟩ → c.acceptDir (child d name) = true → Closed c fs V k (child d name)

theorem closed_mono {c : Cfg} {fs : FS} {V V' : List Str} (h : ∀ x ∈ V, x ∈ V') {k : Nat} {d : Str} (hc : Closed c fs V k d) :
    Closed c fs V' k d := by
  induction k generalizing d with
  | zero => trivial
  | succ k ih => exact ⟨h d hc.1, fun name h1 h2 => ih (hc.2 name h1 h2)⟩

theorem closed_less {c : Cfg} {fs : FS} {V : List Str} {k j : Nat} {d : Str} (hj : j ≤ k) (hc : Closed c fs V k d) :
    Closed c fs V j d := by
  induction j generalizing k d with
  | zero => trivial
  | succ j ih =>
    cases k with
    | zero => omega
    | succ k => exact ⟨hc.1, fun name h1 h2 => ih (by omega) (hc.2 name h1 h2)⟩

theorem closed_reach {c : Cfg} {fs : FS} {V : List Str} {k : Nat} {d : Str} (hc : Closed c fs V k d) {n : Nat} {x : Str}
    (h : Reach c fs n d x) (hn : n < k) : Closed c fs V (k - n) x := by
  induction h with
  | root => exact hc
  | sub n r d name h1 h2 h3 ih =>
    have := ih hc (by omega)
    obtain ⟨j, hj⟩ : ∃ j, k - n = j + 1 := ⟨k - n - 1, by omega⟩
    rw [hj] at this
    have h4 : k - (n + 1) = j := by omega
    rw [h4]
    exact this.2 name h2 h3

theorem reach_cons {c : Cfg} {fs : FS} {n : Nat} {d name x : Str} (h2 : Examined c fs d ⟨name, .dir⟩)
    (h3 : c.acceptDir (child d name) = true) (h : Reach c fs n (child d name) x) : Reach c fs (n + 1) d x := by
  have := reach_trans (.sub 0 d d name (.root d) h2 h3) h
  rw [Nat.add_comm] at this
  exact this

/-- nothing below: closed to any depth -/
theorem closed_all {c : Cfg} {fs : FS} {V : List Str} {k : Nat} {d : Str} (hc : Closed c fs V k d)
    (hno : ∀ x, ¬ Reach c fs k d x) (j : Nat) : Closed c fs V j d := by
  induction k generalizing d j with
  | zero => exact absurd (.root d) (hno d)
  | succ k ih =>
    cases j with
    | zero => trivial
    | succ j => exact ⟨hc.1, fun name h1 h2 => ih (hc.2 name h1 h2) (fun x hx => hno x (reach_cons h1 h2 hx)) j⟩

/-! ### The walk: the directories and files in order -/

def walkEntries (c : Cfg) (sub : Str → List Str → List Str × List (Str × Stat)) (d : Str) :
    List Entry → List Str → List Str × List (Str × Stat)
  | [], V => (V, [])
  | e :: es, V =>
    match e.kind with
    | .unknown => (V, [])
    | .dir =>
      if c.acceptDir (join d e.name) then
        let r := sub (join d e.name) V
        let r' := walkEntries c sub d es r.1
        (r'.1, r.2 ++ r'.2)
      else walkEntries c sub d es V
    | .file s =>
      if c.acceptFile (join d e.name) then
        match s with
        | none => (V, [])
        | some s => let r := walkEntries c sub d es V; (r.1, (join d e.name, s) :: r.2)
      else walkEntries c sub d es V

def walk (c : Cfg) (fs : FS) : Nat → Str → List Str → List Str × List (Str × Stat)
  | 0, _, V => (V, [])
  | k + 1, d, V =>
    if d ∈ V then (V, [])
    else
      match fs d with
      | none => (d :: V, [])
      | some es => walkEntries c (walk c fs k) d es (d :: V)

def recordAll (st : St) (l : List (Str × Stat)) : St := l.foldl (fun st e => record st e.1 e.2) st

theorem recordAll_visited (st : St) (V : List Str) (l : List (Str × Stat)) :
    recordAll { st with visited := V } l = { recordAll st l with visited := V } := by
  induction l generalizing st with
  | nil => rfl
  | cons e l ih => exact ih (record st e.1 e.2)

theorem recordAll_visited' (st : St) (l : List (Str × Stat)) : (recordAll st l).visited = st.visited := by
  induction l generalizing st with
  | nil => rfl
  | cons e l ih => exact ih (record st e.1 e.2)

theorem entries_walk (c : Cfg) (sub : Str → St → St) (wsub : Str → List Str → List Str × List (Str × Stat))
    (hsub : ∀ d st, sub d st = { recordAll st (wsub d st.visited).2 with visited := (wsub d st.visited).1 })
    (d : Str) (es : List Entry) (st : St) :
    entries c sub d es st =
      { recordAll st (walkEntries c wsub d es st.visited).2 with visited := (walkEntries c wsub d es st.visited).1 } := by
  induction es generalizing st with
  | nil => rfl
  | cons e es ih =>
    unfold entries walkEntries
    cases e.kind with
    | unknown => rfl
    | dir =>
      simp only
      split
      · rw [ih, hsub]
        simp only [recordAll_visited]
        simp only [recordAll, List.foldl_append]
      · exact ih st
    | file s =>
      simp only
      split
      · cases s with
        | none => rfl
        | some s => exact ih (record st (join d e.name) s)
      · exact ih st

theorem checkDir_walk (c : Cfg) (fs : FS) (k : Nat) (d : Str) (st : St) :
    checkDir c fs k d st = { recordAll st (walk c fs k d st.visited).2 with visited := (walk c fs k d st.visited).1 } := by
  induction k generalizing d st with
  | zero => rfl
  | succ k ih =>
    unfold checkDir walk
    split
    · rfl
    · cases fs d with
      | none => rfl
      | some es =>
        simp only
        rw [entries_walk c _ (walk c fs k) (fun d st => ih d st)]
        simp only [recordAll_visited]

/-- what a walk does -/
structure Walked (c : Cfg) (fs : FS) (V : List Str) (r : List Str × List (Str × Stat)) (news : List Str) : Prop where
  eq : r.1 = news ++ V
  fresh : ∀ x ∈ news, x ∉ V
  files : ∀ p s, (p, s) ∈ r.2 ↔ ∃ x ∈ news, FileIn c fs x p s
  once : (r.2.map (·.1)).Nodup

theorem fileIn_inj {c : Cfg} {fs : FS} (ht : Tree fs) {d d' p : Str} {s s' : Stat} (h : FileIn c fs d p s) (h' : FileIn c fs d' p s') :
    d = d' := by
  obtain ⟨n, h1, h2, _⟩ := h
  obtain ⟨n', h1', h2', _⟩ := h'
  exact (child_inj (examined_name ht h1).2 (examined_name ht h1').2 (h2.symm.trans h2')).1

/-- two walks, one after the other -/
theorem nodup_append_files {c : Cfg} {fs : FS} (ht : Tree fs) {l l' : List (Str × Stat)} {D D' : List Str}
    (h : (l.map (·.1)).Nodup) (h' : (l'.map (·.1)).Nodup) (hl : ∀ p s, (p, s) ∈ l → ∃ x ∈ D, FileIn c fs x p s)
    (hl' : ∀ p s, (p, s) ∈ l' → ∃ x ∈ D', FileIn c fs x p s) (hd : ∀ x ∈ D, x ∉ D') : ((l ++ l').map (·.1)).Nodup := by
  rw [List.map_append, List.nodup_append]
  refine ⟨h, h', ?_⟩
  intro a ha b hb hab
  subst hab
  obtain ⟨⟨p, s⟩, h1, rfl⟩ := List.mem_map.1 ha
  obtain ⟨⟨p', s'⟩, h2, h3⟩ := List.mem_map.1 hb
  simp only at h3
  subst h3
  obtain ⟨x, hx, hx'⟩ := hl _ _ h1
  obtain ⟨y, hy, hy'⟩ := hl' _ _ h2
  have := fileIn_inj ht hx' hy'
  subst this
  exact hd x hx hy

/-- `e` and the entries of `es` before it can be examined -/
def ExIn (c : Cfg) (d : Str) (es : List Entry) (e : Entry) : Prop :=
  ∃ l l', es = l ++ e :: l' ∧ ∀ x ∈ l ++ [e], Examinable c d x

theorem exIn_nil {c : Cfg} {d : Str} {e : Entry} : ¬ ExIn c d [] e := by
  rintro ⟨l, l', h, _⟩
  cases l <;> cases h

theorem exIn_cons {c : Cfg} {d : Str} {x e : Entry} {es : List Entry} :
    ExIn c d (x :: es) e ↔ Examinable c d x ∧ (e = x ∨ ExIn c d es e) := by
  constructor
  · rintro ⟨l, l', h, hl⟩
    cases l with
    | nil =>
      simp only [List.nil_append, List.cons.injEq] at h
      obtain ⟨rfl, rfl⟩ := h
      exact ⟨hl _ (by simp), .inl rfl⟩
    | cons y l =>
      simp only [List.cons_append, List.cons.injEq] at h
      obtain ⟨rfl, rfl⟩ := h
      exact ⟨hl _ (by simp), .inr ⟨l, l', rfl, fun z hz => hl z (by simp at hz ⊢; exact .inr hz)⟩⟩
  · rintro ⟨hx, rfl | ⟨l, l', rfl, hl⟩⟩
    · exact ⟨[], es, rfl, by simpa using hx⟩
    · refine ⟨x :: l, l', rfl, ?_⟩
      intro z hz
      simp only [List.cons_append, List.mem_cons] at hz
      rcases hz with rfl | hz
      · exact hx
      · exact hl z hz

theorem exIn_mem {c : Cfg} {d : Str} {e : Entry} {es : List Entry} (h : ExIn c d es e) : e ∈ es := by
  obtain ⟨l, l', rfl, _⟩ := h
  simp

theorem examined_iff {c : Cfg} {fs : FS} {d : Str} {e : Entry} {es : List Entry} (h : fs d = some es) :
    Examined c fs d e ↔ ExIn c d es e := by
  constructor
  · rintro ⟨l, l', h', hl⟩
    rw [h] at h'
    exact ⟨l, l', Option.some.inj h', hl⟩
  · rintro ⟨l, l', rfl, hl⟩
    exact ⟨l, l', h, hl⟩

/-- where a walk may find directories visited before -/
def Pre (c : Cfg) (fs : FS) (V : List Str) (k : Nat) (d : Str) : Prop :=
  ∀ x n, Reach c fs n d x → n < k → x ∈ V → Closed c fs V (k - n) x

structure Walk (c : Cfg) (fs : FS) (k : Nat) (d : Str) (V : List Str) (r : List Str × List (Str × Stat)) (news : List Str) : Prop
    extends Walked c fs V r news where
  reach : ∀ x ∈ news, ∃ n, n < k ∧ Reach c fs n d x
  closed : Pre c fs V k d → Closed c fs r.1 k d

/-- an accepted file of the listing `es` -/
def Own (c : Cfg) (d : Str) (es : List Entry) (p : Str) (s : Stat) : Prop :=
  ∃ name, ExIn c d es ⟨name, .file (some s)⟩ ∧ p = child d name ∧ c.acceptFile p = true

/-- an accepted directory of the listing `es` -/
def Sub (c : Cfg) (d : Str) (es : List Entry) (name : Str) : Prop :=
  ExIn c d es ⟨name, .dir⟩ ∧ c.acceptDir (child d name) = true

structure WalkE (c : Cfg) (fs : FS) (k : Nat) (d : Str) (es : List Entry) (V : List Str) (r : List Str × List (Str × Stat))
    (news : List Str) : Prop where
  eq : r.1 = news ++ V
  fresh : ∀ x ∈ news, x ∉ V
  files : ∀ p s, (p, s) ∈ r.2 ↔ Own c d es p s ∨ ∃ x ∈ news, FileIn c fs x p s
  once : (r.2.map (·.1)).Nodup
  reach : ∀ x ∈ news, ∃ name, Sub c d es name ∧ ∃ n, n < k ∧ Reach c fs n (child d name) x
  closed : (∀ name, Sub c d es name → Pre c fs V k (child d name)) → ∀ name, Sub c d es name → Closed c fs r.1 k (child d name)

theorem own_fileIn {c : Cfg} {fs : FS} {d : Str} {es : List Entry} (hex : ∀ x, ExIn c d es x → Examined c fs d x) {p : Str} {s : Stat}
    (h : Own c d es p s) : FileIn c fs d p s := by
  obtain ⟨name, h1, h2, h3⟩ := h
  exact ⟨name, hex _ h1, h2, h3⟩

/-- an entry that adds nothing -/
theorem walkE_skip {c : Cfg} {fs : FS} {k : Nat} {d : Str} {e : Entry} {es : List Entry} {V : List Str}
    {r : List Str × List (Str × Stat)} {news : List Str} (h : WalkE c fs k d es V r news) (hx : Examinable c d e)
    (hf : ∀ s, e.kind = .file (some s) → c.acceptFile (child d e.name) = false)
    (hd : e.kind = .dir → c.acceptDir (child d e.name) = false) : WalkE c fs k d (e :: es) V r news := by
  have hown : ∀ p s, Own c d (e :: es) p s ↔ Own c d es p s := by
    intro p s
    constructor
    · rintro ⟨name, h1, h2, h3⟩
      rcases (exIn_cons.1 h1).2 with rfl | h4
      · have := hf s rfl
        rw [h2, this] at h3
        cases h3
      · exact ⟨name, h4, h2, h3⟩
    · rintro ⟨name, h1, h2, h3⟩
      exact ⟨name, exIn_cons.2 ⟨hx, .inr h1⟩, h2, h3⟩
  have hsub : ∀ name, Sub c d (e :: es) name ↔ Sub c d es name := by
    intro name
    constructor
    · rintro ⟨h1, h2⟩
      rcases (exIn_cons.1 h1).2 with rfl | h4
      · have := hd rfl
        rw [this] at h2
        cases h2
      · exact ⟨h4, h2⟩
    · rintro ⟨h1, h2⟩
      exact ⟨exIn_cons.2 ⟨hx, .inr h1⟩, h2⟩
  exact ⟨h.eq, h.fresh, fun p s => by rw [hown]; exact h.files p s, h.once,
    fun x hx => by obtain ⟨name, h1, h2⟩ := h.reach x hx; exact ⟨name, (hsub name).2 h1, h2⟩,
    fun hp name hn => h.closed (fun name hn => hp name ((hsub name).2 hn)) name ((hsub name).1 hn)⟩

/-- an entry that ends the loop -/
theorem walkE_stop {c : Cfg} {fs : FS} {k : Nat} {d : Str} {e : Entry} {es : List Entry} {V : List Str} (hx : ¬ Examinable c d e) :
    WalkE c fs k d (e :: es) V (V, []) [] where
  eq := rfl
  fresh := by simp
  files := by
    intro p s
    simp only [List.not_mem_nil, false_and, exists_false, or_false, false_iff]
    rintro ⟨name, h1, _⟩
    exact hx (exIn_cons.1 h1).1
  once := by simp
  reach := by simp
  closed := by
    intro _ name h
    exact absurd (exIn_cons.1 h.1).1 hx

theorem walkEntries_spec {c : Cfg} {fs : FS} (ht : Tree fs) {k : Nat} {sub : Str → List Str → List Str × List (Str × Stat)}
    (hsub : ∀ d V, Plain d → ∃ news, Walk c fs k d V (sub d V) news) {d : Str} (hd : Plain d) (es : List Entry)
    (hex : ∀ x, ExIn c d es x → Examined c fs d x) (hn : (es.map (·.name)).Nodup) (hname : ∀ e ∈ es, e.name ≠ [] ∧ '/' ∉ e.name)
    (V : List Str) (hV : d ∈ V) : ∃ news, WalkE c fs k d es V (walkEntries c sub d es V) news := by
  induction es generalizing V with
  | nil =>
    exact ⟨[], rfl, by simp, fun p s => by simp [walkEntries, Own, exIn_nil], by simp [walkEntries], by simp,
      fun _ name h => absurd h.1 exIn_nil⟩
  | cons e es ih =>
    simp only [List.map_cons, List.nodup_cons] at hn
    have hname' := fun e he => hname e (List.mem_cons_of_mem _ he)
    unfold walkEntries
    rw [join_plain hd]
    obtain ⟨name, kind⟩ := e
    cases kind with
    | unknown => exact ⟨[], walkE_stop (by simp [Examinable])⟩
    | dir =>
      have hx : Examinable c d ⟨name, .dir⟩ := by simp [Examinable]
      have ih := ih (fun x h => hex x (exIn_cons.2 ⟨hx, .inr h⟩)) hn.2 hname'
      simp only
      split
      · rename_i hacc
        have hown : ∀ p s, Own c d (⟨name, .dir⟩ :: es) p s ↔ Own c d es p s := by
          intro p s
          constructor
          · rintro ⟨nm, h1, h2, h3⟩
            rcases (exIn_cons.1 h1).2 with h4 | h4
            · cases h4
            · exact ⟨nm, h4, h2, h3⟩
          · rintro ⟨nm, h1, h2, h3⟩
            exact ⟨nm, exIn_cons.2 ⟨hx, .inr h1⟩, h2, h3⟩
        have hsb : ∀ nm, Sub c d (⟨name, .dir⟩ :: es) nm ↔ nm = name ∨ Sub c d es nm := by
          intro nm
          constructor
          · rintro ⟨h1, h2⟩
            rcases (exIn_cons.1 h1).2 with h4 | h4
            · cases h4; exact .inl rfl
            · exact .inr ⟨h4, h2⟩
          · rintro (rfl | ⟨h1, h2⟩)
            · exact ⟨exIn_cons.2 ⟨hx, .inl rfl⟩, hacc⟩
            · exact ⟨exIn_cons.2 ⟨hx, .inr h1⟩, h2⟩
        have hnm := hname ⟨name, .dir⟩ (by simp)
        obtain ⟨news1, w1⟩ := hsub (child d name) V (plain_child hnm.1 hnm.2)
        obtain ⟨news2, w2⟩ := ih (sub (child d name) V).1 (by rw [w1.eq]; simp [hV])
        refine ⟨news2 ++ news1, ?_⟩
        constructor
        · exact w2.eq.trans (by rw [w1.eq, List.append_assoc])
        · intro x hx
          rcases List.mem_append.1 hx with hx | hx
          · have := w2.fresh x hx
            rw [w1.eq] at this
            exact fun h => this (by simp [h])
          · exact w1.fresh x hx
        · intro p s
          simp only [List.mem_append, w1.files, w2.files, hown]
          constructor
          · rintro (⟨x, h1, h2⟩ | h | ⟨x, h1, h2⟩)
            · exact .inr ⟨x, .inr h1, h2⟩
            · exact .inl h
            · exact .inr ⟨x, .inl h1, h2⟩
          · rintro (h | ⟨x, h1 | h1, h2⟩)
            · exact .inr (.inl h)
            · exact .inr (.inr ⟨x, h1, h2⟩)
            · exact .inl ⟨x, h1, h2⟩
        · refine nodup_append_files (D := news1) (D' := d :: news2) ht w1.once w2.once (fun p s h => (w1.files p s).1 h) ?_ ?_
          · intro p s h
            rcases (w2.files p s).1 h with h | ⟨x, h1, h2⟩
            · exact ⟨d, by simp, own_fileIn (fun x h => hex x (exIn_cons.2 ⟨hx, .inr h⟩)) h⟩
            · exact ⟨x, by simp [h1], h2⟩
          · intro x hx1 h
            rcases List.mem_cons.1 h with h | h
            · rw [h] at hx1
              exact w1.fresh _ hx1 hV
            · have := w2.fresh x h
              rw [w1.eq] at this
              exact this (by simp [hx1])
        · intro x hx
          rcases List.mem_append.1 hx with hx | hx
          · obtain ⟨nm, h1, h2⟩ := w2.reach x hx
            exact ⟨nm, (hsb nm).2 (.inr h1), h2⟩
          · obtain ⟨n, h1, h2⟩ := w1.reach x hx
            exact ⟨name, (hsb name).2 (.inl rfl), n, h1, h2⟩
        · intro hp nm hs
          have hp2 : ∀ nm, Sub c d es nm → Pre c fs (sub (child d name) V).1 k (child d nm) := by
            intro nm hs x n hr hk hx'
            rw [w1.eq] at hx' ⊢
            have hmono : ∀ x ∈ V, x ∈ news1 ++ V := by intro x hx; simp [hx]
            rcases List.mem_append.1 hx' with hx' | hx'
            · obtain ⟨m, h1, h2⟩ := w1.reach x hx'
              have hmem := exIn_mem hs.1
              have := one_child hnm.2 (hname' _ hmem).2 h2 hr
              subst this
              exact absurd (List.mem_map.2 ⟨_, hmem, rfl⟩) hn.1
            · exact closed_mono hmono (hp nm ((hsb nm).2 (.inr hs)) x n hr hk hx')
          rcases (hsb nm).1 hs with rfl | hs
          · refine closed_mono ?_ (w1.closed (hp nm hs))
            intro x hx
            simp only [w2.eq]
            simp [hx]
          · exact w2.closed hp2 nm hs
      · rename_i hacc
        obtain ⟨news, w⟩ := ih V hV
        exact ⟨news, walkE_skip w hx (by intro s h; cases h) (by intro _; simpa using hacc)⟩
    | file s =>
      simp only
      split
      · rename_i hacc
        cases s with
        | none => exact ⟨[], walkE_stop (by simp [Examinable, hacc])⟩
        | some s =>
          have hx : Examinable c d ⟨name, .file (some s)⟩ := by simp [Examinable]
          obtain ⟨news, w⟩ := ih (fun x h => hex x (exIn_cons.2 ⟨hx, .inr h⟩)) hn.2 hname' V hV
          have hown : ∀ p s', Own c d (⟨name, .file (some s)⟩ :: es) p s' ↔ (p = child d name ∧ s' = s) ∨ Own c d es p s' := by
            intro p s'
            constructor
            · rintro ⟨nm, h1, h2, h3⟩
              rcases (exIn_cons.1 h1).2 with h4 | h4
              · cases h4; exact .inl ⟨h2, rfl⟩
              · exact .inr ⟨nm, h4, h2, h3⟩
            · rintro (⟨rfl, rfl⟩ | ⟨nm, h1, h2, h3⟩)
              · exact ⟨name, exIn_cons.2 ⟨hx, .inl rfl⟩, rfl, hacc⟩
              · exact ⟨nm, exIn_cons.2 ⟨hx, .inr h1⟩, h2, h3⟩
          have hsb : ∀ nm, Sub c d (⟨name, .file (some s)⟩ :: es) nm ↔ Sub c d es nm := by
            intro nm
            constructor
            · rintro ⟨h1, h2⟩
              rcases (exIn_cons.1 h1).2 with h4 | h4
              · cases h4
              · exact ⟨h4, h2⟩
            · rintro ⟨h1, h2⟩
              exact ⟨exIn_cons.2 ⟨hx, .inr h1⟩, h2⟩
          have hnm := hname ⟨name, .file (some s)⟩ (by simp)
          refine ⟨news, w.eq, w.fresh, ?_, ?_, ?_, ?_⟩
          · intro p s'
            simp only [List.mem_cons, Prod.mk.injEq, w.files, hown, or_assoc]
          · simp only [List.map_cons, List.nodup_cons]
            refine ⟨?_, w.once⟩
            intro hm
            obtain ⟨⟨p, s'⟩, h1, h2⟩ := List.mem_map.1 hm
            simp only at h2
            subst h2
            rcases (w.files _ _).1 h1 with ⟨nm, h3, h4, _⟩ | ⟨x, h3, h4⟩
            · have hmem := exIn_mem h3
              have := (child_inj hnm.2 (hname' _ hmem).2 h4).2
              simp only at this
              subst this
              exact hn.1 (List.mem_map.2 ⟨_, hmem, rfl⟩)
            · have h5 : FileIn c fs d (child d name) s := ⟨name, hex _ (exIn_cons.2 ⟨hx, .inl rfl⟩), rfl, hacc⟩
              have := fileIn_inj ht h4 h5
              subst this
              exact w.fresh _ h3 hV
          · intro x hx
            obtain ⟨nm, h1, h2⟩ := w.reach x hx
            exact ⟨nm, (hsb nm).2 h1, h2⟩
          · intro hp nm hs
            exact w.closed (fun nm hs => hp nm ((hsb nm).2 hs)) nm ((hsb nm).1 hs)
      · rename_i hacc
        have hx : Examinable c d ⟨name, .file s⟩ := by cases s <;> simp [Examinable, hacc]
        obtain ⟨news, w⟩ := ih (fun x h => hex x (exIn_cons.2 ⟨hx, .inr h⟩)) hn.2 hname' V hV
        exact ⟨news, walkE_skip w hx (by intro s _; simpa using hacc) (by intro h; cases h)⟩

theorem walk_spec {c : Cfg} {fs : FS} (ht : Tree fs) (k : Nat) (d : Str) (V : List Str) (hd : Plain d) :
    ∃ news, Walk c fs k d V (walk c fs k d V) news := by
  induction k generalizing d V with
  | zero => exact ⟨[], ⟨⟨rfl, by simp, by simp [walk], by simp [walk]⟩, by simp, fun _ => trivial⟩⟩
  | succ k ih =>
    unfold walk
    by_cases hV : d ∈ V
    · rw [if_pos hV]
      refine ⟨[], ⟨⟨rfl, by simp, by simp, by simp⟩, by simp, ?_⟩⟩
      intro hp
      exact hp d 0 (.root d) (by omega) hV
    · rw [if_neg hV]
      cases hes : fs d with
      | none =>
        have hno : ∀ e, ¬ Examined c fs d e := by
          rintro e ⟨l, l', h, _⟩
          rw [hes] at h
          cases h
        refine ⟨[d], ⟨⟨rfl, by simpa using hV, ?_, by simp⟩, ?_, ?_⟩⟩
        · intro p s
          simp only [List.not_mem_nil, List.mem_singleton, exists_eq_left, false_iff]
          rintro ⟨nm, h, _⟩
          exact hno _ h
        · intro x hx
          simp only [List.mem_singleton] at hx
          subst hx
          exact ⟨0, by omega, .root _⟩
        · intro _
          exact ⟨by simp, fun nm h => absurd h (hno _)⟩
      | some es =>
        have htd := ht d es hes
        obtain ⟨news, w⟩ := walkEntries_spec ht ih hd es (fun x h => (examined_iff hes).2 h) htd.1 htd.2 (d :: V) (by simp)
        refine ⟨news ++ [d], ⟨⟨?_, ?_, ?_, w.once⟩, ?_, ?_⟩⟩
        · simp only [w.eq, List.append_assoc, List.cons_append, List.nil_append]
        · intro x hx
          rcases List.mem_append.1 hx with hx | hx
          · have := w.fresh x hx
            exact fun h => this (by simp [h])
          · simp only [List.mem_singleton] at hx
            rw [hx]
            exact hV
        · intro p s
          simp only [w.files, List.mem_append, List.mem_singleton]
          constructor
          · rintro (h | ⟨x, h1, h2⟩)
            · exact ⟨d, .inr rfl, own_fileIn (fun x h => (examined_iff hes).2 h) h⟩
            · exact ⟨x, .inl h1, h2⟩
          · rintro ⟨x, h1 | rfl, h2⟩
            · exact .inr ⟨x, h1, h2⟩
            · obtain ⟨nm, h3, h4, h5⟩ := h2
              exact .inl ⟨nm, (examined_iff hes).1 h3, h4, h5⟩
        · intro x hx
          rcases List.mem_append.1 hx with hx | hx
          · obtain ⟨nm, h1, n, h2, h3⟩ := w.reach x hx
            exact ⟨n + 1, by omega, reach_cons ((examined_iff hes).2 h1.1) h1.2 h3⟩
          · simp only [List.mem_singleton] at hx
            subst hx
            exact ⟨0, by omega, .root _⟩
        · intro hp
          refine ⟨by simp [w.eq], fun nm h1 h2 => w.closed ?_ nm ⟨(examined_iff hes).1 h1, h2⟩⟩
          intro nm hs x n hr hk hx
          have hs' := (examined_iff hes).2 hs.1
          rcases List.mem_cons.1 hx with rfl | hx
          · exfalso
            have h3 := reach_count ht hr
            have h4 : (child x nm).count '/' = x.count '/' + 1 := reach_count ht (.sub 0 x x nm (.root x) hs' hs.2)
            omega
          · have := hp x (n + 1) (reach_cons hs' hs.2 hr) (by omega) hx
            have h5 : k + 1 - (n + 1) = k - n := by omega
            rw [h5] at this
            exact closed_mono (fun y hy => by simp [hy]) this

end FsNotify
