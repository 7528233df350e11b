import Verif.RealCase.Model
/-!
C88: a path with the case of letters it has on the disk.
-/

namespace RealCase

/-! ## Specification -/

/-- What is needed of the platform: lower case keeps the separators and makes no others, and no letter vanishes. -/
structure Good (env : Env) : Prop where
  low_ne : ∀ c, env.lowC c ≠ []
  low_sep : ∀ c, env.noSep c = true → env.lowC c = [c]
  low_other : ∀ c, env.noSep c = false → ∀ x ∈ env.lowC c, env.noSep x = false
  sep : env.noSep env.sep = true

/-- A name a directory can list: not empty, and without separators (or colons, on Windows). -/
def Name (env : Env) (n : Str) : Prop := n ≠ [] ∧ ∀ c ∈ n, env.noSep c = false

/-- A file system lists names. -/
def Names (env : Env) (fs : Fs) : Prop := ∀ d l, fs.listdir d = .names l → ∀ n ∈ l, Name env n

/-- Two names of one directory differ in more than the case of letters. -/
def NoClash (env : Env) (fs : Fs) : Prop :=
  ∀ d l, fs.listdir d = .names l → ∀ n ∈ l, ∀ m ∈ l, env.low n = env.low m → n = m

/-- The path of `names` below `root`. -/
def pathOf (env : Env) (root : Str) (names : List Str) : Str := root ++ Py.join1 env.sep names

/-- `names` are on the disk below `root`: each directory lists the next. -/
def OnDisk (env : Env) (fs : Fs) (root : Str) (names : List Str) : Prop :=
  ∀ pre n post, names = pre ++ n :: post → ∃ l, fs.listdir (pathOf env root pre) = .names l ∧ n ∈ l

/-- A root after which no separator is put. -/
def Root (env : Env) (r : Str) : Prop := ∀ c, r.getLast? = some c → env.noSep c = true

/-! ## Lower case and joining -/

theorem low_nil (env : Env) : env.low [] = [] := rfl

theorem low_append (env : Env) (a b : Str) : env.low (a ++ b) = env.low a ++ env.low b := by
  simp [Env.low]

theorem low_eq_nil {env : Env} (g : Good env) (s : Str) : env.low s = [] ↔ s = [] := by
  cases s with
  | nil => simp [Env.low]
  | cons c s =>
    simp only [Env.low, List.flatMap_cons, List.append_eq_nil_iff]
    constructor
    · intro h; exact absurd h.1 (g.low_ne c)
    · intro h; simp at h

theorem low_last {env : Env} (g : Good env) (s : Str) (c : Char) (h : s.getLast? = some c) :
    ∃ d, (env.low s).getLast? = some d ∧ env.noSep d = env.noSep c := by
  rcases List.eq_nil_or_concat s with rfl | ⟨t, e, rfl⟩
  · simp at h
  · rw [List.concat_eq_append] at h ⊢
    simp at h
    subst h
    rw [low_append]
    have he : env.low [e] = env.lowC e := by simp [Env.low]
    rw [he]
    cases hl : (env.lowC e).getLast? with
    | none => rw [List.getLast?_eq_none_iff] at hl; exact absurd hl (g.low_ne e)
    | some d =>
      refine ⟨d, by rw [List.getLast?_append, hl]; rfl, ?_⟩
      by_cases hs : env.noSep e = true
      · rw [g.low_sep e hs] at hl; simp at hl; rw [hl]
      · have hs : env.noSep e = false := by simpa using hs
        rw [hs]
        exact g.low_other e hs d (List.mem_of_getLast? hl)

theorem low_sep_eq {env : Env} (g : Good env) : env.low [env.sep] = [env.sep] := by
  simp [Env.low, g.low_sep _ g.sep]

theorem low_join {env : Env} (g : Good env) (a b : Str) :
    env.low (env.join a b) = env.join (env.low a) (env.low b) := by
  unfold Env.join
  cases ha : a.getLast? with
  | none => rw [List.getLast?_eq_none_iff] at ha; subst ha; rfl
  | some c =>
    obtain ⟨d, hd, hn⟩ := low_last g a c ha
    rw [hd]
    simp only [hn]
    split
    · rw [low_append]
    · rw [low_append]
      have : env.sep :: b = [env.sep] ++ b := rfl
      rw [this, low_append, low_sep_eq g]; rfl

theorem name_low {env : Env} (g : Good env) {n : Str} (h : Name env n) : Name env (env.low n) := by
  refine ⟨fun hc => h.1 ((low_eq_nil g n).1 hc), ?_⟩
  intro c hc
  simp only [Env.low, List.mem_flatMap] at hc
  obtain ⟨e, he, hce⟩ := hc
  exact g.low_other e (h.2 e he) c hce

theorem join1_snoc (sep : Char) (ns : List Str) (n : Str) (h : ns ≠ []) :
    Py.join1 sep (ns ++ [n]) = Py.join1 sep ns ++ sep :: n := by
  rw [Py.join1_append sep ns [n] h (by simp)]
  simp [Py.join1]

theorem join1_last {env : Env} (ns : List Str) (h : ns ≠ []) (hn : ∀ n ∈ ns, Name env n) :
    ∃ c, (Py.join1 env.sep ns).getLast? = some c ∧ env.noSep c = false := by
  rcases List.eq_nil_or_concat ns with rfl | ⟨t, e, rfl⟩
  · exact absurd rfl h
  · rw [List.concat_eq_append] at hn ⊢
    have he := hn e (by simp)
    have hl : ∃ c, e.getLast? = some c := by
      cases hh : e.getLast? with
      | none => rw [List.getLast?_eq_none_iff] at hh; exact absurd hh he.1
      | some c => exact ⟨c, rfl⟩
    obtain ⟨c, hc⟩ := hl
    refine ⟨c, ?_, he.2 c (List.mem_of_getLast? hc)⟩
    cases t with
    | nil => simpa [Py.join1] using hc
    | cons x xs =>
      rw [join1_snoc _ _ _ (by simp), List.getLast?_append]
      have : (env.sep :: e).getLast? = some c := by
        rw [List.getLast?_cons, hc]; rfl
      rw [this]; rfl

/-- Joining a name to a path below a root gives the path with the name. -/
theorem join_pathOf {env : Env} (root : Str) (hr : Root env root) (ns : List Str) (hn : ∀ n ∈ ns, Name env n) (n : Str) :
    env.join (pathOf env root ns) n = pathOf env root (ns ++ [n]) := by
  unfold pathOf
  by_cases hns : ns = []
  · subst hns
    simp only [List.nil_append, Py.join1, List.append_nil]
    unfold Env.join
    cases hl : root.getLast? with
    | none => rw [List.getLast?_eq_none_iff] at hl; subst hl; rfl
    | some c => simp only [hr c hl, if_true]
  · obtain ⟨c, hc, hs⟩ := join1_last ns hns hn
    rw [join1_snoc _ _ _ hns]
    unfold Env.join
    have : (root ++ Py.join1 env.sep ns).getLast? = some c := by rw [List.getLast?_append, hc]; rfl
    rw [this]
    simp [hs]

theorem low_join1 {env : Env} (g : Good env) (ns : List Str) :
    env.low (Py.join1 env.sep ns) = Py.join1 env.sep (ns.map env.low) := by
  induction ns with
  | nil => rfl
  | cons n ns ih =>
    cases ns with
    | nil => simp [Py.join1]
    | cons m ns =>
      rw [List.map_cons, Py.join1_cons env.sep n _ (by simp), Py.join1_cons env.sep (env.low n) _ (by simp), low_append]
      have : env.sep :: Py.join1 env.sep (m :: ns) = [env.sep] ++ Py.join1 env.sep (m :: ns) := rfl
      rw [this, low_append, low_sep_eq g, ih]; rfl

theorem low_pathOf {env : Env} (g : Good env) (root : Str) (ns : List Str) :
    env.low (pathOf env root ns) = pathOf env (env.low root) (ns.map env.low) := by
  unfold pathOf
  rw [low_append, low_join1 g]

/-! ## What a cache may hold -/

/-- Paths in the cache are what they are asked for, up to case, and listings hold names. -/
structure LowOk (env : Env) (c : Cache) : Prop where
  joined : ∀ k part p, Py.Dict.get c.joined (k, part) = some p → env.low p = env.join k part ∧ Name env part
  dirs : ∀ k l, Py.Dict.get c.dirs k = some l → ∀ n ∈ l, Name env n

theorem lowOk_empty (env : Env) : LowOk env {} :=
  ⟨fun _ _ _ h => by simp [Py.Dict.get_nil] at h, fun _ _ h => by simp [Py.Dict.get_nil] at h⟩

theorem lookIn_low {env : Env} (g : Good env) (c : Cache) (ok : LowOk env c) (r part : Str) (names : List Str)
    (hn : ∀ n ∈ names, Name env n) :
    LowOk env (lookIn env c r part names).2 ∧
    ∀ p, (lookIn env c r part names).1 = .found p → env.low p = env.join (env.low r) part ∧ Name env part := by
  unfold lookIn
  cases hf : names.find? (fun n => env.low n == part) with
  | none => exact ⟨ok, fun p h => by simp at h⟩
  | some n =>
    have hl : env.low n = part := by simpa using List.find?_some hf
    have hm := List.mem_of_find?_eq_some hf
    have key : env.low (env.join r n) = env.join (env.low r) part ∧ Name env part := by
      rw [low_join g, hl]
      exact ⟨rfl, hl ▸ name_low g (hn n hm)⟩
    refine ⟨⟨?_, ok.dirs⟩, ?_⟩
    · intro k q p h
      simp only [Py.Dict.get_set] at h
      split at h
      · rename_i he
        injection h with h
        simp at he
        rw [← h, he.1, he.2]
        exact key
      · exact ok.joined k q p h
    · intro p h
      injection h with h
      rw [← h]
      exact key

theorem resolveOne_low {env : Env} (g : Good env) (fs : Fs) (hf : Names env fs) (c : Cache) (ok : LowOk env c)
    (r part : Str) :
    LowOk env (resolveOne env fs c r part).2 ∧
    ∀ p, (resolveOne env fs c r part).1 = .found p → env.low p = env.join (env.low r) part ∧ Name env part := by
  unfold resolveOne
  split
  · rename_i p hp
    refine ⟨ok, ?_⟩
    intro q h
    injection h with h
    rw [← h]
    exact ok.joined _ _ _ hp
  · split
    · rename_i names hd
      exact lookIn_low g c ok r part names (ok.dirs _ _ hd)
    · split
      · rename_i l hl
        apply lookIn_low g _ _ r part l (hf r l hl)
        refine ⟨ok.joined, ?_⟩
        intro k l' h
        simp only [Py.Dict.get_set] at h
        split at h
        · injection h with h; rw [← h]; exact hf r l hl
        · exact ok.dirs k l' h
      · exact ⟨ok, fun p h => by simp at h⟩
      · exact ⟨ok, fun p h => by simp at h⟩

theorem resolve_low {env : Env} (g : Good env) (fs : Fs) (hf : Names env fs) (parts : List Str) (c : Cache)
    (ok : LowOk env c) (r : Str) :
    LowOk env (resolve env fs c r parts).2 ∧
    ∀ p, (resolve env fs c r parts).1 = .found p →
      env.low p = parts.foldl env.join (env.low r) ∧ ∀ q ∈ parts, Name env q := by
  induction parts generalizing c r with
  | nil =>
    refine ⟨ok, ?_⟩
    intro p h
    simp only [resolve] at h
    injection h with h
    rw [← h]
    exact ⟨rfl, by simp⟩
  | cons part parts ih =>
    have h1 := resolveOne_low g fs hf c ok r part
    unfold resolve
    split
    · rename_i p c' he
      rw [he] at h1
      have h2 := ih c' h1.1 p
      refine ⟨h2.1, ?_⟩
      intro q hq
      obtain ⟨e1, e2⟩ := h2.2 q hq
      obtain ⟨e3, e4⟩ := h1.2 p rfl
      refine ⟨by rw [e1, e3]; rfl, ?_⟩
      intro x hx
      rcases List.mem_cons.1 hx with rfl | hx
      · exact e4
      · exact e2 x hx
    · rename_i res c' hne he
      rw [he] at h1
      refine ⟨h1.1, ?_⟩
      intro p hp
      exact absurd hp (hne p)

theorem foldl_join {env : Env} (root : Str) (hr : Root env root) (parts : List Str) (hn : ∀ q ∈ parts, Name env q) :
    parts.foldl env.join root = pathOf env root parts := by
  have : ∀ (post pre : List Str), parts = pre ++ post → (∀ q ∈ pre, Name env q) →
      post.foldl env.join (pathOf env root pre) = pathOf env root parts := by
    intro post
    induction post with
    | nil => intro pre he _; rw [he]; simp
    | cons x xs ih =>
      intro pre he hpre
      rw [List.foldl_cons, join_pathOf root hr pre hpre x]
      apply ih (pre ++ [x])
      · rw [he]; simp
      · intro q hq
        rcases List.mem_append.1 hq with h | h
        · exact hpre q h
        · rw [List.mem_singleton.1 h]; exact hn x (by rw [he]; simp)
  have h0 := this parts [] rfl (by simp)
  simpa [pathOf, Py.join1] using h0

theorem root_low {env : Env} (g : Good env) {r : Str} (h : Root env r) : Root env (env.low r) := by
  intro c hc
  cases hl : r.getLast? with
  | none => rw [List.getLast?_eq_none_iff] at hl; subst hl; simp [Env.low] at hc
  | some d =>
    obtain ⟨e, he, hn⟩ := low_last g r d hl
    rw [hc] at he
    injection he with he
    rw [he, hn]
    exact h d hl

theorem resolveParts_low {env : Env} (g : Good env) (fs : Fs) (hf : Names env fs) (c : Cache) (ok : LowOk env c)
    (root : Str) (hr : Root env root) (parts : List Str) (filename : Str)
    (hlow : env.low filename = env.low root ++ Py.join1 env.sep parts) :
    LowOk env (resolveParts env fs c root parts filename).2 ∧
    ∀ p, (resolveParts env fs c root parts filename).1 = .path p → env.low p = env.low filename := by
  have found : ∀ c, LowOk env c → ∀ p, (resolve env fs c root parts).1 = .found p → env.low p = env.low filename := by
    intro c ok p h
    obtain ⟨h1, h2⟩ := (resolve_low g fs hf parts c ok root).2 p h
    rw [h1, foldl_join _ (root_low g hr) parts h2, hlow]; rfl
  unfold resolveParts
  split
  · rename_i hp
    refine ⟨ok, ?_⟩
    intro p h
    injection h with h
    rw [← h, hlow, hp]
    simp [Py.join1]
  · have h1 := resolve_low g fs hf parts c ok root
    have h2 := found c ok
    split
    · rename_i p c' he
      rw [he] at h1 h2
      refine ⟨h1.1, ?_⟩
      intro q hq
      injection hq with hq
      exact h2 q (by rw [hq])
    · unfold retry
      have h3 := resolve_low g fs hf parts {} (lowOk_empty env) root
      have h4 := found {} (lowOk_empty env)
      split
      · rename_i p c' he
        rw [he] at h3 h4
        refine ⟨h3.1, ?_⟩
        intro q hq
        injection hq with hq
        exact h4 q (by rw [hq])
      · rename_i c' he
        rw [he] at h3
        refine ⟨h3.1, ?_⟩
        intro q hq
        injection hq with hq
        rw [hq]
      · rename_i c' he
        rw [he] at h3
        exact ⟨h3.1, fun q hq => by simp at hq⟩
    · rename_i c' he
      rw [he] at h1
      refine ⟨h1.1, ?_⟩
      intro q hq
      injection hq with hq
      rw [hq]

/-! ## The parts of a name -/

theorem dropEmpty_spec (sep : Char) (found : Str) (parts : List Str) :
    ∃ k, (dropEmpty sep found parts).1 = found ++ List.replicate k sep ∧
      parts = List.replicate k [] ++ (dropEmpty sep found parts).2 ∧
      (∀ p ps, (dropEmpty sep found parts).2 = p :: ps → p ≠ []) := by
  induction parts generalizing found with
  | nil => exact ⟨0, by simp [dropEmpty], by simp [dropEmpty], by simp [dropEmpty]⟩
  | cons p ps ih =>
    unfold dropEmpty
    split
    · rename_i hp
      obtain ⟨k, h1, h2, h3⟩ := ih (found ++ [sep])
      refine ⟨k + 1, ?_, ?_, h3⟩
      · rw [h1, List.replicate_succ]; simp
      · rw [List.replicate_succ, List.cons_append, ← h2, hp]
    · rename_i hp
      refine ⟨0, by simp, by simp, ?_⟩
      intro q qs h
      injection h with h _
      rw [← h]; exact hp

theorem join1_empties (sep : Char) (k : Nat) (ps : List Str) (h : ps ≠ []) :
    Py.join1 sep (List.replicate k [] ++ ps) = List.replicate k sep ++ Py.join1 sep ps := by
  induction k with
  | zero => simp
  | succ k ih =>
    rw [List.replicate_succ, List.cons_append, Py.join1_cons sep [] _ (by simp [h]), ih, List.replicate_succ]
    simp

theorem join1_only_empties (sep : Char) (k : Nat) : ∀ c ∈ Py.join1 sep (List.replicate k []), c = sep := by
  induction k with
  | zero => simp [Py.join1]
  | succ k ih =>
    rw [List.replicate_succ]
    cases k with
    | zero => simp [Py.join1]
    | succ k =>
      rw [Py.join1_cons sep [] _ (by simp [List.replicate_succ])]
      intro c hc
      simp at hc
      rcases hc with h | h
      · exact h
      · exact ih c (by simpa using h)

theorem low_replicate {env : Env} (g : Good env) (k : Nat) :
    env.low (List.replicate k env.sep) = List.replicate k env.sep := by
  induction k with
  | zero => rfl
  | succ k ih =>
    have : List.replicate (k + 1) env.sep = [env.sep] ++ List.replicate k env.sep := by simp [List.replicate_succ]
    rw [this, low_append, low_sep_eq g, ih]

theorem root_replicate {env : Env} (g : Good env) (k : Nat) : Root env (List.replicate k env.sep) := by
  intro c hc
  have := List.mem_of_getLast? hc
  rw [List.mem_replicate] at this
  rw [this.2]; exact g.sep

/-- A name of a file on Mac that is more than separators. -/
theorem mac_parts {env : Env} (g : Good env) (f : Str) (hne : ∃ c ∈ f, c ≠ env.sep) :
    ∃ k, (dropEmpty env.sep [] (Py.split1 env.sep (env.low f))).1 = List.replicate k env.sep ∧
      env.low f = List.replicate k env.sep ++
        Py.join1 env.sep (dropEmpty env.sep [] (Py.split1 env.sep (env.low f))).2 ∧
      (dropEmpty env.sep [] (Py.split1 env.sep (env.low f))).2 ≠ [[]] := by
  obtain ⟨k, h1, h2, h3⟩ := dropEmpty_spec env.sep [] (Py.split1 env.sep (env.low f))
  refine ⟨k, by simpa using h1, ?_, ?_⟩
  · have hj := Py.join1_split1 env.sep (env.low f)
    by_cases hnil : (dropEmpty env.sep [] (Py.split1 env.sep (env.low f))).2 = []
    · exfalso
      rw [hnil, List.append_nil] at h2
      rw [h2] at hj
      obtain ⟨c, hc, hcs⟩ := hne
      obtain ⟨x, hx⟩ := List.exists_mem_of_ne_nil _ (g.low_ne c)
      have hmem : x ∈ env.low f := by
        simp only [Env.low, List.mem_flatMap]; exact ⟨c, hc, hx⟩
      rw [← hj] at hmem
      have hxs := join1_only_empties env.sep k x hmem
      by_cases hsep : env.noSep c = true
      · rw [g.low_sep c hsep] at hx
        simp at hx
        exact hcs (hx.symm.trans hxs)
      · have := g.low_other c (by simpa using hsep) x hx
        rw [hxs, g.sep] at this
        simp at this
    · rw [← join1_empties env.sep k _ hnil, ← h2, hj]
  · intro hc
    exact h3 [] [] hc rfl

theorem moveSeps_spec (sep : Char) (drive rest : Str) :
    (moveSeps sep drive rest).1 ++ (moveSeps sep drive rest).2 = drive ++ rest ∧
    ((moveSeps sep drive rest).1 = drive ∨ (moveSeps sep drive rest).1.getLast? = some sep) := by
  induction rest generalizing drive with
  | nil => simp [moveSeps]
  | cons c cs ih =>
    unfold moveSeps
    split
    · rename_i h
      have := ih (drive ++ [sep])
      refine ⟨by rw [this.1, h]; simp, Or.inr ?_⟩
      rcases this.2 with h2 | h2
      · rw [h2]; simp
      · exact h2
    · exact ⟨rfl, Or.inl rfl⟩

/-! ## C88: the same path up to case -/

/-- What is asked of a name on each platform: on Mac it is more than separators; on Windows the normalised name is
the same up to case, and a drive that does not end with a colon or separator is followed by one. -/
def Usual (pl : Platform) (env : Env) (f : Str) : Prop :=
  match pl with
  | .mac => ∃ c ∈ f, c ≠ env.sep
  | .windows => env.low ((env.drive f).1 ++ (env.drive f).2) = env.low f ∧
      Root env (moveSeps env.sep (env.drive f).1 (env.drive f).2).1

theorem realCase_low (pl : Platform) {env : Env} (g : Good env) (fs : Fs) (hf : Names env fs) (c : Cache)
    (ok : LowOk env c) (f : Str) (hu : Usual pl env f) :
    LowOk env (realCase pl env fs c f).2 ∧
    ∀ p, (realCase pl env fs c f).1 = .path p → env.low p = env.low f := by
  have early : ∀ p, Answer.path f = .path p → env.low p = env.low f := by
    intro p h; injection h with h; rw [h]
  cases pl with
  | mac =>
    show LowOk env (macCase env fs c f).2 ∧ ∀ p, (macCase env fs c f).1 = .path p → env.low p = env.low f
    unfold macCase
    split
    · exact ⟨ok, early⟩
    · obtain ⟨k, h1, h2, _⟩ := mac_parts g f hu
      apply resolveParts_low g fs hf c ok
      · rw [h1]; exact root_replicate g k
      · rw [h1, low_replicate g]; exact h2
  | windows =>
    show LowOk env (windowsCase env fs c f).2 ∧ ∀ p, (windowsCase env fs c f).1 = .path p → env.low p = env.low f
    unfold windowsCase
    split
    · exact ⟨ok, early⟩
    · apply resolveParts_low g fs hf c ok
      · exact hu.2
      · rw [Py.join1_split1, ← low_append, (moveSeps_spec env.sep _ _).1]
        exact hu.1.symm

theorem asked_low (pl : Platform) {env : Env} (g : Good env) (qs : List (Fs × Str))
    (hq : ∀ q ∈ qs, Names env q.1 ∧ Usual pl env q.2) (c : Cache) (ok : LowOk env c) : LowOk env (asked pl env c qs) := by
  induction qs generalizing c with
  | nil => exact ok
  | cons q qs ih =>
    have h1 := hq q (by simp)
    exact ih (fun q' h' => hq q' (by simp [h'])) _ (realCase_low pl g q.1 h1.1 c ok q.2 h1.2).1

/-- **C88, same path.** Whatever was asked before, and however the file system changed in between, a path given back
is the path asked about up to the case of letters. -/
theorem c88_same_but_case (pl : Platform) {env : Env} (g : Good env) (qs : List (Fs × Str))
    (hq : ∀ q ∈ qs, Names env q.1 ∧ Usual pl env q.2) (fs : Fs) (hf : Names env fs) (f p : Str) (hu : Usual pl env f)
    (h : (realCase pl env fs (asked pl env {} qs) f).1 = .path p) : env.low p = env.low f :=
  (realCase_low pl g fs hf _ (asked_low pl g qs hq {} (lowOk_empty env)) f hu).2 p h

/-- An error reaches the caller only if some directory may not be listed. -/
theorem c88_raised (pl : Platform) (env : Env) (fs : Fs) (c : Cache) (f : Str)
    (h : (realCase pl env fs c f).1 = .raised) : ∃ d, fs.listdir d = .denied := by
  have look : ∀ c r part names, (lookIn env c r part names).1 ≠ .denied := by
    intro c r part names
    unfold lookIn
    split <;> simp
  have one : ∀ c r part, (resolveOne env fs c r part).1 = .denied → ∃ d, fs.listdir d = .denied := by
    intro c r part h
    unfold resolveOne at h
    split at h
    · simp at h
    · split at h
      · exact absurd h (look _ _ _ _)
      · split at h
        · exact absurd h (look _ _ _ _)
        · simp at h
        · rename_i hd; exact ⟨r, hd⟩
  have all : ∀ parts c r, (resolve env fs c r parts).1 = .denied → ∃ d, fs.listdir d = .denied := by
    intro parts
    induction parts with
    | nil => intro c r h; simp [resolve] at h
    | cons part parts ih =>
      intro c r h
      unfold resolve at h
      split at h
      · exact ih _ _ h
      · rename_i res c' hne he
        apply one c r part
        rw [he]; exact h
  have rp : ∀ c root parts f, (resolveParts env fs c root parts f).1 = .raised → ∃ d, fs.listdir d = .denied := by
    intro c root parts f h
    unfold resolveParts at h
    split at h
    · simp at h
    · split at h
      · simp at h
      · unfold retry at h
        split at h
        · simp at h
        · simp at h
        · rename_i he; exact all parts {} root (by rw [he])
      · simp at h
  cases pl with
  | mac =>
    change (macCase env fs c f).1 = .raised at h
    unfold macCase at h
    split at h
    · simp at h
    · exact rp _ _ _ _ h
  | windows =>
    change (windowsCase env fs c f).1 = .raised at h
    unfold windowsCase at h
    split at h
    · simp at h
    · exact rp _ _ _ _ h

/-! ## A file system that does not change -/

/-- The walk without a cache. -/
def walk (env : Env) (fs : Fs) (r : Str) : List Str → Res
  | [] => .found r
  | part :: ps =>
    match fs.listdir r with
    | .names l =>
      match l.find? (fun n => env.low n == part) with
      | some n => walk env fs (env.join r n) ps
      | none => .missing
    | .missing => .missing
    | .denied => .denied

theorem walk_append (env : Env) (fs : Fs) (r : Str) (a b : List Str) (p : Str) (h : walk env fs r a = .found p) :
    walk env fs r (a ++ b) = walk env fs p b := by
  induction a generalizing r with
  | nil =>
    simp only [walk] at h
    injection h with h
    rw [h]; rfl
  | cons x xs ih =>
    simp only [List.cons_append, walk] at h ⊢
    split
    · rename_i l hl
      rw [hl] at h
      simp only at h
      split
      · rename_i n hn
        rw [hn] at h
        exact ih _ h
      · rename_i hn
        rw [hn] at h
        simp at h
    · rename_i hl; rw [hl] at h; simp at h
    · rename_i hl; rw [hl] at h; simp at h

theorem walk_found {env : Env} (g : Good env) (fs : Fs) (hf : Names env fs) (root : Str) (hr : Root env root)
    (parts : List Str) (p : Str) (h : walk env fs root parts = .found p) :
    ∃ ns, p = pathOf env root ns ∧ ns.map env.low = parts ∧ (∀ n ∈ ns, Name env n) := by
  have : ∀ (parts : List Str) (pre : List Str), (∀ n ∈ pre, Name env n) →
      walk env fs (pathOf env root pre) parts = .found p →
      ∃ ns, p = pathOf env root (pre ++ ns) ∧ ns.map env.low = parts ∧ (∀ n ∈ pre ++ ns, Name env n) := by
    intro parts
    induction parts with
    | nil =>
      intro pre hpre h
      simp only [walk] at h
      injection h with h
      exact ⟨[], by rw [← h]; simp, rfl, by simpa using hpre⟩
    | cons x xs ih =>
      intro pre hpre h
      simp only [walk] at h
      split at h
      · rename_i l hl
        split at h
        · rename_i n hn
          have hm := List.mem_of_find?_eq_some hn
          have hl2 : env.low n = x := by simpa using List.find?_some hn
          rw [join_pathOf root hr pre hpre n] at h
          have hpre' : ∀ m ∈ pre ++ [n], Name env m := by
            intro m hmm
            rcases List.mem_append.1 hmm with h' | h'
            · exact hpre m h'
            · rw [List.mem_singleton.1 h']; exact hf _ l hl n hm
          obtain ⟨ns, e1, e2, e3⟩ := ih (pre ++ [n]) hpre' h
          refine ⟨n :: ns, by rw [e1]; simp, by rw [List.map_cons, hl2, e2], ?_⟩
          intro m hmm
          exact e3 m (by simpa using hmm)
        · simp at h
      · simp at h
      · simp at h
  have h0 : pathOf env root [] = root := by simp [pathOf, Py.join1]
  obtain ⟨ns, e1, e2, e3⟩ := this parts [] (by simp) (by rw [h0]; exact h)
  exact ⟨ns, by simpa using e1, e2, by simpa using e3⟩

/-- Roots such that a path in lower case tells its root and its parts. -/
structure Roots (env : Env) (R : Str → Prop) : Prop where
  root : ∀ r, R r → Root env r
  unique : ∀ r r' ps ps', R r → R r' → (∀ p ∈ ps, Name env p) → (∀ p ∈ ps', Name env p) →
    pathOf env (env.low r) ps = pathOf env (env.low r') ps' → r = r' ∧ ps = ps'

/-- The cache agrees with the file system. -/
structure Agrees (env : Env) (fs : Fs) (R : Str → Prop) (c : Cache) : Prop where
  dirs : ∀ root pre r, R root → walk env fs root pre = .found r →
    ∀ l, Py.Dict.get c.dirs (env.low r) = some l → fs.listdir r = .names l
  joined : ∀ root pre r, R root → walk env fs root pre = .found r →
    ∀ part p, Py.Dict.get c.joined (env.low r, part) = some p → walk env fs root (pre ++ [part]) = .found p

theorem agrees_empty (env : Env) (fs : Fs) (R : Str → Prop) : Agrees env fs R {} :=
  ⟨fun _ _ _ _ _ _ h => by simp [Py.Dict.get_nil] at h, fun _ _ _ _ _ _ _ h => by simp [Py.Dict.get_nil] at h⟩

/-- A path in lower case tells how it was reached. -/
theorem reached_unique {env : Env} (g : Good env) {fs : Fs} (hf : Names env fs) {R : Str → Prop} (hR : Roots env R)
    {root root' r r' : Str} {pre pre' : List Str} (h1 : R root) (h2 : R root')
    (w1 : walk env fs root pre = .found r) (w2 : walk env fs root' pre' = .found r') (he : env.low r = env.low r') :
    root = root' ∧ pre = pre' ∧ r = r' := by
  obtain ⟨ns, e1, e2, e3⟩ := walk_found g fs hf root (hR.root _ h1) pre r w1
  obtain ⟨ns', e1', e2', e3'⟩ := walk_found g fs hf root' (hR.root _ h2) pre' r' w2
  rw [e1, e1', low_pathOf g, low_pathOf g] at he
  have hn : ∀ p ∈ ns.map env.low, Name env p := by
    intro p hp
    obtain ⟨n, hn, rfl⟩ := List.mem_map.1 hp
    exact name_low g (e3 n hn)
  have hn' : ∀ p ∈ ns'.map env.low, Name env p := by
    intro p hp
    obtain ⟨n, hn, rfl⟩ := List.mem_map.1 hp
    exact name_low g (e3' n hn)
  obtain ⟨q1, q2⟩ := hR.unique root root' _ _ h1 h2 hn hn' he
  rw [e2, e2'] at q2
  subst q1; subst q2
  rw [w1] at w2
  injection w2 with w2
  exact ⟨rfl, rfl, w2⟩

theorem lookIn_agrees {env : Env} (g : Good env) {fs : Fs} (hf : Names env fs) {R : Str → Prop} (hR : Roots env R)
    (c : Cache) (ok : Agrees env fs R c) (root r part : Str) (pre : List Str) (l : List Str) (h1 : R root)
    (w : walk env fs root pre = .found r) (hl : fs.listdir r = .names l) :
    Agrees env fs R (lookIn env c r part l).2 ∧ (lookIn env c r part l).1 = walk env fs r [part] := by
  unfold lookIn
  cases hfi : l.find? (fun n => env.low n == part) with
  | none => exact ⟨ok, by simp only [walk, hl, hfi]⟩
  | some n =>
    refine ⟨⟨ok.dirs, ?_⟩, by simp only [walk, hl, hfi]⟩
    intro root' pre' r' h1' w' part' p' hg
    simp only [Py.Dict.get_set] at hg
    split at hg
    · rename_i he
      injection hg with hg
      simp at he
      obtain ⟨q1, q2, q3⟩ := reached_unique g hf hR h1' h1 w' w he.1
      subst q1; subst q2; subst q3
      rw [walk_append env fs root' pre' [part'] r' w']
      rw [he.2]
      simp only [walk, hl, hfi, hg]
    · exact ok.joined root' pre' r' h1' w' part' p' hg

theorem resolveOne_agrees {env : Env} (g : Good env) {fs : Fs} (hf : Names env fs) {R : Str → Prop} (hR : Roots env R)
    (c : Cache) (ok : Agrees env fs R c) (root r part : Str) (pre : List Str) (h1 : R root)
    (w : walk env fs root pre = .found r) :
    Agrees env fs R (resolveOne env fs c r part).2 ∧ (resolveOne env fs c r part).1 = walk env fs r [part] := by
  unfold resolveOne
  split
  · rename_i p hp
    refine ⟨ok, ?_⟩
    rw [← walk_append env fs root pre [part] r w]
    exact (ok.joined root pre r h1 w part p hp).symm
  · split
    · rename_i names hd
      exact lookIn_agrees g hf hR c ok root r part pre names h1 w (ok.dirs root pre r h1 w names hd)
    · split
      · rename_i l hl
        apply lookIn_agrees g hf hR _ _ root r part pre l h1 w hl
        refine ⟨?_, ok.joined⟩
        intro root' pre' r' h1' w' l' hg
        simp only [Py.Dict.get_set] at hg
        split at hg
        · rename_i he
          injection hg with hg
          obtain ⟨_, _, q3⟩ := reached_unique g hf hR h1' h1 w' w he
          rw [q3, hl, hg]
        · exact ok.dirs root' pre' r' h1' w' l' hg
      · rename_i hl; exact ⟨ok, by simp only [walk, hl]⟩
      · rename_i hl; exact ⟨ok, by simp only [walk, hl]⟩

theorem resolve_agrees {env : Env} (g : Good env) {fs : Fs} (hf : Names env fs) {R : Str → Prop} (hR : Roots env R)
    (root : Str) (h1 : R root) (parts : List Str) (c : Cache) (ok : Agrees env fs R c) (r : Str) (pre : List Str)
    (w : walk env fs root pre = .found r) :
    Agrees env fs R (resolve env fs c r parts).2 ∧ (resolve env fs c r parts).1 = walk env fs r parts := by
  induction parts generalizing c r pre with
  | nil => exact ⟨ok, rfl⟩
  | cons part parts ih =>
    have ho := resolveOne_agrees g hf hR c ok root r part pre h1 w
    unfold resolve
    split
    · rename_i p c' he
      rw [he] at ho
      have w' : walk env fs root (pre ++ [part]) = .found p := by
        rw [walk_append env fs root pre [part] r w]; exact ho.2.symm
      have := ih c' ho.1 p (pre ++ [part]) w'
      refine ⟨this.1, ?_⟩
      rw [this.2]
      have hh := walk_append env fs r [part] parts p ho.2.symm
      simpa using hh.symm
    · rename_i res c' hne he
      rw [he] at ho
      refine ⟨ho.1, ?_⟩
      have h2 : walk env fs r [part] = res := ho.2.symm
      have h3 : ∀ p, res ≠ .found p := fun p hp => hne p hp
      show res = walk env fs r (part :: parts)
      simp only [walk] at h2 ⊢
      split
      · rename_i l hl
        rw [hl] at h2
        simp only at h2
        split
        · rename_i n hn
          rw [hn] at h2
          exact absurd h2.symm (h3 _)
        · rename_i hn; rw [hn] at h2; exact h2.symm
      · rename_i hl; rw [hl] at h2; exact h2.symm
      · rename_i hl; rw [hl] at h2; exact h2.symm

/-- The answer for a root and parts, without a cache. -/
def freshParts (env : Env) (fs : Fs) (root : Str) (parts : List Str) (f : Str) : Answer :=
  if parts = [[]] then .path root
  else match walk env fs root parts with
    | .found p => .path p
    | _ => .path f

theorem resolveParts_agrees {env : Env} (g : Good env) {fs : Fs} (hf : Names env fs) {R : Str → Prop} (hR : Roots env R)
    (root : Str) (h1 : R root) (parts : List Str) (c : Cache) (ok : Agrees env fs R c) (f : Str) :
    Agrees env fs R (resolveParts env fs c root parts f).2 ∧
    (resolveParts env fs c root parts f).1 = freshParts env fs root parts f := by
  have ha := resolve_agrees g hf hR root h1 parts c ok root [] rfl
  have hb := resolve_agrees g hf hR root h1 parts {} (agrees_empty env fs R) root [] rfl
  unfold resolveParts freshParts
  split
  · exact ⟨ok, rfl⟩
  · split
    · rename_i p c' he
      rw [he] at ha
      exact ⟨ha.1, by rw [← ha.2]⟩
    · rename_i c' he
      rw [he] at ha
      unfold retry
      split
      · rename_i p c'' he2
        rw [he2] at hb
        exact ⟨hb.1, by rw [← hb.2]⟩
      · rename_i c'' he2
        rw [he2] at hb
        exact ⟨hb.1, by rw [← hb.2]⟩
      · rename_i c'' he2
        rw [he2] at hb
        exact absurd (ha.2.trans hb.2.symm) (by simp)
    · rename_i c' he
      rw [he] at ha
      exact ⟨ha.1, by rw [← ha.2]⟩

/-- The root and the parts of a name. -/
def rootOf (pl : Platform) (env : Env) (f : Str) : Str :=
  match pl with
  | .mac => (dropEmpty env.sep [] (Py.split1 env.sep (env.low f))).1
  | .windows => (moveSeps env.sep (env.drive f).1 (env.drive f).2).1

theorem realCase_agrees (pl : Platform) {env : Env} (g : Good env) {fs : Fs} (hf : Names env fs) {R : Str → Prop}
    (hR : Roots env R) (c : Cache) (ok : Agrees env fs R c) (f : Str) (hr : R (rootOf pl env f)) :
    Agrees env fs R (realCase pl env fs c f).2 ∧
    (realCase pl env fs c f).1 = (realCase pl env fs {} f).1 ∧ (realCase pl env fs c f).1 ≠ .raised := by
  have nr : ∀ root parts, freshParts env fs root parts f ≠ .raised := by
    intro root parts
    unfold freshParts
    split
    · simp
    · split <;> simp
  cases pl with
  | mac =>
    show Agrees env fs R (macCase env fs c f).2 ∧ (macCase env fs c f).1 = (macCase env fs {} f).1 ∧
      (macCase env fs c f).1 ≠ .raised
    unfold macCase
    split
    · exact ⟨ok, rfl, by simp⟩
    · have h1 := resolveParts_agrees g hf hR _ hr (dropEmpty env.sep [] (Py.split1 env.sep (env.low f))).2 c ok f
      have h2 := resolveParts_agrees g hf hR _ hr (dropEmpty env.sep [] (Py.split1 env.sep (env.low f))).2 {}
        (agrees_empty env fs R) f
      exact ⟨h1.1, h1.2.trans h2.2.symm, fun h => nr _ _ (h1.2.symm.trans h)⟩
  | windows =>
    show Agrees env fs R (windowsCase env fs c f).2 ∧ (windowsCase env fs c f).1 = (windowsCase env fs {} f).1 ∧
      (windowsCase env fs c f).1 ≠ .raised
    unfold windowsCase
    split
    · exact ⟨ok, rfl, by simp⟩
    · have h1 := resolveParts_agrees g hf hR _ hr
        (Py.split1 env.sep (env.low (moveSeps env.sep (env.drive f).1 (env.drive f).2).2)) c ok f
      have h2 := resolveParts_agrees g hf hR _ hr
        (Py.split1 env.sep (env.low (moveSeps env.sep (env.drive f).1 (env.drive f).2).2)) {} (agrees_empty env fs R) f
      exact ⟨h1.1, h1.2.trans h2.2.symm, fun h => nr _ _ (h1.2.symm.trans h)⟩

theorem asked_agrees (pl : Platform) {env : Env} (g : Good env) {fs : Fs} (hf : Names env fs) {R : Str → Prop}
    (hR : Roots env R) (qs : List Str) (hq : ∀ q ∈ qs, R (rootOf pl env q)) (c : Cache) (ok : Agrees env fs R c) :
    Agrees env fs R (asked pl env c (qs.map (fun q => (fs, q)))) := by
  induction qs generalizing c with
  | nil => exact ok
  | cons q qs ih =>
    exact ih (fun q' h' => hq q' (by simp [h'])) _ (realCase_agrees pl g hf hR c ok q (hq q (by simp))).1

/-- **C88, no memory.** While the file system does not change, an answer does not depend on what was asked before,
and no error reaches the caller. -/
theorem c88_no_memory (pl : Platform) {env : Env} (g : Good env) {fs : Fs} (hf : Names env fs) {R : Str → Prop}
    (hR : Roots env R) (qs : List Str) (hq : ∀ q ∈ qs, R (rootOf pl env q)) (f : Str) (hr : R (rootOf pl env f)) :
    (realCase pl env fs (asked pl env {} (qs.map (fun q => (fs, q)))) f).1 = (realCase pl env fs {} f).1 ∧
    (realCase pl env fs (asked pl env {} (qs.map (fun q => (fs, q)))) f).1 ≠ .raised :=
  (realCase_agrees pl g hf hR _ (asked_agrees pl g hf hR qs hq {} (agrees_empty env fs R)) f hr).2

/-! ### Roots -/

theorem join1_ne_nil {env : Env} (ps : List Str) (h : ps ≠ []) (hn : ∀ p ∈ ps, Name env p) :
    ∃ c cs, Py.join1 env.sep ps = c :: cs ∧ env.noSep c = false := by
  cases ps with
  | nil => exact absurd rfl h
  | cons p ps =>
    have hp := hn p (by simp)
    obtain ⟨c, cs, hc⟩ : ∃ c cs, p = c :: cs := by
      cases p with
      | nil => exact absurd rfl hp.1
      | cons c cs => exact ⟨c, cs, rfl⟩
    cases ps with
    | nil => exact ⟨c, cs, by simp [Py.join1, hc], hp.2 c (by rw [hc]; simp)⟩
    | cons q qs =>
      refine ⟨c, cs ++ env.sep :: Py.join1 env.sep (q :: qs), ?_, hp.2 c (by rw [hc]; simp)⟩
      rw [Py.join1_cons env.sep p _ (by simp), hc]; rfl

theorem join1_inj {env : Env} (g : Good env) (ps ps' : List Str) (hn : ∀ p ∈ ps, Name env p)
    (hn' : ∀ p ∈ ps', Name env p) (h : Py.join1 env.sep ps = Py.join1 env.sep ps') : ps = ps' := by
  have free : ∀ ps : List Str, (∀ p ∈ ps, Name env p) → ∀ p ∈ ps, env.sep ∉ p := by
    intro ps hps p hp hc
    have := (hps p hp).2 _ hc
    rw [g.sep] at this
    simp at this
  by_cases h1 : ps = []
  · by_cases h2 : ps' = []
    · rw [h1, h2]
    · obtain ⟨c, cs, hc, _⟩ := join1_ne_nil ps' h2 hn'
      rw [h1, hc] at h
      simp [Py.join1] at h
  · by_cases h2 : ps' = []
    · obtain ⟨c, cs, hc, _⟩ := join1_ne_nil ps h1 hn
      rw [h2, hc] at h
      simp [Py.join1] at h
    · rw [← Py.split1_join1 env.sep ps h1 (free ps hn), h, Py.split1_join1 env.sep ps' h2 (free ps' hn')]

/-- The roots on Mac: any number of separators. -/
def MacRoot (env : Env) (r : Str) : Prop := ∃ k, r = List.replicate k env.sep

theorem takeWhile_root {env : Env} (g : Good env) (k : Nat) (ps : List Str) (hn : ∀ p ∈ ps, Name env p) :
    (List.replicate k env.sep ++ Py.join1 env.sep ps).takeWhile (fun c => c == env.sep) = List.replicate k env.sep := by
  induction k with
  | zero =>
    by_cases h : ps = []
    · subst h; simp [Py.join1]
    · obtain ⟨c, cs, hc, hs⟩ := join1_ne_nil ps h hn
      rw [hc]
      have : c ≠ env.sep := by
        intro hh
        rw [hh, g.sep] at hs
        simp at hs
      simp [this]
  | succ k ih =>
    rw [List.replicate_succ, List.cons_append, List.takeWhile_cons]
    simp [ih]

theorem mac_roots {env : Env} (g : Good env) : Roots env (MacRoot env) := by
  constructor
  · rintro r ⟨k, rfl⟩; exact root_replicate g k
  · rintro r r' ps ps' ⟨k, rfl⟩ ⟨k', rfl⟩ hn hn' h
    rw [low_replicate g, low_replicate g] at h
    unfold pathOf at h
    have hk : List.replicate k env.sep = List.replicate k' env.sep := by
      rw [← takeWhile_root g k ps hn, h, takeWhile_root g k' ps' hn']
    rw [hk] at h
    exact ⟨hk, join1_inj g ps ps' hn hn' (List.append_cancel_left h)⟩

theorem mac_rootOf (env : Env) (f : Str) : MacRoot env (rootOf .mac env f) := by
  obtain ⟨k, h1, _, _⟩ := dropEmpty_spec env.sep [] (Py.split1 env.sep (env.low f))
  exact ⟨k, by simpa [rootOf] using h1⟩

/-- The roots on Windows of drives named by a letter: the letter (in upper case), a colon, a separator. -/
def DriveRoot (env : Env) (upper : Char → Prop) (r : Str) : Prop := ∃ x, upper x ∧ r = [x, ':', env.sep]

theorem drive_roots {env : Env} (g : Good env) (upper : Char → Prop) (hs : ':' ≠ env.sep) (hc : env.noSep ':' = true)
    (hu : ∀ x, upper x → env.noSep x = false)
    (inj : ∀ x y, upper x → upper y → env.lowC x = env.lowC y → x = y) : Roots env (DriveRoot env upper) := by
  constructor
  · rintro r ⟨x, _, rfl⟩ c h
    simp at h
    rw [← h]; exact g.sep
  · rintro r r' ps ps' ⟨x, hx, rfl⟩ ⟨y, hy, rfl⟩ hn hn' h
    have hl : ∀ x, env.low [x, ':', env.sep] = env.lowC x ++ [':', env.sep] := by
      intro x
      simp [Env.low, g.low_sep _ hc, g.low_sep _ g.sep]
    have hlx : env.sep ∉ env.lowC x ++ [':'] := by
      intro hm
      rcases List.mem_append.1 hm with h1 | h1
      · have := g.low_other x (hu x hx) _ h1; rw [g.sep] at this; simp at this
      · exact hs (List.mem_singleton.1 h1).symm
    have hly : env.sep ∉ env.lowC y ++ [':'] := by
      intro hm
      rcases List.mem_append.1 hm with h1 | h1
      · have := g.low_other y (hu y hy) _ h1; rw [g.sep] at this; simp at this
      · exact hs (List.mem_singleton.1 h1).symm
    have e : ∀ (x : Char) (ps : List Str), pathOf env (env.low [x, ':', env.sep]) ps =
        (env.lowC x ++ [':']) ++ env.sep :: Py.join1 env.sep ps := by
      intro x ps
      rw [hl]; unfold pathOf; simp
    rw [e, e] at h
    have hsx := Py.split1_append env.sep _ (Py.join1 env.sep ps) hlx
    have hsy := Py.split1_append env.sep _ (Py.join1 env.sep ps') hly
    rw [h, hsy] at hsx
    injection hsx with h1 h2
    have hxy : env.lowC y = env.lowC x := List.append_cancel_right h1
    have := inj y x hy hx hxy
    subst this
    have h3 := List.append_cancel_left h
    injection h3 with _ h3
    exact ⟨rfl, join1_inj g ps ps' hn hn' h3⟩

/-! ### The case on the disk -/

theorem walk_onDisk {env : Env} (fs : Fs) (hf : Names env fs) (hc : NoClash env fs) (root : Str) (hr : Root env root)
    (ns : List Str) (hd : OnDisk env fs root ns) :
    walk env fs root (ns.map env.low) = .found (pathOf env root ns) := by
  have : ∀ (post pre : List Str), ns = pre ++ post → (∀ n ∈ pre, Name env n) →
      walk env fs (pathOf env root pre) (post.map env.low) = .found (pathOf env root ns) := by
    intro post
    induction post with
    | nil => intro pre he _; rw [he]; simp [walk]
    | cons n post ih =>
      intro pre he hpre
      obtain ⟨l, hl, hn⟩ := hd pre n post he
      have hfi : l.find? (fun m => env.low m == env.low n) = some n := by
        cases hh : l.find? (fun m => env.low m == env.low n) with
        | none => have := List.find?_eq_none.1 hh n hn; simp at this
        | some m =>
          have h1 := List.mem_of_find?_eq_some hh
          have h2 : env.low m = env.low n := by simpa using List.find?_some hh
          rw [hc _ l hl m h1 n hn h2]
      rw [List.map_cons]
      simp only [walk, hl, hfi]
      rw [join_pathOf root hr pre hpre n]
      apply ih (pre ++ [n]) (by rw [he]; simp)
      intro m hm
      rcases List.mem_append.1 hm with h' | h'
      · exact hpre m h'
      · rw [List.mem_singleton.1 h']; exact hf _ l hl n hn
  have h0 := this ns [] rfl (by simp)
  have : pathOf env root [] = root := by simp [pathOf, Py.join1]
  rwa [this] at h0

/-- **C88, the case on the disk (Mac).** On a file system that does not change, and whose directories hold no two
names that differ only in case, the answer about a file that is there is its path with the case it has on the disk,
whatever was asked before. -/
theorem c88_real_mac {env : Env} (g : Good env) {fs : Fs} (hf : Names env fs) (hc : NoClash env fs) (qs : List Str)
    (k : Nat) (ns : List Str) (hne : ns ≠ []) (hn : ∀ n ∈ ns, Name env n)
    (hd : OnDisk env fs (List.replicate k env.sep) ns) (f : Str)
    (hsame : env.low f = env.low (pathOf env (List.replicate k env.sep) ns))
    (hex : fs.exist f = true) (hlt : Py.startsWith f c!"<" = false) :
    (realCase .mac env fs (asked .mac env {} (qs.map (fun q => (fs, q)))) f).1 =
      .path (pathOf env (List.replicate k env.sep) ns) := by
  rw [(c88_no_memory .mac g hf (mac_roots g) qs (fun q _ => mac_rootOf env q) f (mac_rootOf env f)).1]
  have hlow : env.low f = List.replicate k env.sep ++ Py.join1 env.sep (ns.map env.low) := by
    rw [hsame, low_pathOf g, low_replicate g]; rfl
  have hnl : ∀ p ∈ ns.map env.low, Name env p := by
    intro p hp
    obtain ⟨n, h, rfl⟩ := List.mem_map.1 hp
    exact name_low g (hn n h)
  have hnlne : ns.map env.low ≠ [] := by simpa using hne
  have hex2 : ∃ c ∈ f, c ≠ env.sep := by
    obtain ⟨c, cs, hcs, hs⟩ := join1_ne_nil _ hnlne hnl
    have hm : c ∈ env.low f := by rw [hlow, hcs]; simp
    simp only [Env.low, List.mem_flatMap] at hm
    obtain ⟨x, hx, hxc⟩ := hm
    refine ⟨x, hx, ?_⟩
    intro hh
    rw [hh, g.low_sep _ g.sep] at hxc
    simp at hxc
    rw [hxc, g.sep] at hs
    simp at hs
  obtain ⟨k', h1, h2, h3⟩ := mac_parts g f hex2
  have free : ∀ p ∈ ns.map env.low, env.sep ∉ p := by
    intro p hp hcc
    have := (hnl p hp).2 _ hcc
    rw [g.sep] at this
    simp at this
  have hsplit : ∀ k, Py.split1 env.sep (List.replicate k env.sep ++ Py.join1 env.sep (ns.map env.low)) =
      List.replicate k [] ++ ns.map env.low := by
    intro k
    rw [← join1_empties env.sep k _ hnlne]
    apply Py.split1_join1 env.sep _ (by simp [hne])
    intro w hw
    rcases List.mem_append.1 hw with h | h
    · rw [List.mem_replicate] at h; rw [h.2]; simp
    · exact free w h
  have hdrop : ∀ (k : Nat) (found : Str), dropEmpty env.sep found (List.replicate k [] ++ ns.map env.low) =
      (found ++ List.replicate k env.sep, ns.map env.low) := by
    intro k
    induction k with
    | zero =>
      intro found
      cases hh : ns.map env.low with
      | nil => exact absurd hh hnlne
      | cons p ps =>
        have hp := (hnl p (by rw [hh]; simp)).1
        simp [dropEmpty, hp]
    | succ k ih =>
      intro found
      rw [List.replicate_succ, List.cons_append, dropEmpty, if_pos rfl, ih]
      simp [List.replicate_succ]
  have hd2 : dropEmpty env.sep [] (Py.split1 env.sep (env.low f)) = (List.replicate k env.sep, ns.map env.low) := by
    rw [hlow, hsplit, hdrop]; simp
  show (macCase env fs {} f).1 = _
  unfold macCase
  have hnot : notLookedUp fs f = false := by simp [notLookedUp, hex, hlt]
  rw [if_neg (by simp [hnot])]
  simp only [hd2]
  rw [(resolveParts_agrees g hf (mac_roots g) _ ⟨k, rfl⟩ _ {} (agrees_empty env fs _) f).2]
  unfold freshParts
  rw [if_neg (by intro hh; rw [hd2] at h3; exact h3 hh), walk_onDisk fs hf hc _ (root_replicate g k) ns hd]

/-- **C88, the case on the disk (Windows).** The same for a file on a drive. -/
theorem c88_real_windows {env : Env} (g : Good env) {fs : Fs} (hf : Names env fs) (hc : NoClash env fs)
    {R : Str → Prop} (hR : Roots env R) (qs : List Str) (hq : ∀ q ∈ qs, R (rootOf .windows env q))
    (root : Str) (hr : R root) (ns : List Str) (hne : ns ≠ []) (hn : ∀ n ∈ ns, Name env n)
    (hd : OnDisk env fs root ns) (f rest : Str)
    (hdrive : moveSeps env.sep (env.drive f).1 (env.drive f).2 = (root, rest))
    (hsame : env.low rest = env.low (Py.join1 env.sep ns))
    (hex : fs.exist f = true) (hlt : Py.startsWith f c!"<" = false) :
    (realCase .windows env fs (asked .windows env {} (qs.map (fun q => (fs, q)))) f).1 = .path (pathOf env root ns) := by
  have hroot : rootOf .windows env f = root := by simp [rootOf, hdrive]
  rw [(c88_no_memory .windows g hf hR qs hq f (by rw [hroot]; exact hr)).1]
  have hnl : ∀ p ∈ ns.map env.low, Name env p := by
    intro p hp
    obtain ⟨n, h, rfl⟩ := List.mem_map.1 hp
    exact name_low g (hn n h)
  have hparts : Py.split1 env.sep (env.low rest) = ns.map env.low := by
    rw [hsame, low_join1 g]
    apply Py.split1_join1 env.sep _ (by simpa using hne)
    intro p hp hcc
    have := (hnl p hp).2 _ hcc
    rw [g.sep] at this
    simp at this
  show (windowsCase env fs {} f).1 = _
  unfold windowsCase
  have hnot : notLookedUp fs f = false := by simp [notLookedUp, hex, hlt]
  rw [if_neg (by simp [hnot])]
  simp only [hdrive, hparts]
  rw [(resolveParts_agrees g hf hR _ hr _ {} (agrees_empty env fs _) f).2]
  unfold freshParts
  rw [if_neg, walk_onDisk fs hf hc root (hR.root _ hr) ns hd]
  intro hh
  have := (hnl [] (by rw [hh]; simp)).1
  exact this rfl

/-- **C88, names that are not files.** The name of a file that does not exist, and names like `<string>`, are left as they are. -/
theorem c88_not_a_file (pl : Platform) (env : Env) (fs : Fs) (c : Cache) (f : Str) (h : fs.exist f = false ∨ c!"<" <+: f) :
    realCase pl env fs c f = (.path f, c) := by
  have : notLookedUp fs f = true := by
    rcases h with h | h
    · simp [notLookedUp, h]
    · simp [notLookedUp, (Py.startsWith_iff f _).2 h]
  cases pl <;> simp [realCase, macCase, windowsCase, this]

/-- **C88, new files.** Whatever the cache holds, a file it does not lead to is looked up anew: if the first walk
does not find it, the answer is its path on the disk as it is now. -/
theorem c88_new_file {env : Env} {fs : Fs} (hf : Names env fs) (hc : NoClash env fs) (c : Cache)
    (root : Str) (hr : Root env root) (ns : List Str) (hd : OnDisk env fs root ns) (f : Str)
    (g : Good env) (R : Str → Prop) (hR : Roots env R) (hrr : R root) (hparts : ns.map env.low ≠ [[]])
    (hmiss : (resolve env fs c root (ns.map env.low)).1 = .missing) :
    (resolveParts env fs c root (ns.map env.low) f).1 = .path (pathOf env root ns) := by
  unfold resolveParts
  rw [if_neg hparts]
  split
  · rename_i he; rw [he] at hmiss; simp at hmiss
  · unfold retry
    have hb := (resolve_agrees g hf hR root hrr (ns.map env.low) {} (agrees_empty env fs R) root [] rfl).2
    rw [walk_onDisk fs hf hc root hr ns hd] at hb
    split
    · rename_i he; rw [he] at hb; injection hb with hb; rw [← hb]
    · rename_i he; rw [he] at hb; simp at hb
    · rename_i he; rw [he] at hb; simp at hb
  · rename_i he; rw [he] at hmiss; simp at hmiss

/-! ## Cases -/

/-- Mac with the letters A and B. -/
def mac : Env := ⟨'/', fun c => if c = 'A' then ['a'] else if c = 'B' then ['b'] else [c], fun c => c == '/', fun f => ([], f)⟩

theorem mac_good : Good mac := by
  constructor
  · intro c; simp only [mac]; split
    · simp
    · split <;> simp
  · intro c h
    have : c = '/' := by simpa [mac] using h
    subst this; decide
  · intro c h x hx
    simp only [mac] at h hx ⊢
    split at hx
    · simp at hx; subst hx; decide
    · split at hx
      · simp at hx; subst hx; decide
      · simp at hx; subst hx; exact h
  · decide

/-- A disk with `/A/b` and `/c`. -/
def disk : Fs := ⟨fun d => if d = c!"/" then .names [c!"A", c!"c"] else if d = c!"/A" then .names [c!"b"] else .missing,
  fun _ => true⟩

theorem disk_lists (d : Str) (l : List Str) (h : disk.listdir d = .names l) : l = [c!"A", c!"c"] ∨ l = [c!"b"] := by
  simp only [disk] at h
  split at h
  · injection h with h; exact Or.inl h.symm
  · split at h
    · injection h with h; exact Or.inr h.symm
    · simp at h

theorem c88_example :
    Names mac disk ∧ NoClash mac disk ∧ OnDisk mac disk c!"/" [c!"A", c!"b"] ∧
    (realCase .mac mac disk {} c!"/a/B").1 = .path c!"/A/b" ∧
    (realCase .mac mac disk (asked .mac mac {} [(disk, c!"/A/x"), (disk, c!"/a/b")]) c!"/a/B").1 = .path c!"/A/b" := by
  refine ⟨?_, ?_, ?_, by decide +kernel, by decide +kernel⟩
  · intro d l h n hn
    have : ∀ l : List Str, (l = [c!"A", c!"c"] ∨ l = [c!"b"]) → ∀ n ∈ l, n ≠ [] ∧ ∀ c ∈ n, mac.noSep c = false := by
      rintro l (rfl | rfl) <;> decide +kernel
    exact this l (disk_lists d l h) n hn
  · intro d l h
    rcases disk_lists d l h with rfl | rfl <;> decide +kernel
  · intro pre n post h
    rcases pre with _ | ⟨x, _ | ⟨y, _ | ⟨z, t⟩⟩⟩
    · simp at h; exact ⟨[c!"A", c!"c"], by decide +kernel, by rw [← h.1]; simp⟩
    · simp at h
      refine ⟨[c!"b"], ?_, by rw [← h.2.1]; simp⟩
      rw [← h.1]; decide +kernel
    · simp at h
    · simp at h

/-- Windows with the letters A and C, where a name starts with a drive of two characters. -/
def win : Env := ⟨'\\', fun c => if c = 'A' then ['a'] else if c = 'C' then ['c'] else [c],
  fun c => c == '\\' || c == ':', fun f => (c!"C:", f.drop 2)⟩

theorem win_good : Good win := by
  constructor
  · intro c; simp only [win]; split
    · simp
    · split <;> simp
  · intro c h
    have : c = '\\' ∨ c = ':' := by simpa [win] using h
    rcases this with rfl | rfl <;> decide
  · intro c h x hx
    simp only [win] at h hx ⊢
    split at hx
    · simp at hx; subst hx; decide
    · split at hx
      · simp at hx; subst hx; decide
      · simp at hx; subst hx; exact h
  · decide

theorem c88_example_windows :
    Roots win (DriveRoot win (fun x => x = 'C')) ∧ DriveRoot win (fun x => x = 'C') (rootOf .windows win c!"c:\\a\\b") ∧
    Usual .windows win c!"c:\\a\\b" ∧
    (realCase .windows win ⟨fun d => if d = c!"C:\\" then .names [c!"A"] else if d = c!"C:\\A" then .names [c!"b"] else .missing,
      fun _ => true⟩ {} c!"c:\\a\\b").1 = .path c!"C:\\A\\b" := by
  refine ⟨drive_roots win_good _ (by decide) (by decide) (by rintro x rfl; decide) (by rintro x y rfl rfl _; rfl), ?_, ?_,
    by decide +kernel⟩
  · exact ⟨'C', rfl, by decide +kernel⟩
  · refine ⟨by decide +kernel, ?_⟩
    intro c h
    have : c = '\\' := by
      have h2 : (moveSeps win.sep (win.drive c!"c:\\a\\b").1 (win.drive c!"c:\\a\\b").2).1.getLast? = some '\\' := by decide +kernel
      rw [h2] at h
      injection h with h
      exact h.symm
    rw [this]; decide

/-- The root of the disk is given back with one separator too many. -/
theorem c88_root_witness : (realCase .mac mac disk {} c!"/").1 = .path c!"//" := by decide +kernel

/-- On a disk that looks at the case (a Mac may have one), the path of another file is given back. -/
theorem c88_clash_witness :
    (realCase .mac mac ⟨fun d => if d = c!"/" then .names [c!"A", c!"a"] else .missing, fun _ => true⟩ {} c!"/a").1 =
      .path c!"/A" := by decide +kernel

/-- After a file was renamed to another case, the old path is given. -/
theorem c88_stale_witness :
    let old : Fs := ⟨fun d => if d = c!"/" then .names [c!"A"] else .missing, fun _ => true⟩
    let new : Fs := ⟨fun d => if d = c!"/" then .names [c!"a"] else .missing, fun _ => true⟩
    (realCase .mac mac new (asked .mac mac {} [(old, c!"/a")]) c!"/a").1 = .path c!"/A" := by decide +kernel

/-- When a directory may not be listed any more, an error reaches the caller: the second try is not guarded. -/
theorem c88_raised_witness :
    let old : Fs := ⟨fun d => if d = c!"/" then .names [c!"A"] else .missing, fun _ => true⟩
    let new : Fs := ⟨fun _ => .denied, fun _ => true⟩
    (realCase .mac mac new (asked .mac mac {} [(old, c!"/a")]) c!"/b").1 = .raised := by decide +kernel

end RealCase
