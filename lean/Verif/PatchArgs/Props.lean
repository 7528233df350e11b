import Verif.PatchArgs.Spec
import Verif.CmdLine.Props
import Verif.WinQuote.Props
/-! C40: putting the debugger into the command line of a subprocess. -/

namespace PatchArgs
open Spec

/-! ### Lemmas -/

theorem combinable_iff (c : Char) : combinable c = true ↔ c ∈ ['W', 'X', 'Q', 'c', 'm'] := by
  simp only [combinable, Bool.or_eq_true, beq_iff_eq, List.mem_cons, List.not_mem_nil, or_false]
  grind

theorem findFlag_plain (s : Str) (h : Plain s) : findFlag s = none := by
  induction s with
  | nil => rfl
  | cons c s ih =>
    have hc : ¬ combinable c = true := fun hc => h c (by simp) ((combinable_iff c).1 hc)
    rw [findFlag, if_neg hc, ih (fun d hd => h d (by simp [hd]))]
    rfl

theorem findFlag_at (s : Str) (c : Char) (r : Str) (h : Plain s) (hc : c ∈ ['W', 'X', 'Q', 'c', 'm']) :
    findFlag (s ++ c :: r) = some (s, c, r) := by
  induction s with
  | nil => rw [List.nil_append, findFlag, if_pos ((combinable_iff c).2 hc)]
  | cons d s ih =>
    have hd : ¬ combinable d = true := fun hd => h d (by simp) ((combinable_iff d).1 hd)
    rw [List.cons_append, findFlag, if_neg hd, ih (fun d hd => h d (by simp [hd]))]
    rfl

theorem findFlag_some {s a r : Str} {c : Char} (h : findFlag s = some (a, c, r)) : s = a ++ c :: r ∧ Plain a ∧ c ∈ ['W', 'X', 'Q', 'c', 'm'] := by
  induction s generalizing a with
  | nil => cases h
  | cons d s ih =>
    rw [findFlag] at h
    split at h
    · rename_i hd
      simp only [Option.some.injEq, Prod.mk.injEq] at h
      obtain ⟨rfl, rfl, rfl⟩ := h
      exact ⟨rfl, (by intro c hc; cases hc), (combinable_iff d).1 hd⟩
    · rename_i hd
      cases hf : findFlag s with
      | none => rw [hf] at h; cases h
      | some x =>
        obtain ⟨a', c', r'⟩ := x
        rw [hf] at h
        simp only [Option.map_some, Option.some.injEq, Prod.mk.injEq] at h
        obtain ⟨rfl, rfl, rfl⟩ := h
        obtain ⟨h1, h2, h3⟩ := ih hf
        refine ⟨by rw [h1]; rfl, ?_, h3⟩
        intro x hx
        rcases List.mem_cons.1 hx with rfl | hx
        · intro hm; exact hd ((combinable_iff _).2 hm)
        · exact h2 x hx

theorem findFlag_none {s : Str} (h : findFlag s = none) : Plain s := by
  induction s with
  | nil => intro c hc; cases hc
  | cons d s ih =>
    rw [findFlag] at h
    split at h
    · cases h
    · rename_i hd
      simp only [Option.map_eq_none_iff] at h
      intro x hx
      rcases List.mem_cons.1 hx with rfl | hx
      · intro hm; exact hd ((combinable_iff _).2 hm)
      · exact ih h x hx

theorem dash_plain {s : Str} (h : Plain s) : Plain ('-' :: s) := by
  intro c hc
  rcases List.mem_cons.1 hc with rfl | hc
  · decide
  · exact h c hc

theorem short_iff (a : Str) : (longParams.any fun p => Py.startsWith a p) = false ↔ Short a := by
  unfold Short
  rw [List.any_eq_false]
  constructor
  · intro h n hn hp; exact h n hn ((Py.startsWith_iff _ _).2 hp)
  · intro h n hn hp; exact h n hn ((Py.startsWith_iff _ _).1 hp)

theorem dash_start (a : Str) : Py.startsWith ('-' :: a) ['-'] = true := by simp [Py.startsWith, List.isPrefixOf]

theorem starts_dash (a : Str) : Py.startsWith a ['-'] = true ↔ a.head? = some '-' := by
  cases a with
  | nil => simp [Py.startsWith]
  | cons c a => simp [Py.startsWith, List.isPrefixOf]; grind

/-- the scan of an argument that begins with a dash -/
theorem scan_short (i : Nat) (a : Str) (rest : List Str) (hne : a ≠ []) (hs : Short ('-' :: a)) : scan false i (('-' :: a) :: rest) =
    match findFlag ('-' :: a) with
    | none => scan false (i + 1) rest
    | some (before, c, remainder) =>
      if c = 'm' then
        match remainder, rest with
        | [], [] => .untouched
        | [], name :: _ => .module i (beforeFlag before) name (i + 2)
        | r, _ => .module i (beforeFlag before) r (i + 1)
      else if c = 'c' then
        match remainder, rest with
        | [], [] => .untouched
        | [], code :: _ => .code i (before ++ ['c']) code (i + 2)
        | r, _ => .code i (before ++ ['c']) r (i + 1)
      else scan remainder.isEmpty (i + 1) rest := by
  rw [scan, if_neg (by decide), if_pos (dash_start a), if_neg (by simp [hne]), if_neg (by rw [(short_iff _).2 hs]; decide)]
  rfl

theorem long_any (n v : Str) (h : n ∈ longFlags) : (longParams.any fun p => Py.startsWith (n ++ v) p) = true := by
  rw [List.any_eq_true]
  exact ⟨n, h, (Py.startsWith_iff _ _).2 (List.prefix_append _ _)⟩

theorem long_dash (n : Str) (h : n ∈ longFlags) : ∃ x, n = '-' :: '-' :: x := by
  have : ∀ n ∈ longFlags, n = '-' :: '-' :: n.drop 2 := by decide
  exact ⟨_, this n h⟩

theorem scan_long (i : Nat) (n v : Str) (rest : List Str) (h : n ∈ longFlags) :
    scan false i ((n ++ v) :: rest) = scan (longParams.contains (n ++ v)) (i + 1) rest := by
  obtain ⟨x, hx⟩ := long_dash n h
  rw [scan, if_neg (by decide), if_pos (by rw [starts_dash, hx]; rfl), if_neg (by rw [hx]; simp), if_pos (long_any n v h)]

theorem scan_ign (i : Nat) (a : Str) (rest : List Str) : scan true i (a :: rest) = scan false (i + 1) rest := by
  rw [scan, if_pos rfl]

theorem long_not_longer (n v : Str) (h : n ∈ longFlags) (hv : v ≠ []) : longParams.contains (n ++ v) = false := by
  have h1 : ∀ n ∈ longFlags, ∀ m ∈ longParams, n <+: m → n = m := by decide
  rw [← Bool.not_eq_true, List.contains_iff_mem]
  intro hm
  have := h1 n h _ hm (List.prefix_append _ _)
  apply hv
  have := congrArg List.length this
  simp at this
  exact this

/-- a flag is passed over -/
theorem scan_flag {f : List Str} (h : Flag f) (i : Nat) (rest : List Str) : scan false i (f ++ rest) = scan false (i + f.length) rest := by
  have hsub : ∀ c, c ∈ ['W', 'X', 'Q'] → c ∈ ['W', 'X', 'Q', 'c', 'm'] ∧ c ≠ 'm' ∧ c ≠ 'c' := by
    intro c hc; simp only [List.mem_cons, List.not_mem_nil, or_false] at hc
    rcases hc with rfl | rfl | rfl <;> decide
  cases h with
  | plain letters h hne hs =>
    rw [List.singleton_append, scan_short _ _ _ hne hs, findFlag_plain _ (dash_plain h)]; rfl
  | joined letters c value h hc hne hs =>
    obtain ⟨h1, h2, h3⟩ := hsub c hc
    rw [List.singleton_append, scan_short _ _ _ (by simp) hs, ← List.cons_append, findFlag_at _ _ _ (dash_plain h) h1]
    simp only [h2, h3, if_false]
    cases value with
    | nil => exact absurd rfl hne
    | cons v vs => rfl
  | separate letters c value h hc hs =>
    obtain ⟨h1, h2, h3⟩ := hsub c hc
    rw [List.cons_append, scan_short _ _ _ (by simp) hs, ← List.cons_append, findFlag_at _ _ _ (dash_plain h) h1]
    simp only [h2, h3, if_false]
    exact scan_ign _ _ _
  | long name value h =>
    have := scan_long i name [] ([value] ++ rest) h
    rw [List.append_nil] at this
    rw [List.cons_append, this, (List.contains_iff_mem.2 h : longParams.contains name = true)]
    exact scan_ign _ _ _
  | longJoined name value h hne =>
    rw [List.singleton_append, scan_long _ _ _ _ h, long_not_longer _ _ h hne]; rfl

theorem scan_flags {fs : List Str} (h : Flags fs) : ∀ (i : Nat) (rest : List Str), scan false i (fs ++ rest) = scan false (i + fs.length) rest := by
  induction h with
  | nil => intro i rest; rfl
  | cons f fs h hs ih =>
    intro i rest
    rw [List.append_assoc, scan_flag h, ih, List.length_append, Nat.add_assoc]

theorem scan_exe {fs : List Str} (h : Flags fs) (exe : Str) (rest : List Str) :
    scan true 0 (exe :: (fs ++ rest)) = scan false (1 + fs.length) rest := by
  rw [scan_ign, scan_flags h, Nat.zero_add]

theorem take_exe (exe : Str) (fs rest : List Str) : (exe :: (fs ++ rest)).take (1 + fs.length) = exe :: fs := by
  rw [Nat.add_comm, List.take_succ_cons, List.take_left]

theorem drop_exe (exe : Str) (fs rest : List Str) (k : Nat) : (exe :: (fs ++ rest)).drop (1 + fs.length + k) = rest.drop k := by
  rw [show 1 + fs.length + k = (fs.length + k) + 1 by omega, List.drop_succ_cons, List.drop_length_add_append]

/-! ### What is started -/

theorem afterLast_spec (sep : Char → Bool) (s : Str) : ∃ dir, s = dir ++ afterLast sep s ∧ (dir = [] ∨ ∃ c, dir.getLast? = some c ∧ sep c = true) ∧
    ∀ c ∈ afterLast sep s, sep c = false := by
  unfold afterLast
  refine ⟨(s.reverse.dropWhile fun c => !sep c).reverse, ?_, ?_, ?_⟩
  · rw [← List.reverse_append, List.takeWhile_append_dropWhile, List.reverse_reverse]
  · cases hd : s.reverse.dropWhile (fun c => !sep c) with
    | nil => left; rfl
    | cons c l =>
      right
      have h := List.head_dropWhile_not (fun c => !sep c) (l := s.reverse) (by rw [hd]; simp)
      simp only [hd, List.head_cons] at h
      exact ⟨c, by simp, by simpa using h⟩
  · intro c hc
    rw [List.mem_reverse] at hc
    have := List.all_eq_true.1 List.all_takeWhile c hc
    simpa using this

theorem base_unique {dir base dir' base' : Str} (h : dir ++ base = dir' ++ base') (h1 : dir = [] ∨ dir.getLast? = some '/') (h2 : '/' ∉ base)
    (h1' : dir' = [] ∨ dir'.getLast? = some '/') (h2' : '/' ∉ base') : base = base' := by
  rcases List.append_eq_append_iff.1 h with ⟨t, ht, hb⟩ | ⟨t, ht, hb⟩
  · rcases List.eq_nil_or_concat t with rfl | ⟨t, c, rfl⟩
    · simpa using hb
    · rw [List.concat_eq_append, ← List.append_assoc] at ht
      rcases h1' with h1' | h1'
      · rw [h1'] at ht; simp at ht
      · rw [ht, List.getLast?_concat] at h1'
        simp only [Option.some.injEq] at h1'
        subst h1'
        exact absurd (by rw [hb]; simp) h2
  · rcases List.eq_nil_or_concat t with rfl | ⟨t, c, rfl⟩
    · simpa using hb.symm
    · rw [List.concat_eq_append, ← List.append_assoc] at ht
      rcases h1 with h1 | h1
      · rw [h1] at ht; simp at ht
      · rw [ht, List.getLast?_concat] at h1
        simp only [Option.some.injEq] at h1
        subst h1
        exact absurd (by rw [hb]; simp) h2'

theorem find_isSome (p s : Str) : (Py.find p s).isSome = true ↔ p <:+: s := by
  induction s with
  | nil =>
    simp only [Py.find]
    split
    · rename_i h; subst h; simp
    · rename_i h; simp [h]
  | cons c s ih =>
    simp only [Py.find]
    split
    · rename_i h
      simp only [Option.isSome_some, true_iff]
      exact (List.isPrefixOf_iff_prefix.1 h).isInfix
    · rename_i h
      rw [Option.isSome_map, ih, List.infix_cons_iff]
      rw [List.isPrefixOf_iff_prefix] at h
      simp [h]

theorem isIn_iff (p s : Str) : Py.isIn p s = true ↔ p <:+: s := find_isSome p s

theorem bare_eq (path : Str) : (if Py.endsWith path ['\''] || Py.endsWith path ['"'] then (path.take (path.length - 1)).drop 1 else path) = bare path := by
  have h1 : ∀ c, Py.endsWith path [c] = true ↔ path.getLast? = some c := by
    intro c
    rw [Py.endsWith_iff]
    constructor
    · rintro ⟨t, rfl⟩; simp
    · intro h
      obtain ⟨t, ht⟩ := List.getLast?_eq_some_iff.1 h
      exact ⟨t, ht.symm⟩
  unfold bare
  simp only [Bool.or_eq_true, h1]
  split
  · rw [List.drop_one, ← List.dropLast_eq_take]
    cases path with
    | nil => rfl
    | cons c path => cases path <;> simp
  · rfl

/-- A program is taken for Python exactly if its file name says so. -/
theorem c40_is_python (path : Str) : isPython false path = true ↔ RunsPython path := by
  unfold isPython RunsPython
  simp only [bare_eq, basename, Bool.false_eq_true, if_false]
  simp only [Bool.or_eq_true, isIn_iff]
  obtain ⟨dir, h1, h2, h3⟩ := afterLast_spec (fun c => c == '/') (bare path)
  have h2' : dir = [] ∨ dir.getLast? = some '/' := by
    rcases h2 with h2 | ⟨c, hc, hs⟩
    · exact .inl h2
    · simp only [beq_iff_eq] at hs; subst hs; exact .inr hc
  have h3' : '/' ∉ afterLast (fun c => c == '/') (bare path) := fun h => by simpa using h3 _ h
  constructor
  · intro h
    refine ⟨dir, _, h1, h2', h3', ?_⟩
    rcases h with (h | h) | h
    · exact ⟨_, (by simp), h⟩
    · exact ⟨_, (by simp), h⟩
    · exact ⟨_, (by simp), h⟩
  · rintro ⟨dir', base, h4, h5, h6, name, hn, hi⟩
    have := base_unique (h4 ▸ h1.symm : dir ++ _ = dir' ++ base) h2' h3' h5 h6
    rw [this]
    simp only [List.mem_cons, List.not_mem_nil, or_false] at hn
    rcases hn with rfl | rfl | rfl
    · exact .inl (.inl hi)
    · exact .inl (.inr hi)
    · exact .inr hi

/-- A command that does not run Python is left as it is. -/
theorem c40_not_python (e : Env) (hwin : e.win = false) (exe : Str) (args : List Str) (h : ¬ RunsPython exe) :
    patchArgs e (exe :: args) = exe :: args := by
  have : isPython false exe = false := by rw [← Bool.not_eq_true, c40_is_python]; exact h
  simp [patchArgs, removeQuotes, hwin, patchCore, this]

/-! ### The command lines -/

theorem scan_valued {c : Char} {letters value : Str} {m : List Str} (h : Valued c letters value m) (i : Nat) (args : List Str) :
    (c = 'm' → scan false i (m ++ args) = .module i (if letters = [] then [] else '-' :: letters) value (i + m.length)) ∧
    (c = 'c' → scan false i (m ++ args) = .code i ('-' :: (letters ++ ['c'])) value (i + m.length)) := by
  have hb : beforeFlag ('-' :: letters) = if letters = [] then [] else '-' :: letters := by
    unfold beforeFlag
    cases letters <;> simp
  cases h with
  | separate h hs =>
    constructor
    · rintro rfl
      rw [List.cons_append, scan_short _ _ _ (by simp) hs, ← List.cons_append, findFlag_at _ _ _ (dash_plain h) (by decide)]
      simp [hb]
    · rintro rfl
      rw [List.cons_append, scan_short _ _ _ (by simp) hs, ← List.cons_append, findFlag_at _ _ _ (dash_plain h) (by decide)]
      simp
  | joined h hs hne =>
    cases value with
    | nil => exact absurd rfl hne
    | cons v vs =>
      constructor
      · rintro rfl
        rw [List.cons_append, scan_short _ _ _ (by simp) hs, ← List.cons_append, findFlag_at _ _ _ (dash_plain h) (by decide)]
        simp [hb]
      · rintro rfl
        rw [List.cons_append, scan_short _ _ _ (by simp) hs, ← List.cons_append, findFlag_at _ _ _ (dash_plain h) (by decide)]
        simp

theorem scan_script (i : Nat) (program : Str) (args : List Str) (h : program.head? ≠ some '-') :
    scan false i (program :: args) = if isManaged program then .untouched else .file i program := by
  rw [scan, if_neg (by decide), if_neg (by rw [starts_dash]; exact h)]

theorem managed_iff (s : Str) : isManaged s = true ↔ c!"pydevd.py" <:+ s := Py.endsWith_iff _ _

/-- the options of the debugger -/
def options (e : Env) : List Str := (debugger e).tail

theorem debugger_eq (e : Env) : debugger e = e.pydevd :: options e := rfl

theorem core_script (e : Env) (exe : Str) (flags : List Str) (program : Str) (args : List Str) (hx : isPython e.win exe = true)
    (hf : Flags flags) (hp : program.head? ≠ some '-') (hm : ¬ c!"pydevd.py" <:+ program) :
    patchCore e (exe :: (flags ++ program :: args)) = some (exe :: (flags ++ e.pydevd :: (options e ++ c!"--file" :: program :: args))) := by
  have h0 : isManaged program = false := by rw [← Bool.not_eq_true, managed_iff]; exact hm
  have h1 := scan_exe hf exe (program :: args)
  rw [scan_script _ _ _ hp, h0] at h1
  simp only [Bool.false_eq_true, if_false] at h1
  simp only [patchCore, hx, Bool.true_eq_false, if_false, h1]
  rw [take_exe, drop_exe, debugger_eq]
  simp

theorem core_module (e : Env) (exe : Str) (flags : List Str) (letters name : Str) (m args : List Str) (hx : isPython e.win exe = true)
    (hf : Flags flags) (hm : Valued 'm' letters name m) :
    patchCore e (exe :: (flags ++ m ++ args)) =
      some (exe :: (flags ++ (if letters = [] then [] else ['-' :: letters]) ++ e.pydevd :: c!"--module" :: (options e ++ c!"--file" :: name :: args))) := by
  have h1 := scan_exe hf exe (m ++ args)
  rw [(scan_valued hm _ args).1 rfl, ← List.append_assoc] at h1
  simp only [patchCore, hx, Bool.true_eq_false, if_false, h1]
  have h2 : (exe :: (flags ++ m ++ args)).take (1 + flags.length) = exe :: flags := by rw [List.append_assoc]; exact take_exe _ _ _
  have h3 : (exe :: (flags ++ m ++ args)).drop (1 + flags.length + m.length) = args := by
    rw [List.append_assoc, drop_exe, List.drop_left]
  rw [h2, h3, debugger_eq]
  have h4 : (if (if letters = [] then ([] : Str) else '-' :: letters) = [] then ([] : List Str) else [if letters = [] then [] else '-' :: letters]) =
      if letters = [] then [] else ['-' :: letters] := by
    cases letters <;> simp
  rw [h4]
  generalize (if letters = [] then ([] : List Str) else ['-' :: letters]) = before
  have h5 : ∀ (start : List Str) (x : Str) (rest : List Str), (start ++ x :: rest).take (start.length + 1) = start ++ [x] := by
    intro start x rest; rw [List.take_length_add_append]; simp
  have h6 : ∀ (start : List Str) (x : Str) (rest : List Str), (start ++ x :: rest).drop (start.length + 1) = rest := by
    intro start x rest; rw [List.drop_length_add_append]; simp
  have h7 : ∀ start : List Str, (start ++ e.pydevd :: options e ++ [c!"--file"]).take (start.length + 1) = start ++ [e.pydevd] ∧
      (start ++ e.pydevd :: options e ++ [c!"--file"]).drop (start.length + 1) = options e ++ [c!"--file"] := by
    intro start
    rw [List.append_assoc, List.cons_append]
    exact ⟨h5 _ _ _, h6 _ _ _⟩
  rw [(h7 _).1, (h7 _).2]
  simp

theorem core_code (e : Env) (exe : Str) (flags : List Str) (letters code : Str) (c args : List Str) (hx : isPython e.win exe = true)
    (hf : Flags flags) (hc : Valued 'c' letters code c) (attach : Str) (ha : e.attach = some attach) :
    patchCore e (exe :: (flags ++ c ++ args)) =
      some (exe :: (flags ++ ('-' :: (letters ++ ['c'])) :: pythonC e.futureEnd attach code :: args)) := by
  have h1 := scan_exe hf exe (c ++ args)
  rw [(scan_valued hc _ args).2 rfl, ← List.append_assoc] at h1
  simp only [patchCore, hx, Bool.true_eq_false, if_false, h1, ha]
  have h2 : (exe :: (flags ++ c ++ args)).take (1 + flags.length) = exe :: flags := by rw [List.append_assoc]; exact take_exe _ _ _
  have h3 : (exe :: (flags ++ c ++ args)).drop (1 + flags.length + c.length) = args := by
    rw [List.append_assoc, drop_exe, List.drop_left]
  rw [h2, h3]
  simp

theorem scan_noTarget {rest : List Str} (h : NoTarget rest) (i : Nat) : scan false i rest = .untouched := by
  cases h with
  | none => rfl
  | stdin args => rw [scan, if_neg (by decide), if_pos (dash_start _), if_pos rfl]
  | managed program args h hm => rw [scan_script _ _ _ h, (managed_iff program).2 hm]; rfl
  | incomplete arg h =>
    cases h with
    | short letters c h hc hs =>
      rw [scan_short _ _ _ (by simp) hs, ← List.cons_append, findFlag_at _ _ _ (dash_plain h) hc]
      simp only [List.mem_cons, List.not_mem_nil, or_false] at hc
      rcases hc with rfl | rfl | rfl | rfl | rfl <;> simp [scan]
    | long n h =>
      have := scan_long i arg [] [] h
      rw [List.append_nil] at this
      rw [this, scan]

/-- **C40.** Starting a script: the flags of the interpreter stay in front, the debugger with its options comes next, then
the script and all its arguments, unchanged. -/
theorem c40_script (e : Env) (hwin : e.win = false) (exe : Str) (flags : List Str) (program : Str) (args : List Str) (hx : RunsPython exe)
    (hf : Flags flags) (hp : program.head? ≠ some '-') (hm : ¬ c!"pydevd.py" <:+ program) :
    patchArgs e (exe :: (flags ++ program :: args)) =
      exe :: (flags ++ e.pydevd :: (options e ++ c!"--file" :: program :: args)) := by
  have hx' : isPython e.win exe = true := by rw [hwin]; exact (c40_is_python exe).2 hx
  simp [patchArgs, removeQuotes, hwin, core_script e exe flags program args hx' hf hp hm]

/-- **C40.** Starting a module: the flags, also those given together with `-m`, stay in front, the debugger is told that a
module follows, then come the module and all its arguments, unchanged. -/
theorem c40_module (e : Env) (hwin : e.win = false) (exe : Str) (flags : List Str) (letters name : Str) (m args : List Str) (hx : RunsPython exe)
    (hf : Flags flags) (hm : Valued 'm' letters name m) :
    patchArgs e (exe :: (flags ++ m ++ args)) =
      exe :: (flags ++ (if letters = [] then [] else ['-' :: letters]) ++ e.pydevd :: c!"--module" :: (options e ++ c!"--file" :: name :: args)) := by
  have hx' : isPython e.win exe = true := by rw [hwin]; exact (c40_is_python exe).2 hx
  simp only [patchArgs, removeQuotes, hwin, core_module e exe flags letters name m args hx' hf hm, Bool.false_eq_true, if_false]

/-- **C40.** Running code given with `-c`: the flags stay in front, the code is preceded by the text that attaches the debugger, and
the arguments are unchanged. -/
theorem c40_code (e : Env) (hwin : e.win = false) (exe : Str) (flags : List Str) (letters code : Str) (c args : List Str) (hx : RunsPython exe)
    (hf : Flags flags) (hc : Valued 'c' letters code c) (attach : Str) (ha : e.attach = some attach) :
    patchArgs e (exe :: (flags ++ c ++ args)) =
      exe :: (flags ++ ('-' :: (letters ++ ['c'])) :: pythonC e.futureEnd attach code :: args) := by
  have hx' : isPython e.win exe = true := by rw [hwin]; exact (c40_is_python exe).2 hx
  simp only [patchArgs, removeQuotes, hwin, core_code e exe flags letters code c args hx' hf hc attach ha, Bool.false_eq_true, if_false]

/-- **C40.** Commands that read the program from the standard input, that have no program, that have the debugger already or
that are incomplete are left as they are. -/
theorem c40_untouched (e : Env) (hwin : e.win = false) (exe : Str) (flags rest : List Str) (hf : Flags flags) (hr : NoTarget rest) :
    patchArgs e (exe :: (flags ++ rest)) = exe :: (flags ++ rest) := by
  have h1 := scan_exe hf exe rest
  rw [scan_noTarget hr] at h1
  simp only [patchArgs, removeQuotes, hwin, Bool.false_eq_true, if_false, patchCore, h1]
  cases isPython false exe <;> simp

/-- Every list of arguments is of one of these forms. -/
theorem c40_forms (args : List Str) : ∃ flags rest, args = flags ++ rest ∧ Flags flags ∧ (NoTarget rest ∨ Spec.Target rest) := by
  generalize hn : args.length = n
  induction n using Nat.strongRecOn generalizing args with
  | ind n ih =>
    cases args with
    | nil => exact ⟨[], [], rfl, .nil, .inl .none⟩
    | cons a rest =>
      simp only [List.length_cons] at hn
      have next : ∀ f r, Flag f → a :: rest = f ++ r → r.length < n →
          ∃ flags rest', a :: rest = flags ++ rest' ∧ Flags flags ∧ (NoTarget rest' ∨ Spec.Target rest') := by
        intro f r hf he hl
        obtain ⟨fs, r', h1, h2, h3⟩ := ih r.length hl r rfl
        exact ⟨f ++ fs, r', by rw [he, h1, List.append_assoc], .cons f fs hf h2, h3⟩
      by_cases hd : a.head? = some '-'
      · cases a with
        | nil => cases hd
        | cons d a =>
          simp only [List.head?_cons, Option.some.injEq] at hd
          subst hd
          by_cases ha : a = []
          · subst ha
            exact ⟨[], _, rfl, .nil, .inl (.stdin rest)⟩
          by_cases hs : Short ('-' :: a)
          · cases hfl : findFlag ('-' :: a) with
            | none =>
              have hp := findFlag_none hfl
              exact next _ rest (.plain a (fun c hc => hp c (by simp [hc])) ha hs) rfl (by omega)
            | some x =>
              obtain ⟨b, c, r⟩ := x
              obtain ⟨h1, h2, h3⟩ := findFlag_some hfl
              have hb : ∃ b', b = '-' :: b' ∧ a = b' ++ c :: r ∧ Plain b' := by
                cases b with
                | nil =>
                  simp only [List.nil_append, List.cons.injEq] at h1
                  rw [← h1.1] at h3; exact absurd h3 (by decide)
                | cons b0 b' =>
                  simp only [List.cons_append, List.cons.injEq] at h1
                  exact ⟨b', by rw [h1.1], h1.2, fun c hc => h2 c (by simp [hc])⟩
              obtain ⟨b', rfl, rfl, hp⟩ := hb
              cases r with
              | nil =>
                cases rest with
                | nil => exact ⟨[], _, rfl, .nil, .inl (.incomplete _ (.short b' c hp h3 hs))⟩
                | cons v rest =>
                  simp only [List.length_cons] at hn
                  simp only [List.mem_cons, List.not_mem_nil, or_false] at h3
                  rcases h3 with rfl | rfl | rfl | rfl | rfl
                  · exact next _ rest (.separate b' _ v hp (by decide) hs) rfl (by omega)
                  · exact next _ rest (.separate b' _ v hp (by decide) hs) rfl (by omega)
                  · exact next _ rest (.separate b' _ v hp (by decide) hs) rfl (by omega)
                  · exact ⟨[], _, rfl, .nil, .inr (.code b' v _ rest (.separate hp hs))⟩
                  · exact ⟨[], _, rfl, .nil, .inr (.module b' v _ rest (.separate hp hs))⟩
              | cons v vs =>
                simp only [List.mem_cons, List.not_mem_nil, or_false] at h3
                rcases h3 with rfl | rfl | rfl | rfl | rfl
                · exact next _ rest (.joined b' _ _ hp (by decide) (by simp) hs) rfl (by omega)
                · exact next _ rest (.joined b' _ _ hp (by decide) (by simp) hs) rfl (by omega)
                · exact next _ rest (.joined b' _ _ hp (by decide) (by simp) hs) rfl (by omega)
                · exact ⟨[], _, rfl, .nil, .inr (.code b' _ _ rest (.joined hp hs (by simp)))⟩
                · exact ⟨[], _, rfl, .nil, .inr (.module b' _ _ rest (.joined hp hs (by simp)))⟩
          · have hl : ∃ n ∈ longFlags, n <+: '-' :: a := by
              apply Classical.byContradiction
              intro h
              exact hs fun n hn hp => h ⟨n, hn, hp⟩
            obtain ⟨nm, hnm, v, hv⟩ := hl
            rw [← hv]
            rw [← hv] at next
            by_cases hv0 : v = []
            · subst hv0
              rw [List.append_nil] at next ⊢
              cases rest with
              | nil => exact ⟨[], _, rfl, .nil, .inl (.incomplete _ (.long nm hnm))⟩
              | cons w rest =>
                simp only [List.length_cons] at hn
                exact next _ rest (.long nm w hnm) rfl (by omega)
            · exact next _ rest (.longJoined nm v hnm hv0) rfl (by omega)
      · by_cases hm : c!"pydevd.py" <:+ a
        · exact ⟨[], _, rfl, .nil, .inl (.managed a rest hd hm)⟩
        · exact ⟨[], _, rfl, .nil, .inr (.script a rest hd hm)⟩

/-! ### The code -/

theorem skipped_iff (c : Char) : skipped c = true ↔ c ∈ [' ', '\t', ';', ')', '\n'] := by
  simp [skipped, or_assoc]

theorem separate_spec (futureEnd : Str → Option Nat) (code : Str) : ∃ imports semi rest,
    separateFuture futureEnd code = (imports ++ semi, rest) ∧ imports ++ rest = code ∧ (semi = [] ∨ semi = c!";") ∧
    ∀ off, futureEnd code = some off → (imports ++ semi).getLast? = some ';' ∧
      ((code.take off).getLast? ≠ some '\n' → code.take off <+: imports) ∧ Spec.Rest (code.drop off) rest := by
  unfold separateFuture
  cases hf : futureEnd code with
  | none => exact ⟨[], [], code, rfl, rfl, .inl rfl, (by intro off h; cases h)⟩
  | some off =>
    simp only
    generalize hoff : off + (List.takeWhile skipped (List.drop off code)).length = off'
    generalize hfu : code.take off' = future
    generalize hn : (future.reverse.takeWhile (· == '\n')).length = n
    have hlen : n ≤ future.length := by
      rw [← hn]
      have := (List.takeWhile_prefix (· == '\n') (l := future.reverse)).length_le
      simpa using this
    have hfut : future = future.take (future.length - n) ++ List.replicate n '\n' := by
      have h1 : future.reverse.takeWhile (· == '\n') = List.replicate n '\n' := by
        rw [List.eq_replicate_iff]
        refine ⟨hn, ?_⟩
        intro c hc
        have := List.all_eq_true.1 List.all_takeWhile c hc
        simpa using this
      have h2 := List.takeWhile_append_dropWhile (p := (· == '\n')) (l := future.reverse)
      rw [h1] at h2
      have h3 : future = (future.reverse.dropWhile (· == '\n')).reverse ++ List.replicate n '\n' := by
        have := congrArg List.reverse h2
        rw [List.reverse_reverse, List.reverse_append, List.reverse_replicate] at this
        exact this.symm
      have h4 : (future.reverse.dropWhile (· == '\n')).reverse = future.take (future.length - n) := by
        generalize (future.reverse.dropWhile (· == '\n')).reverse = x at h3
        rw [h3]
        simp
      rw [← h4]; exact h3
    generalize hi : future.take (future.length - n) = imports at *
    refine ⟨imports, if Py.endsWith imports [';'] then [] else [';'], List.replicate n '\n' ++ code.drop off', ?_, ?_, ?_, ?_⟩
    · split <;> simp
    · rw [← List.append_assoc, ← hfut, ← hfu, List.take_append_drop]
    · split
      · exact .inl rfl
      · exact .inr rfl
    · intro off2 ho
      cases ho
      refine ⟨?_, ?_, ?_⟩
      · split
        · rename_i h
          rw [Py.endsWith_iff] at h
          obtain ⟨t, ht⟩ := h
          rw [← ht]; simp
        · simp
      rotate_left
      · refine ⟨(code.drop off).takeWhile skipped, n, (code.drop off).dropWhile skipped, List.takeWhile_append_dropWhile.symm, ?_, ?_, ?_⟩
        · intro c hc
          exact (skipped_iff c).1 (List.all_eq_true.1 List.all_takeWhile c hc)
        · intro c hc
          rw [← skipped_iff]
          have := List.head?_dropWhile_not skipped (code.drop off)
          rw [hc] at this
          simpa using this
        · congr 1
          rw [← hoff, ← List.drop_drop]
          generalize code.drop off = d
          have h := List.takeWhile_append_dropWhile (p := skipped) (l := d)
          generalize d.takeWhile skipped = a at h ⊢
          generalize d.dropWhile skipped = b at h ⊢
          subst h
          simp
      · intro hl
        have h1 : code.take off <+: future := by
          rw [← hfu, ← hoff]
          exact List.take_prefix_take_left (by omega)
        rw [hfut] at h1
        obtain ⟨t, ht⟩ := h1
        rcases List.append_eq_append_iff.1 ht with ⟨u, hu, _⟩ | ⟨u, hu, hv⟩
        · exact ⟨u, hu.symm⟩
        · rcases List.eq_nil_or_concat u with rfl | ⟨u, c, rfl⟩
          · exact ⟨[], by simpa using hu⟩
          · exfalso
            rw [List.concat_eq_append] at hu hv
            have hc : c = '\n' := by
              have : c ∈ List.replicate n '\n' := by rw [hv]; simp
              exact (List.mem_replicate.1 this).2
            apply hl
            rw [hu, hc]
            simp

/-- **C40.** The code run is the user's code, whole and in order: the imports from `__future__` are before the text that attaches
the debugger and the rest after it; without such imports the whole code is after it. -/
theorem c40_code_text (futureEnd : Str → Option Nat) (attach code : Str) : ∃ imports semi rest,
    pythonC futureEnd attach code = imports ++ semi ++ attach ++ rest ∧ imports ++ rest = code ∧ (semi = [] ∨ semi = c!";") ∧
    (¬ c!"__future__" <:+: code → imports = [] ∧ semi = []) ∧
    ∀ off, c!"__future__" <:+: code → futureEnd code = some off → (imports ++ semi).getLast? = some ';' ∧
      ((code.take off).getLast? ≠ some '\n' → code.take off <+: imports) ∧ Spec.Rest (code.drop off) rest := by
  unfold pythonC
  by_cases h : c!"__future__" <:+: code
  · rw [if_pos ((isIn_iff _ _).2 h)]
    obtain ⟨imports, semi, rest, h1, h2, h3, h4⟩ := separate_spec futureEnd code
    rw [h1]
    exact ⟨imports, semi, rest, rfl, h2, h3, fun hn => absurd h hn, fun off _ ho => h4 off ho⟩
  · rw [if_neg (fun hi => h ((isIn_iff _ _).1 hi))]
    exact ⟨[], [], code, rfl, rfl, .inl rfl, fun _ => ⟨rfl, rfl⟩, fun off hn _ => absurd hn h⟩

/-! ### In the subprocess -/

open CmdLine (Setup Val)

theorem putIf_val (c : Bool) (s : Setup) (k : Str) (v : Val) (n : Str) : putIf c s k v n = if c = true ∧ n = k then some v else s n := by
  unfold putIf Setup.put
  cases c <;> simp

/-- the names of the flags of the protocols -/
def Protocol.flag : Protocol → Option Str
  | .httpJson => some c!"json-dap-http"
  | .json => some c!"json-dap"
  | .quotedLine => some c!"protocol-quoted-line"
  | .http => some c!"protocol-http"
  | .other => none

/-- the value of a name in the setup handed over -/
theorem updated_val (w : World) (isExec : Bool) (setup : Setup) (n : Str) : updated w isExec (some setup) n =
    if n = c!"log-level" ∧ w.logLevel ≠ 0 then some (.int w.logLevel)
    else if n = c!"log-file" ∧ w.logFile ≠ [] then some (.str w.logFile)
    else if n = c!"preimport" ∧ w.preimport ≠ [] then some (.str w.preimport)
    else if n = c!"debug-mode" ∧ w.debugMode ≠ [] then some (.str w.debugMode)
    else if w.protocol.flag = some n then some (.bool true)
    else if n = c!"ppid" ∧ isExec = false then some (.int w.pid)
    else if n = c!"json-dap-http" ∨ n = c!"json-dap" ∨ n = c!"protocol-quoted-line" then none
    else setup n := by
  simp only [updated, putIf_val, decide_eq_true_eq, Option.getD_some]
  have e : ∀ (p : Prop) (k : Str), (p ∧ n = k) = (n = k ∧ p) := fun p k => propext and_comm
  simp only [e]
  refine congrArg (fun x => ite _ _ (ite _ _ (ite _ _ (ite _ _ x)))) ?_
  cases w.protocol <;> cases isExec <;> simp [Protocol.flag, Setup.put, drop] <;> grind

/-- a setup with the defaults for the names that are not in it -/
def complete (s : Setup) : Setup := fun n => some ((s n).getD (CmdLine.Spec.default n))

theorem setupToArgv_complete (f : Str) (s : Setup) (skip : List Str) :
    CmdLine.setupToArgv f s skip = CmdLine.setupToArgv f (complete s) skip := by
  unfold CmdLine.setupToArgv
  congr 1
  suffices h : ∀ hs : List CmdLine.Handler, (∀ h ∈ hs, h ∈ CmdLine.handlers) →
      (hs.flatMap fun h => if (s h.name).isSome ∧ h.name ∉ skip then h.toArgv s else []) =
      hs.flatMap fun h => if (complete s h.name).isSome ∧ h.name ∉ skip then h.toArgv (complete s) else [] from h _ fun _ h => h
  intro hs
  induction hs with
  | nil => intro _; rfl
  | cons h hs ih =>
    intro hm
    rw [List.flatMap_cons, List.flatMap_cons, ih fun x hx => hm x (by simp [hx])]
    congr 1
    have hd := CmdLine.dflt_eq h (hm h (by simp))
    have hb : ∀ h ∈ CmdLine.handlers, h.conv = none → h.dflt = .bool false := by decide
    cases hv : s h.name with
    | none =>
      simp only [complete, hv, CmdLine.Handler.toArgv, Option.isSome_none, Option.isSome_some, Bool.false_eq_true, false_and, if_false,
        Option.getD_none, Option.getD_some, true_and, ← hd]
      cases hc : h.conv with
      | none => simp [hb h (hm h (by simp)) hc, Val.truthy]
      | some c => simp
    | some v => simp [complete, hv, CmdLine.Handler.toArgv]

theorem optsOf_filter (setup : Setup) (skip : List Str) (k : Str) (hk : k ∈ skip) (hs : List CmdLine.Handler) :
    CmdLine.optsOf setup skip hs = CmdLine.optsOf setup skip (hs.filter fun h => h.name ≠ k) := by
  induction hs with
  | nil => rfl
  | cons h hs ih =>
    unfold CmdLine.optsOf at ih ⊢
    rw [List.flatMap_cons, ih, List.filter_cons]
    by_cases hn : h.name = k
    · simp [hn, hk]
    · simp [hn]

/-- parsing what the debugger is started with in the subprocess -/
theorem child_parse (pid : Int) (pydevd : Str) (setup : Setup) (hw : CmdLine.Spec.WellTyped pid (complete setup)) (isModule : Bool)
    (program : Str) (args : List Str) :
    ∃ fuel s, CmdLine.process pid fuel (pydevd :: ((if isModule then [c!"--module"] else []) ++
        ((CmdLine.setupToArgv pydevd setup [c!"module", c!"cmd-line"]).tail ++ c!"--file" :: program :: args))) = .ok s (program :: args) ∧
      s c!"file" = some (.str program) ∧ s c!"module" = some (.bool isModule) ∧ s c!"cmd-line" = some (.bool false) ∧
      ∀ n ∈ CmdLine.Spec.flags ++ CmdLine.Spec.texts ++ CmdLine.Spec.numbers, n ≠ c!"module" → n ≠ c!"cmd-line" → s n = complete setup n := by
  rw [setupToArgv_complete]
  generalize hc : complete setup = setup' at *
  generalize hskip : [c!"module", c!"cmd-line"] = skip
  let hs := CmdLine.handlers.filter fun h => h.name ≠ c!"module"
  have hsub : ∀ h ∈ hs, h ∈ CmdLine.handlers := fun h hm => (List.mem_filter.1 hm).1
  have hnd : (hs.map (·.name)).Nodup := (List.filter_sublist.map _).nodup CmdLine.names_nodup
  let s0 : Setup := CmdLine.initial.put c!"module" (.bool isModule)
  have hs0 : ∀ h ∈ hs, s0 h.name = some h.dflt := by
    intro h hm
    have h1 := (List.mem_filter.1 hm).2
    simp only [decide_eq_true_eq] at h1
    simp only [s0, Setup.put, h1, if_false]
    exact CmdLine.initial_handler (hsub h hm)
  obtain ⟨s1, h1, h2, h3⟩ := CmdLine.settings_optsOf pid setup' hw skip hs hsub hnd s0 hs0
  have hargs := CmdLine.optsOf_args setup' skip CmdLine.handlers (fun h hm => by
    obtain ⟨v, hv, _⟩ := CmdLine.fits hw h hm; simp [hv])
  have hset : CmdLine.Spec.settings pid ((if isModule then [.flag c!"module"] else []) ++ CmdLine.optsOf setup' skip CmdLine.handlers) CmdLine.initial = some s1 := by
    rw [optsOf_filter setup' skip c!"module" (by rw [← hskip]; simp)]
    cases isModule with
    | true =>
      have : (CmdLine.Spec.Opt.flag c!"module").setting pid = some (c!"module", .bool true) := by
        simp only [CmdLine.Spec.Opt.setting]; rw [if_pos (by decide)]
      simp only [if_true, List.singleton_append, CmdLine.Spec.settings, this]
      exact h1
    | false =>
      have : s0 = CmdLine.initial := by
        funext k
        simp only [s0, Setup.put]
        split
        · rename_i hk; rw [hk]; decide
        · rfl
      rw [this] at h1
      simp only [Bool.false_eq_true, if_false, List.nil_append]
      exact h1
  obtain ⟨fuel, hp⟩ := (CmdLine.c37_parse pid pydevd _ (CmdLine.Spec.withFile s1 (program :: args)) (program :: args)).2
    ⟨_, s1, rfl, hset, rfl⟩
  have hwf : ∀ k, k ≠ c!"file" → CmdLine.Spec.withFile s1 (program :: args) k = s1 k := by
    intro k hk; simp [CmdLine.Spec.withFile, Setup.put, hk]
  refine ⟨fuel, CmdLine.Spec.withFile s1 (program :: args), ?_, ?_, ?_, ?_, ?_⟩
  · rw [← hp]
    congr 2
    rw [List.flatMap_append, hargs, List.append_assoc]
    congr 1
    cases isModule <;> rfl
  · simp [CmdLine.Spec.withFile, Setup.put]
  · rw [hwf _ (by decide), h2 _ ?_]
    · simp [s0, Setup.put]
    · intro hm
      obtain ⟨h, hh, he⟩ := List.mem_map.1 hm
      have := (List.mem_filter.1 hh).2
      simp [he] at this
  · rw [hwf _ (by decide)]
    obtain ⟨h, hx⟩ := CmdLine.table c!"cmd-line" (by decide)
    have hm := List.mem_of_find?_eq_some hx
    have hn := List.find?_some hx
    simp only [beq_iff_eq] at hn
    have := h3 h (List.mem_filter.2 ⟨hm, by rw [hn]; decide⟩)
    rw [hn, if_pos (by rw [← hskip]; simp), CmdLine.dflt_eq h hm, hn] at this
    rw [this]; rfl
  · intro n hn h4 h5
    obtain ⟨h, hx⟩ := CmdLine.table n hn
    have hm := List.mem_of_find?_eq_some hx
    have hn' := List.find?_some hx
    simp only [beq_iff_eq] at hn'
    subst hn'
    have hfile : ∀ h ∈ CmdLine.handlers, h.name ≠ c!"file" := by decide
    rw [hwf _ (hfile h hm), h3 h (List.mem_filter.2 ⟨hm, by simpa using h4⟩), if_neg (by rw [← hskip]; simp [h4, h5])]

theorem updated_wellTyped (childPid : Int) (w : World) (isExec : Bool) (setup : Setup) (hw : CmdLine.Spec.WellTyped childPid setup)
    (hpid : isExec = false → w.pid ≠ childPid) : CmdLine.Spec.WellTyped childPid (complete (updated w isExec (some setup))) := by
  have hflag : ∀ p : Protocol, ∀ n, p.flag = some n → n ∈ CmdLine.Spec.flags := by
    intro p n h; cases p <;> simp only [Protocol.flag, Option.some.injEq, reduceCtorEq] at h <;> subst h <;> decide
  refine ⟨?_, ?_, ?_, ?_, ?_⟩
  · intro n hn
    have hnot : n ≠ c!"log-level" ∧ n ≠ c!"log-file" ∧ n ≠ c!"preimport" ∧ n ≠ c!"debug-mode" ∧ n ≠ c!"ppid" := by
      refine ⟨?_, ?_, ?_, ?_, ?_⟩ <;> (rintro rfl; exact absurd hn (by decide))
    simp only [complete, updated_val, hnot.1, hnot.2.1, hnot.2.2.1, hnot.2.2.2.1, hnot.2.2.2.2, false_and, if_false]
    split
    · exact ⟨true, rfl⟩
    · split
      · exact ⟨false, by simp [CmdLine.Spec.default, hn]⟩
      · obtain ⟨b, hb⟩ := hw.flag n hn
        exact ⟨b, by rw [hb]; rfl⟩
  · intro n hn
    have hnot : n ∉ CmdLine.Spec.flags := by
      have : ∀ n ∈ CmdLine.Spec.texts, n ∉ CmdLine.Spec.flags := by decide
      exact this n hn
    have h1 : n ≠ c!"log-level" ∧ n ≠ c!"ppid" ∧ ¬ (n = c!"json-dap-http" ∨ n = c!"json-dap" ∨ n = c!"protocol-quoted-line") := by
      refine ⟨?_, ?_, ?_⟩
      · rintro rfl; exact absurd hn (by decide)
      · rintro rfl; exact absurd hn (by decide)
      · rintro (rfl | rfl | rfl) <;> exact absurd hn (by decide)
    have h2 : w.protocol.flag ≠ some n := fun h => hnot (hflag _ _ h)
    simp only [complete, updated_val, h1.1, h1.2.1, h1.2.2, h2, false_and, if_false]
    split
    · exact .inr ⟨_, rfl⟩
    · split
      · exact .inr ⟨_, rfl⟩
      · split
        · exact .inr ⟨_, rfl⟩
        · rcases hw.text n hn with h | ⟨t, h⟩
          · left; rw [h]; rfl
          · right; exact ⟨t, by rw [h]; rfl⟩
  · have h2 : w.protocol.flag ≠ some c!"port" := fun h => absurd (hflag _ _ h) (by decide)
    obtain ⟨i, hi⟩ := hw.port
    refine ⟨i, ?_⟩
    simp only [complete, updated_val, h2, if_false]
    simp [hi]
  · have h2 : w.protocol.flag ≠ some c!"ppid" := fun h => absurd (hflag _ _ h) (by decide)
    obtain ⟨i, hi, h3⟩ := hw.ppid
    simp only [complete, updated_val, h2, if_false]
    cases isExec with
    | false => exact ⟨w.pid, by simp, fun h => absurd h (hpid rfl)⟩
    | true => exact ⟨i, by simp [hi], h3⟩
  · have h2 : w.protocol.flag ≠ some c!"log-level" := fun h => absurd (hflag _ _ h) (by decide)
    simp only [complete, updated_val, h2, if_false]
    by_cases hl : w.logLevel = 0
    · rcases hw.level with h | ⟨i, h⟩
      · left; simp [hl, h]
      · right; exact ⟨i, by simp [hl, h]⟩
    · right; exact ⟨w.logLevel, by simp [hl]⟩

/-- **C40.** What the debugger reads from its command line in the subprocess: exactly the user's program (or module) and its
arguments, the id of this process as the parent (kept when the process is replaced), the protocol in use, the current
debugging mode, preimport and log settings where there are any, and otherwise the settings of this process. -/
theorem c40_child (childPid : Int) (e : Env) (w : World) (isExec : Bool) (setup : Setup) (hw : CmdLine.Spec.WellTyped childPid setup)
    (hpid : isExec = false → w.pid ≠ childPid) (he : e.setup = updated w isExec (some setup)) (isModule : Bool) (program : Str) (args : List Str) :
    ∃ fuel s, CmdLine.process childPid fuel (e.pydevd :: ((if isModule then [c!"--module"] else []) ++
        (options e ++ c!"--file" :: program :: args))) = .ok s (program :: args) ∧
      s c!"file" = some (.str program) ∧ s c!"module" = some (.bool isModule) ∧
      s c!"ppid" = (if isExec then setup c!"ppid" else some (.int w.pid)) ∧
      (∀ n ∈ [c!"json-dap-http", c!"json-dap", c!"protocol-quoted-line"], s n = some (.bool (w.protocol.flag = some n))) ∧
      s c!"debug-mode" = (if w.debugMode = [] then setup c!"debug-mode" else some (.str w.debugMode)) ∧
      s c!"preimport" = (if w.preimport = [] then setup c!"preimport" else some (.str w.preimport)) ∧
      s c!"log-file" = (if w.logFile = [] then setup c!"log-file" else some (.str w.logFile)) ∧
      s c!"log-level" = (if w.logLevel = 0 then setup c!"log-level" else some (.int w.logLevel)) ∧
      ∀ n ∈ [c!"port", c!"client", c!"vm_type", c!"access-token", c!"client-access-token", c!"server", c!"multiproc", c!"multiprocess",
        c!"save-signatures", c!"save-threading", c!"save-asyncio", c!"print-in-debugger-startup", c!"skip-notify-stdin"], s n = setup n := by
  have hflag : ∀ p : Protocol, ∀ n, p.flag = some n → n ∈ CmdLine.Spec.flags := by
    intro p n h; cases p <;> simp only [Protocol.flag, Option.some.injEq, reduceCtorEq] at h <;> subst h <;> decide
  have hwt := updated_wellTyped childPid w isExec setup hw hpid
  obtain ⟨fuel, s, h1, h2, h3, _, h5⟩ := child_parse childPid e.pydevd _ hwt isModule program args
  have hsome : ∀ n ∈ CmdLine.Spec.flags ++ CmdLine.Spec.texts ++ CmdLine.Spec.numbers, ∃ v, setup n = some v := by
    intro n hn
    simp only [List.mem_append] at hn
    rcases hn with (hn | hn) | hn
    · obtain ⟨b, hb⟩ := hw.flag n hn; exact ⟨_, hb⟩
    · rcases hw.text n hn with h | ⟨t, h⟩ <;> exact ⟨_, h⟩
    · simp only [CmdLine.Spec.numbers, List.mem_cons, List.not_mem_nil, or_false] at hn
      rcases hn with rfl | rfl | rfl
      · obtain ⟨i, h⟩ := hw.port; exact ⟨_, h⟩
      · obtain ⟨i, h, _⟩ := hw.ppid; exact ⟨_, h⟩
      · rcases hw.level with h | ⟨i, h⟩ <;> exact ⟨_, h⟩
  have hval : ∀ n ∈ CmdLine.Spec.flags ++ CmdLine.Spec.texts ++ CmdLine.Spec.numbers, n ≠ c!"module" → n ≠ c!"cmd-line" →
      s n = some ((updated w isExec (some setup) n).getD (CmdLine.Spec.default n)) := fun n hn a b => h5 n hn a b
  refine ⟨fuel, s, ?_, h2, h3, ?_, ?_, ?_, ?_, ?_, ?_, ?_⟩
  · have : options e = (CmdLine.setupToArgv e.pydevd (updated w isExec (some setup)) [c!"module", c!"cmd-line"]).tail := by
      unfold options debugger; rw [he]
    rw [this]; exact h1
  · obtain ⟨v, hv⟩ := hsome c!"ppid" (by decide)
    have h6 : w.protocol.flag ≠ some c!"ppid" := fun h => absurd (hflag _ _ h) (by decide)
    rw [hval _ (by decide) (by decide) (by decide), updated_val]
    cases isExec <;> simp [h6, hv]
  · intro n hn
    have hne : n ≠ c!"log-level" ∧ n ≠ c!"log-file" ∧ n ≠ c!"preimport" ∧ n ≠ c!"debug-mode" ∧ n ≠ c!"ppid" ∧ n ≠ c!"module" ∧ n ≠ c!"cmd-line" ∧
        n ∈ CmdLine.Spec.flags ∧ n ∈ CmdLine.Spec.flags ++ CmdLine.Spec.texts ++ CmdLine.Spec.numbers := by
      revert n; decide
    rw [hval _ hne.2.2.2.2.2.2.2.2 hne.2.2.2.2.2.1 hne.2.2.2.2.2.2.1, updated_val]
    simp only [hne.1, hne.2.1, hne.2.2.1, hne.2.2.2.1, hne.2.2.2.2.1, false_and, if_false]
    by_cases hp : w.protocol.flag = some n
    · simp [hp]
    · rw [if_neg hp, if_pos (by simpa using hn)]
      simp [hp, CmdLine.Spec.default, hne.2.2.2.2.2.2.2.1]
  · obtain ⟨v, hv⟩ := hsome c!"debug-mode" (by decide)
    have h6 : w.protocol.flag ≠ some c!"debug-mode" := fun h => absurd (hflag _ _ h) (by decide)
    rw [hval _ (by decide) (by decide) (by decide), updated_val]
    by_cases h : w.debugMode = [] <;> simp [h6, hv, h]
  · obtain ⟨v, hv⟩ := hsome c!"preimport" (by decide)
    have h6 : w.protocol.flag ≠ some c!"preimport" := fun h => absurd (hflag _ _ h) (by decide)
    rw [hval _ (by decide) (by decide) (by decide), updated_val]
    by_cases h : w.preimport = [] <;> simp [h6, hv, h]
  · obtain ⟨v, hv⟩ := hsome c!"log-file" (by decide)
    have h6 : w.protocol.flag ≠ some c!"log-file" := fun h => absurd (hflag _ _ h) (by decide)
    rw [hval _ (by decide) (by decide) (by decide), updated_val]
    by_cases h : w.logFile = [] <;> simp [h6, hv, h]
  · obtain ⟨v, hv⟩ := hsome c!"log-level" (by decide)
    have h6 : w.protocol.flag ≠ some c!"log-level" := fun h => absurd (hflag _ _ h) (by decide)
    rw [hval _ (by decide) (by decide) (by decide), updated_val]
    by_cases h : w.logLevel = 0 <;> simp [h6, hv, h]
  · intro n hn
    have hne : n ≠ c!"log-level" ∧ n ≠ c!"log-file" ∧ n ≠ c!"preimport" ∧ n ≠ c!"debug-mode" ∧ n ≠ c!"ppid" ∧ n ≠ c!"module" ∧ n ≠ c!"cmd-line" ∧
        n ∈ CmdLine.Spec.flags ++ CmdLine.Spec.texts ++ CmdLine.Spec.numbers := by
      revert n; decide
    have hnp : ∀ p : Protocol, p.flag ≠ some n := by
      have h0 : ∀ n ∈ [c!"port", c!"client", c!"vm_type", c!"access-token", c!"client-access-token", c!"server", c!"multiproc", c!"multiprocess",
        c!"save-signatures", c!"save-threading", c!"save-asyncio", c!"print-in-debugger-startup", c!"skip-notify-stdin"],
        n ≠ c!"json-dap-http" ∧ n ≠ c!"json-dap" ∧ n ≠ c!"protocol-quoted-line" ∧ n ≠ c!"protocol-http" := by decide
      have h0 := h0 n hn
      intro p hp
      cases p <;> simp only [Protocol.flag, Option.some.injEq, reduceCtorEq] at hp <;> subst hp <;> simp at h0
    have hnd : ¬ (n = c!"json-dap-http" ∨ n = c!"json-dap" ∨ n = c!"protocol-quoted-line") := by
      rintro (h | h | h)
      · exact hnp .httpJson (by rw [h]; rfl)
      · exact hnp .json (by rw [h]; rfl)
      · exact hnp .quotedLine (by rw [h]; rfl)
    obtain ⟨v, hv⟩ := hsome n hne.2.2.2.2.2.2.2
    rw [hval _ hne.2.2.2.2.2.2.2 hne.2.2.2.2.2.1 hne.2.2.2.2.2.2.1, updated_val]
    simp only [hne.1, hne.2.1, hne.2.2.1, hne.2.2.2.1, hne.2.2.2.2.1, false_and, if_false, hnp, hnd, hv, Option.getD_some]

/-! ### Windows -/

/-- the argument is not enclosed in double quotes -/
def NotEnclosed (a : Str) : Prop := a = c!"\"\"" ∨ ¬ ∃ inner, a = '"' :: (inner ++ ['"'])

theorem unquote_of_notEnclosed {a : Str} (h : NotEnclosed a) : unquote a = a := by
  unfold unquote
  split
  · rename_i hc
    obtain ⟨h1, h2, h3, h4⟩ := hc
    rcases h with h | h
    · exact absurd h h1
    · exfalso
      rw [Py.startsWith_iff] at h3
      rw [Py.endsWith_iff] at h4
      obtain ⟨t, ht⟩ := h3
      obtain ⟨u, hu⟩ := h4
      cases u with
      | nil => rw [← hu] at h2; simp at h2
      | cons c u =>
        rw [← ht] at hu
        simp only [List.cons_append, List.nil_append, List.cons.injEq] at hu
        apply h
        exact ⟨u, by rw [← ht, ← hu.2]; rfl⟩
  · rfl

/-- **C40.** On Windows the command line is split, changed and put together again: the subprocess gets the arguments of the
changed list (as given by `c40_windows_script` and so on), if none is enclosed in quotes, ends in a backslash and a newline, or
is the last one, not quoted and ends in a backslash. -/
theorem c40_windows (p : Bool) (e : Env) (hwin : e.win = true) (args new : List Str) (exe : Str) (hexe : args.head? = some exe)
    (hx : isPython true exe = true) (hq : ∀ a ∈ args, NotEnclosed a)
    (hn : ∀ a ∈ args ++ new, ¬ WinQuote.Spec.SlashNewline a) (hlast : (WinQuote.commandLine args).getLast? ≠ some '\\')
    (hnew : patchCore e args = some new) (found : List Str) :
    WinQuote.Spec.Splits p (patchArgStr e (WinQuote.commandLine args)) found ↔ found = new := by
  have h1 := WinQuote.c39_own_split args (fun a ha => hn a (by simp [ha])) hlast
  have h2 : removeQuotes e.win args = args := by
    unfold removeQuotes
    rw [hwin, if_pos rfl]
    have : ∀ l : List Str, (∀ a ∈ l, NotEnclosed a) → l.map unquote = l := by
      intro l
      induction l with
      | nil => intro _; rfl
      | cons a l ih => intro h; rw [List.map_cons, unquote_of_notEnclosed (h a (by simp)), ih fun x hx => h x (by simp [hx])]
    exact this args hq
  cases args with
  | nil => cases hexe
  | cons a args =>
    simp only [List.head?_cons, Option.some.injEq] at hexe
    subst hexe
    have h3 : patchArgStr e (WinQuote.commandLine (a :: args)) = WinQuote.commandLine new := by
      unfold patchArgStr
      rw [h1]
      simp only [hwin, hx, Bool.true_eq_false, if_false]
      unfold patchArgs
      rw [h2, hnew]
      simp only [hwin, if_true]
      rfl
    rw [h3]
    exact WinQuote.c39_round_trip p new (fun a ha => hn a (by simp [ha])) found

/-- a script -/
theorem c40_windows_script (e : Env) (exe : Str) (flags : List Str) (program : Str) (args : List Str) (hx : isPython e.win exe = true)
    (hf : Flags flags) (hp : program.head? ≠ some '-') (hm : ¬ c!"pydevd.py" <:+ program) :
    patchCore e (exe :: (flags ++ program :: args)) = some (exe :: (flags ++ e.pydevd :: (options e ++ c!"--file" :: program :: args))) :=
  core_script e exe flags program args hx hf hp hm

/-- a module -/
theorem c40_windows_module (e : Env) (exe : Str) (flags : List Str) (letters name : Str) (m args : List Str) (hx : isPython e.win exe = true)
    (hf : Flags flags) (hm : Valued 'm' letters name m) :
    patchCore e (exe :: (flags ++ m ++ args)) =
      some (exe :: (flags ++ (if letters = [] then [] else ['-' :: letters]) ++ e.pydevd :: c!"--module" :: (options e ++ c!"--file" :: name :: args))) :=
  core_module e exe flags letters name m args hx hf hm

/-- code -/
theorem c40_windows_code (e : Env) (exe : Str) (flags : List Str) (letters code : Str) (c args : List Str) (hx : isPython e.win exe = true)
    (hf : Flags flags) (hc : Valued 'c' letters code c) (attach : Str) (ha : e.attach = some attach) :
    patchCore e (exe :: (flags ++ c ++ args)) =
      some (exe :: (flags ++ ('-' :: (letters ++ ['c'])) :: pythonC e.futureEnd attach code :: args)) :=
  core_code e exe flags letters code c args hx hf hc attach ha

/-- a debugger without options on Windows -/
def winEnv : Env := ⟨true, c!"pydevd.py", fun _ => none, none, fun _ => none⟩

/-- On Windows a command that should be left as it is loses its quotes: the standard input given to
`"C:\Program Files\python.exe" -` goes to `C:\Program`. -/
theorem c40_windows_untouched : patchArgStr winEnv c!"\"C:\\Program Files\\python.exe\" -" = c!"C:\\Program Files\\python.exe -" := by
  decide

/-- On Windows an argument that is enclosed in double quotes loses them: the argument `"a"` arrives as `a`. -/
theorem c40_windows_quotes : WinQuote.strToArgs c!"python x.py \"\\\"a\\\"\"" = [c!"python", c!"x.py", c!"\"a\""] ∧
    patchArgStr winEnv c!"python x.py \"\\\"a\\\"\"" = c!"python pydevd.py --file x.py a" := by
  decide

/-! ### Twice

`os.execl` calls `os.execv`, `os.spawnl` calls `os.spawnv`, and so on: all of them are patched, so one start may go through
`patch_args` more than once. -/

theorem flags_append {a b : List Str} (ha : Flags a) (hb : Flags b) : Flags (a ++ b) := by
  induction ha with
  | nil => exact hb
  | cons f fs h _ ih => rw [List.append_assoc]; exact .cons f _ h ih

theorem plain_of_valued {c : Char} {letters value : Str} {m : List Str} (h : Valued c letters value m) :
    Plain letters ∧ Short ('-' :: letters) := by
  have sub : ∀ rest : Str, Short ('-' :: (letters ++ rest)) → Short ('-' :: letters) := by
    intro rest hs n hn hp
    exact hs n hn (hp.trans ⟨rest, by simp⟩)
  cases h with
  | separate h hs => exact ⟨h, sub _ hs⟩
  | joined h hs _ => exact ⟨h, sub _ hs⟩

/-- **C40.** A command that was patched is left as it is when it is patched again, also with another setup, unless it runs code
given with `-c`. -/
theorem c40_again (e e' : Env) (hwin : e.win = false) (hwin' : e'.win = false) (exe : Str) (flags rest : List Str) (hf : Flags flags)
    (hd : e.pydevd.head? ≠ some '-') (hm : c!"pydevd.py" <:+ e.pydevd)
    (hr : NoTarget rest ∨ (∃ program args, rest = program :: args ∧ program.head? ≠ some '-') ∨
      ∃ letters name m args, rest = m ++ args ∧ Valued 'm' letters name m) :
    patchArgs e' (patchArgs e (exe :: (flags ++ rest))) = patchArgs e (exe :: (flags ++ rest)) := by
  by_cases hx : RunsPython exe
  · rcases hr with hr | ⟨program, args, rfl, hp⟩ | ⟨letters, name, m, args, rfl, hv⟩
    · rw [c40_untouched e hwin exe flags rest hf hr, c40_untouched e' hwin' exe flags rest hf hr]
    · by_cases hmp : c!"pydevd.py" <:+ program
      · rw [c40_untouched e hwin exe flags _ hf (.managed program args hp hmp),
          c40_untouched e' hwin' exe flags _ hf (.managed program args hp hmp)]
      · rw [c40_script e hwin exe flags program args hx hf hp hmp]
        exact c40_untouched e' hwin' exe flags _ hf (.managed _ _ hd hm)
    · rw [← List.append_assoc, c40_module e hwin exe flags letters name m args hx hf hv]
      refine c40_untouched e' hwin' exe _ _ (flags_append hf ?_) (.managed _ _ hd hm)
      obtain ⟨h1, h2⟩ := plain_of_valued hv
      by_cases hl : letters = []
      · rw [if_pos hl]; exact .nil
      · rw [if_neg hl]
        exact .cons ['-' :: letters] [] (.plain letters h1 hl h2) .nil
  · rw [c40_not_python e hwin exe _ hx, c40_not_python e' hwin' exe _ hx]

/-- Code given with `-c` gets the text that attaches the debugger each time: a program that uses `os.execl` or `os.spawnl` starts a
process that attaches twice. -/
theorem c40_again_code_witness :
    let e : Env := ⟨false, c!"/d/pydevd.py", fun _ => none, some c!"attach(); ", fun _ => none⟩
    patchArgs e (patchArgs e [c!"python", c!"-c", c!"f()"]) = [c!"python", c!"-c", c!"attach(); attach(); f()"] := by decide

/-! ### Examples -/

/-- a debugger without options -/
def env : Env := ⟨false, c!"/d/pydevd.py", fun _ => none, some c!"attach(); ", fun _ => some 31⟩

example : RunsPython c!"/usr/bin/Python3" := (c40_is_python _).1 (by decide)
example : ¬ RunsPython c!"/usr/lib/python3/ls" := fun h => absurd ((c40_is_python _).2 h) (by decide)

example : Flags [c!"-O", c!"-W", c!"ignore", c!"-Xdev"] :=
  .cons [c!"-O"] _ (.plain c!"O" (by unfold Plain; decide) (by decide) (by unfold Short; decide))
    (.cons [c!"-W", c!"ignore"] _ (.separate [] 'W' c!"ignore" (by unfold Plain; decide) (by decide) (by unfold Short; decide))
      (.cons [c!"-Xdev"] [] (.joined [] 'X' c!"dev" (by unfold Plain; decide) (by decide) (by decide) (by unfold Short; decide)) .nil))

example : patchArgs env [c!"python", c!"-O", c!"-W", c!"ignore", c!"-Xdev", c!"x.py", c!"-m", c!"a"] =
    [c!"python", c!"-O", c!"-W", c!"ignore", c!"-Xdev", c!"/d/pydevd.py", c!"--file", c!"x.py", c!"-m", c!"a"] := by decide

example : Valued 'm' c!"q" c!"mod" [c!"-qm", c!"mod"] := .separate (by unfold Plain; decide) (by unfold Short; decide)

example : patchArgs env [c!"python", c!"-qm", c!"mod", c!"-c", c!"a"] =
    [c!"python", c!"-q", c!"/d/pydevd.py", c!"--module", c!"--file", c!"mod", c!"-c", c!"a"] := by decide

example : Valued 'c' [] c!"print(1)" [c!"-cprint(1)"] := .joined (by unfold Plain; decide) (by unfold Short; decide) (by decide)

example : patchArgs env [c!"python", c!"-cprint(1)", c!"a"] = [c!"python", c!"-c", c!"attach(); print(1)", c!"a"] := by decide

example : pythonC env.futureEnd c!"attach(); " c!"from __future__ import division\nprint(1)" =
    c!"from __future__ import division;attach(); \nprint(1)" := by decide

example : NoTarget [c!"/d/pydevd.py", c!"--file", c!"x.py"] := .managed _ _ (by decide) (by decide)

example : NotEnclosed c!"a b" := .inr (by rintro ⟨i, hi⟩; cases hi)

end PatchArgs
