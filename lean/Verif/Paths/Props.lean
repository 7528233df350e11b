import Verif.Paths.Model
/-!
C30 (path mapping), C31 (source references).
-/

namespace Paths

variable {P : Plat}

/-! ### C30 -/

/-- A root as a user writes it: not relative to `.`, no separator at the end, with the separators of its own side. -/
structure PlainRoot (sep : Char) (r : Str) : Prop where
  notRelative : ∀ t, r ≠ '.' :: t
  noEnd : endsWithSlash r = false
  seps : sep ≠ '/' → '/' ∉ r

/-- The separators of the server in a relative path, as the client writes them. -/
def conv (P : Plat) (s : Str) : Str := if P.clSep ≠ P.pySep then Py.replaceChar P.pySep P.clSep s else s

theorem replaceChar_of_not_mem {a b : Char} {s : Str} (h : a ∉ s) : Py.replaceChar a b s = s := by
  induction s with
  | nil => rfl
  | cons c s ih =>
    simp only [List.mem_cons, not_or] at h
    show (if c = a then b else c) :: Py.replaceChar a b s = _
    rw [if_neg (Ne.symm h.1), ih h.2]

theorem replaceChar_append (a b : Char) (s t : Str) : Py.replaceChar a b (s ++ t) = Py.replaceChar a b s ++ Py.replaceChar a b t := by
  simp [Py.replaceChar]

theorem replaceChar_back {a b : Char} {s : Str} (h : b ∉ s) : Py.replaceChar b a (Py.replaceChar a b s) = s := by
  induction s with
  | nil => rfl
  | cons c s ih =>
    simp only [List.mem_cons, not_or] at h
    have := ih h.2
    simp only [Py.replaceChar, List.map_cons] at this ⊢
    rw [this]
    by_cases hc : c = a
    · simp [hc]
    · simp [hc, Ne.symm h.1]

theorem fixPath_bare {sep : Char} {r : Str} (h : PlainRoot sep r) : fixPath P r sep false = r := by
  unfold fixPath
  have h1 : Py.startsWith r ['.'] = false := by
    rw [Bool.eq_false_iff, ne_eq, Py.startsWith_iff]
    rintro ⟨t, ht⟩; exact h.notRelative t ht.symm
  have h2 := h.noEnd
  simp only [endsWithSlash, Bool.or_eq_false_iff] at h2
  simp only [h1, h2.1, h2.2, Bool.false_eq_true, if_false, Bool.or_self]
  split
  · rename_i hs; exact replaceChar_of_not_mem (h.seps hs)
  · rfl

theorem fixPath_slash {sep : Char} {r : Str} (h : PlainRoot sep r) : fixPath P r sep true = r ++ [sep] := by
  unfold fixPath
  have h1 : Py.startsWith r ['.'] = false := by
    rw [Bool.eq_false_iff, ne_eq, Py.startsWith_iff]
    rintro ⟨t, ht⟩; exact h.notRelative t ht.symm
  have h2 := h.noEnd
  simp only [endsWithSlash, Bool.or_eq_false_iff] at h2
  simp only [h1, h2.1, h2.2, Bool.false_eq_true, if_false, if_true, Bool.not_false, Bool.and_self]
  by_cases hs : sep = '/'
  · simp [hs]
  · rw [if_pos hs, replaceChar_append, replaceChar_of_not_mem (h.seps hs)]
    simp [Py.replaceChar]

/-- A table of plain roots. -/
def PlainTable (P : Plat) (paths : List (Str × Str)) : Prop := ∀ e ∈ paths, PlainRoot P.clSep e.1 ∧ PlainRoot P.pySep e.2

theorem entries_plain {paths : List (Str × Str)} (h : PlainTable P paths) :
    entries P paths = paths.map (fun e => (e.1 ++ [P.clSep], e.2 ++ [P.pySep])) ++ paths := by
  have hs : ∀ e ∈ paths, onlySlash e = false := by
    intro e he; unfold onlySlash; rw [(h e he).1.noEnd]; rfl
  have hb : ∀ e ∈ paths, bareEntry P e = e := by
    intro e he
    unfold bareEntry
    rw [hs e he]
    simp only [Bool.false_eq_true, if_false]
    rw [fixPath_bare (h e he).1, fixPath_bare (h e he).2]
  unfold entries
  congr 1
  · apply List.map_congr_left
    intro e he
    unfold slashEntry
    rw [hb e he, fixPath_slash (h e he).1, fixPath_slash (h e he).2]
  · rw [List.filter_eq_self.2 (fun e he => by simp [hs e he])]
    have : paths.map (bareEntry P) = paths.map id := List.map_congr_left fun e he => hb e he
    rw [this, List.map_id]

/-- `f` is a path as the debugger sees it. -/
def Actual (P : Plat) (f : Str) : Prop := P.absolute f = f ∧ P.realCase f = f

theorem find_split {α : Type} {p : α → Bool} {pre post : List α} {x : α} (h1 : ∀ y ∈ pre, p y = false) (h2 : p x = true) :
    (pre ++ x :: post).find? p = some x := by
  rw [List.find?_append, List.find?_eq_none.2 (by intro y hy; simp [h1 y hy])]
  simp [h2]

/-- A file under a mapped server root, with no earlier root of the table above it, is shown under the client root,
with the client's separators. -/
theorem c30_to_client {pre post : List (Str × Str)} {c s s' rest : Str} (ht : PlainTable P (pre ++ (c, s) :: post))
    (hf : Actual P (s' ++ P.pySep :: rest)) (hs : s'.map P.sn = s.map P.sn)
    (hpre : ∀ e ∈ pre, ¬(e.2 ++ [P.pySep]).map P.sn <+: (s' ++ P.pySep :: rest).map P.sn)
    (hc : P.clSep ≠ P.pySep → P.pySep ∉ c) :
    toClient P (entries P (pre ++ (c, s) :: post)) (s' ++ P.pySep :: rest) = (c ++ P.clSep :: conv P rest, true) := by
  have hlen : s'.length = s.length := by have := congrArg List.length hs; simpa using this
  rw [entries_plain ht]
  unfold toClient
  simp only [hf.1, hf.2]
  have hfind : (((pre ++ (c, s) :: post).map (fun e => (e.1 ++ [P.clSep], e.2 ++ [P.pySep])) ++ (pre ++ (c, s) :: post)).find?
      (fun e => Py.startsWith ((s' ++ P.pySep :: rest).map P.sn) (e.2.map P.sn))) = some (c ++ [P.clSep], s ++ [P.pySep]) := by
    rw [List.map_append (f := fun e : Str × Str => (e.1 ++ [P.clSep], e.2 ++ [P.pySep])), List.map_cons, List.append_assoc,
      List.cons_append]
    apply find_split
    · intro y hy
      obtain ⟨e, he, rfl⟩ := List.mem_map.1 hy
      rw [Bool.eq_false_iff, ne_eq, Py.startsWith_iff]
      exact hpre e he
    · rw [Py.startsWith_iff]
      refine ⟨rest.map P.sn, ?_⟩
      simp [hs]
  simp only [hfind]
  rw [if_neg (by simp)]
  simp only [Option.isSome_some, Prod.mk.injEq, and_true]
  have hdrop : (s' ++ P.pySep :: rest).drop (s ++ [P.pySep]).length = rest := by
    have : (s' ++ P.pySep :: rest) = (s' ++ [P.pySep]) ++ rest := by simp
    rw [this, List.length_append, ← hlen, ← List.length_append, List.drop_left]
  rw [hdrop]
  unfold conv
  by_cases hd : P.clSep ≠ P.pySep
  · rw [if_pos hd, if_pos hd, replaceChar_append, replaceChar_append, replaceChar_of_not_mem (hc hd),
      replaceChar_of_not_mem (by simp [Ne.symm hd])]
    simp
  · rw [if_neg hd, if_neg hd]; simp

/-- ... and back: the client's path, if no earlier client root of the table is above it, is mapped to the original
file (with the server root in normalized case). -/
theorem c30_to_server {pre post : List (Str × Str)} {c s c' rest : Str} (ht : PlainTable P (pre ++ (c, s) :: post))
    (hc' : c'.map P.cn = c.map P.cn)
    (hpre : ∀ e ∈ pre, ¬(e.1 ++ [P.clSep]).map P.cn <+: (c' ++ P.clSep :: conv P rest).map P.cn)
    (hsep : P.sn P.pySep = P.pySep)
    (hc : P.clSep ≠ P.pySep → P.pySep ∉ c' ∧ P.clSep ∉ s.map P.sn ∧ P.clSep ∉ rest) :
    toServer P (entries P (pre ++ (c, s) :: post)) (c' ++ P.clSep :: conv P rest) =
      P.absolute (s.map P.sn ++ P.pySep :: rest) := by
  have hlen : c'.length = c.length := by have := congrArg List.length hc'; simpa using this
  rw [entries_plain ht]
  unfold toServer
  rw [if_neg (by simp)]
  have hfn : (if P.clSep ≠ P.pySep then Py.replaceChar P.pySep P.clSep (c' ++ P.clSep :: conv P rest)
      else c' ++ P.clSep :: conv P rest) = c' ++ P.clSep :: conv P rest := by
    split
    · rename_i hd
      have h1 : P.pySep ∉ conv P rest := by
        unfold conv; rw [if_pos hd]
        simp only [Py.replaceChar, List.mem_map, not_exists, not_and]
        intro x _ hx
        split at hx
        · exact hd hx
        · rename_i hne; exact hne hx
      apply replaceChar_of_not_mem
      simp only [List.mem_append, List.mem_cons, not_or]
      exact ⟨(hc hd).1, Ne.symm hd, h1⟩
    · rfl
  simp only [hfn]
  have hfind : (((pre ++ (c, s) :: post).map (fun e => (e.1 ++ [P.clSep], e.2 ++ [P.pySep])) ++ (pre ++ (c, s) :: post)).find?
      (fun e => Py.startsWith ((c' ++ P.clSep :: conv P rest).map P.cn) (e.1.map P.cn))) = some (c ++ [P.clSep], s ++ [P.pySep]) := by
    rw [List.map_append (f := fun e : Str × Str => (e.1 ++ [P.clSep], e.2 ++ [P.pySep])), List.map_cons, List.append_assoc,
      List.cons_append]
    apply find_split
    · intro y hy
      obtain ⟨e, he, rfl⟩ := List.mem_map.1 hy
      rw [Bool.eq_false_iff, ne_eq, Py.startsWith_iff]
      exact hpre e he
    · rw [Py.startsWith_iff]
      refine ⟨(conv P rest).map P.cn, ?_⟩
      simp [hc']
  simp only [hfind, Option.isSome_some, Bool.true_or, if_true]
  have hdrop : (c' ++ P.clSep :: conv P rest).drop (c ++ [P.clSep]).length = conv P rest := by
    have : (c' ++ P.clSep :: conv P rest) = (c' ++ [P.clSep]) ++ conv P rest := by simp
    rw [this, List.length_append, ← hlen, ← List.length_append, List.drop_left]
  rw [hdrop]
  congr 1
  unfold conv
  by_cases hd : P.clSep ≠ P.pySep
  · rw [if_pos hd, if_pos hd, replaceChar_append, replaceChar_back (hc hd).2.2, List.map_append, replaceChar_append,
      replaceChar_of_not_mem (hc hd).2.1]
    simp [Py.replaceChar, hsep, Ne.symm hd]
  · rw [if_neg hd, if_neg hd]; simp [hsep]

/-- The round trip, on a server where case matters: the original file. -/
theorem c30_round_trip {pre post : List (Str × Str)} {c s rest : Str} (ht : PlainTable P (pre ++ (c, s) :: post))
    (hid : P.sn = id) (hf : Actual P (s ++ P.pySep :: rest))
    (hpreS : ∀ e ∈ pre, ¬(e.2 ++ [P.pySep]) <+: (s ++ P.pySep :: rest))
    (hpreC : ∀ e ∈ pre, ¬(e.1 ++ [P.clSep]).map P.cn <+: (c ++ P.clSep :: conv P rest).map P.cn)
    (hc : P.clSep ≠ P.pySep → P.pySep ∉ c ∧ P.clSep ∉ s ∧ P.clSep ∉ rest) :
    toServer P (entries P (pre ++ (c, s) :: post))
      (toClient P (entries P (pre ++ (c, s) :: post)) (s ++ P.pySep :: rest)).1 = s ++ P.pySep :: rest := by
  rw [c30_to_client ht hf rfl (by simpa [hid] using hpreS) (fun hd => (hc hd).1)]
  have := c30_to_server (rest := rest) ht rfl hpreC (by rw [hid]; rfl) (by simpa [hid] using hc)
  rw [this, hid]
  simpa using hf.1

/-- A file whose name no server root of the table begins is shown as it is (with the client's separators) and is
marked as not mapped. -/
theorem c30_unmapped {paths : List (Str × Str)} {f : Str} (hf : Actual P f) (ht : PlainTable P paths) (hne : paths ≠ [])
    (h : ∀ e ∈ paths, ¬e.2.map P.sn <+: f.map P.sn) :
    toClient P (entries P paths) f = (conv P f, false) := by
  rw [entries_plain ht]
  unfold toClient
  simp only [hf.1, hf.2]
  have hfind : ((paths.map (fun e => (e.1 ++ [P.clSep], e.2 ++ [P.pySep])) ++ paths).find?
      (fun e => Py.startsWith (f.map P.sn) (e.2.map P.sn))) = none := by
    rw [List.find?_eq_none]
    intro e he
    rw [Py.startsWith_iff]
    intro hp
    rcases List.mem_append.1 he with he | he
    · obtain ⟨e', he', rfl⟩ := List.mem_map.1 he
      apply h e' he'
      refine List.IsPrefix.trans ?_ hp
      simp
    · exact h e he hp
  simp only [hfind]
  rw [if_neg (by simp [hne])]
  rfl

/-- Without a table nothing is translated to the server. -/
theorem c30_no_table (f : Str) : toServer P (entries P []) f = f ∧ toClient P (entries P []) f = (P.realCase (P.absolute f), false) := by
  constructor <;> rfl

/-- a Windows client and a Linux server -/
def winClient : Plat := { clSep := '\\', pySep := '/' }
def winPaths : List (Str × Str) := [(c!"C:\\src\\lib", c!"/opt/lib"), (c!"C:\\src\\app", c!"/srv/app")]

example : PlainTable winClient winPaths := by
  intro e he
  simp only [winPaths, List.mem_cons, List.not_mem_nil, or_false] at he
  rcases he with rfl | rfl <;> exact ⟨⟨by simp, by decide, by decide⟩, ⟨by simp, by decide, by decide⟩⟩
example : toClient winClient (entries winClient winPaths) c!"/srv/app/pkg/m.py" = (c!"C:\\src\\app\\pkg\\m.py", true) := by decide
example : toServer winClient (entries winClient winPaths) c!"C:\\src\\app\\pkg\\m.py" = c!"/srv/app/pkg/m.py" := by decide
example : toClient winClient (entries winClient winPaths) c!"/usr/lib/os.py" = (c!"\\usr\\lib\\os.py", false) := by decide

/-- A root written without a final separator also catches sibling directories whose name begins with its name ... -/
theorem c30_sibling_mapped :
    toClient {} (entries {} [(c!"/c/proj", c!"/s/proj")]) c!"/s/project2/a.py" = (c!"/c/project2/a.py", true) := by decide

/-- ... unless both sides are written with a final separator: then exactly the files below the roots are mapped. -/
theorem c30_slash_roots {paths : List (Str × Str)} {f : Str} (hf : Actual P f) (hne : paths ≠ [])
    (hsep : P.pySep = '/') (h : ∀ e ∈ paths, endsWithSlash e.1 = true ∧ endsWithSlash e.2 = true ∧ ∀ t, e.2 ≠ '.' :: t) :
    (toClient P (entries P paths) f).2 = true ↔ ∃ e ∈ paths, e.2.map P.sn <+: f.map P.sn := by
  have hslash : ∀ e ∈ paths, (slashEntry P e).2 = e.2 := by
    intro e he
    obtain ⟨h1, h2, h3⟩ := h e he
    unfold slashEntry bareEntry onlySlash
    rw [h1, h2]
    simp only [Bool.and_self, if_true]
    unfold fixPath
    have h4 : Py.startsWith e.2 ['.'] = false := by
      rw [Bool.eq_false_iff, ne_eq, Py.startsWith_iff]
      rintro ⟨t, ht⟩; exact h3 t ht.symm
    have h5 : (!Py.endsWith e.2 ['/'] && !Py.endsWith e.2 ['\\']) = false := by
      rw [← Bool.not_or]; unfold endsWithSlash at h2; rw [h2]; rfl
    simp [h4, h5, hsep]
  have hfil : paths.filter (fun e => !onlySlash e) = [] := by
    rw [List.filter_eq_nil_iff]
    intro e he
    unfold onlySlash
    rw [(h e he).1, (h e he).2.1]
    simp
  unfold toClient entries
  simp only [hf.1, hf.2, hfil]
  simp only [List.map_nil, List.append_nil, List.isEmpty_iff, List.map_eq_nil_iff]
  rw [if_neg hne]
  simp only [List.find?_map, Option.isSome_map]
  rw [List.find?_isSome]
  constructor
  · rintro ⟨e, he, hp⟩
    refine ⟨e, he, ?_⟩
    simp only [Function.comp, Py.startsWith_iff, hslash e he] at hp
    exact hp
  · rintro ⟨e, he, hp⟩
    refine ⟨e, he, ?_⟩
    simp only [Function.comp, Py.startsWith_iff, hslash e he]
    exact hp

theorem fixPath_drop {sep x : Char} {r : Str} (h : PlainRoot sep r) (hx : x = '/' ∨ x = '\\') :
    fixPath P (r ++ [x]) sep false = r := by
  unfold fixPath
  have h1 : Py.startsWith (r ++ [x]) ['.'] = false := by
    rw [Bool.eq_false_iff, ne_eq, Py.startsWith_iff]
    rintro ⟨t, ht⟩
    cases r with
    | nil => rcases hx with rfl | rfl <;> simp at ht
    | cons a r =>
      simp only [List.cons_append, List.nil_append, List.cons.injEq] at ht
      exact h.notRelative r (by rw [← ht.1])
  have h2 : (Py.endsWith (r ++ [x]) ['/'] || Py.endsWith (r ++ [x]) ['\\']) = true := by
    rcases hx with rfl | rfl <;> simp [Py.endsWith_iff]
  simp only [h1, h2, Bool.false_eq_true, if_false, if_true, List.dropLast_concat]
  split
  · rename_i hs; exact replaceChar_of_not_mem (h.seps hs)
  · rfl

/-- A final separator on one side only makes no difference. -/
theorem c30_one_separator {c s : Str} (hc : PlainRoot P.clSep c) (hs : PlainRoot P.pySep s) {x : Char} (hx : x = '/' ∨ x = '\\')
    (pre post : List (Str × Str)) :
    entries P (pre ++ (c ++ [x], s) :: post) = entries P (pre ++ (c, s) :: post) ∧
      entries P (pre ++ (c, s ++ [x]) :: post) = entries P (pre ++ (c, s) :: post) := by
  have hc0 := hc.noEnd
  have hs0 := hs.noEnd
  constructor <;>
  simp [entries, slashEntry, bareEntry, onlySlash, hc0, hs0, fixPath_bare hc, fixPath_bare hs, fixPath_drop hc hx, fixPath_drop hs hx]

example : entries {} [(c!"/c/proj/", c!"/s/proj")] = entries {} [(c!"/c/proj", c!"/s/proj")] := by decide

/-- Nested client roots in the wrong order: a file of the inner root does not come back. -/
theorem c30_nested_roots :
    let es := entries {} [(c!"/c", c!"/s1"), (c!"/c/sub", c!"/s2")]
    toServer {} es (toClient {} es c!"/s2/a.py").1 = c!"/s1/sub/a.py" := by decide

/-! ### C31 -/

/-- No change of the path mappings; frames have a file name. -/
def OkAction : Action → Prop
  | .show fr => fr.file ≠ []
  | .map f => f ≠ []
  | .setPaths _ => False

/-- What a reference sent for a frame must resolve to. -/
def Right (P : Plat) (es : List (Str × Str)) (fr : Fr) (t : Target) : Prop :=
  t = .frame fr.id ∨ ∃ f, t = .file f ∧ (f = fr.file ∨ (toClient P es f).1 = (toClient P es fr.file).1)

structure Inv (P : Plat) (s : State) : Prop where
  nextPos : 0 < s.next
  serverLt : ∀ r f, Py.Dict.get s.refServer r = some f → r < s.next ∧ f ≠ []
  lineLt : ∀ r f, Py.Dict.get s.lineRefs r = some f → r < s.next ∧ r ≠ 0 ∧ f ≠ []
  frameLt : ∀ r f, Py.Dict.get s.frameRefs r = some f → r < s.next ∧ r ≠ 0
  disj1 : ∀ r f g, Py.Dict.get s.refServer r = some f → Py.Dict.get s.lineRefs r = some g → False
  disj2 : ∀ r f g, Py.Dict.get s.refServer r = some f → Py.Dict.get s.frameRefs r = some g → r = 0
  disj3 : ∀ r f g, Py.Dict.get s.lineRefs r = some f → Py.Dict.get s.frameRefs r = some g → False
  client : ∀ n r, Py.Dict.get s.clientRef n = some r → r ≠ 0 →
    ∃ f, Py.Dict.get s.refServer r = some f ∧ (toClient P s.es f).1 = n
  cache : ∀ f r, Py.Dict.get s.cache f = some r → r = toClient P s.es f
  cacheRef : ∀ f r, Py.Dict.get s.cache f = some r → s.es.isEmpty = true ∨ (Py.Dict.get s.clientRef r.1).isSome
  noTable : s.es.isEmpty = true → s.clientRef = []

/-- References that resolve go on resolving to the same source. -/
def Extends (s s' : State) : Prop :=
  s'.es = s.es ∧ s.next ≤ s'.next ∧ (∀ r, r < s.next → resolve s' r = resolve s r) ∧
    ∀ n r, Py.Dict.get s.clientRef n = some r → Py.Dict.get s'.clientRef n = some r

theorem Extends.refl (s : State) : Extends s s := ⟨rfl, Nat.le_refl _, fun _ _ => rfl, fun _ _ h => h⟩
theorem Extends.trans {a b c : State} (h1 : Extends a b) (h2 : Extends b c) : Extends a c :=
  ⟨h2.1.trans h1.1, Nat.le_trans h1.2.1 h2.2.1, fun r hr => by rw [h2.2.2.1 r (Nat.lt_of_lt_of_le hr h1.2.1), h1.2.2.1 r hr],
    fun n r h => h2.2.2.2 n r (h1.2.2.2 n r h)⟩

theorem resolve_server {s : State} {r : Nat} {f : Str} (h : Py.Dict.get s.refServer r = some f) (hf : f ≠ []) (hr : r ≠ 0) :
    resolve s r = .file f := by
  unfold resolve
  simp [hr, h, hf]

theorem mapClient_ok {s : State} (hi : Inv P s) {f : Str} (hf : f ≠ []) :
    (mapClient P s f).1 = toClient P s.es f ∧ Inv P (mapClient P s f).2 ∧ Extends s (mapClient P s f).2 ∧
      (s.es.isEmpty = true ∨ (Py.Dict.get (mapClient P s f).2.clientRef (toClient P s.es f).1).isSome) := by
  unfold mapClient
  cases hc : Py.Dict.get s.cache f with
  | some r => exact ⟨hi.cache f r hc, hi, Extends.refl s, by rw [← hi.cache f r hc]; exact hi.cacheRef f r hc⟩
  | none =>
    simp only
    have hcache : ∀ g r, Py.Dict.get (Py.Dict.set s.cache f (toClient P s.es f)) g = some r → r = toClient P s.es g := by
      intro g r hg
      rw [Py.Dict.get_set] at hg
      split at hg
      · rename_i he; cases hg; rw [he]
      · exact hi.cache g r hg
    have hcr : ∀ cr : List (Str × Nat), (s.es.isEmpty = true ∨ (Py.Dict.get cr (toClient P s.es f).1).isSome) →
        (∀ n r, Py.Dict.get s.clientRef n = some r → Py.Dict.get cr n = some r) →
        ∀ g r, Py.Dict.get (Py.Dict.set s.cache f (toClient P s.es f)) g = some r → s.es.isEmpty = true ∨ (Py.Dict.get cr r.1).isSome := by
      intro cr h1 h2 g r hg
      rw [Py.Dict.get_set] at hg
      split at hg
      · cases hg; exact h1
      · rcases hi.cacheRef g r hg with h | h
        · exact .inl h
        · obtain ⟨v, hv⟩ := Option.isSome_iff_exists.1 h
          exact .inr (by rw [h2 _ _ hv]; rfl)
    split
    · rename_i hold
      have hold' : s.es.isEmpty = true ∨ (Py.Dict.get s.clientRef (toClient P s.es f).1).isSome := by simpa using hold
      exact ⟨rfl, ⟨hi.nextPos, hi.serverLt, hi.lineLt, hi.frameLt, hi.disj1, hi.disj2, hi.disj3, hi.client, hcache,
        hcr _ hold' (fun _ _ h => h), hi.noTable⟩, ⟨rfl, Nat.le_refl _, fun _ _ => rfl, fun _ _ h => h⟩, hold'⟩
    · rename_i hnew
      simp only [Bool.or_eq_true, not_or, Bool.not_eq_true, Option.isSome_eq_false_iff, Option.isNone_iff_eq_none] at hnew
      have hkeep : ∀ v n r, Py.Dict.get s.clientRef n = some r →
          Py.Dict.get (Py.Dict.set s.clientRef (toClient P s.es f).1 v) n = some r := by
        intro v n r hn
        rw [Py.Dict.get_set, if_neg]
        · exact hn
        · rintro rfl; rw [hnew.2] at hn; cases hn
      have hset : ∀ v : Nat, s.es.isEmpty = true ∨ (Py.Dict.get (Py.Dict.set s.clientRef (toClient P s.es f).1 v) (toClient P s.es f).1).isSome := by
        intro v; right; rw [Py.Dict.get_set]; simp
      have hnt : ∀ l : List (Str × Nat), s.es.isEmpty = true → l = [] := fun l h => by rw [hnew.1] at h; cases h
      split
      · refine ⟨rfl, ⟨hi.nextPos, ?_, hi.lineLt, hi.frameLt, ?_, ?_, hi.disj3, ?_, hcache, hcr _ (hset _) (hkeep _), hnt _⟩,
          ⟨rfl, Nat.le_refl _, ?_, hkeep _⟩, hset _⟩
        · intro r g hg
          simp only [Py.Dict.get_set] at hg
          split at hg
          · rename_i he; cases hg; rw [he]; exact ⟨hi.nextPos, hf⟩
          · exact hi.serverLt r g hg
        · intro r g g' hg hg'
          simp only [Py.Dict.get_set] at hg
          split at hg
          · rename_i he; exact (hi.lineLt r g' hg').2.1 he
          · exact hi.disj1 r g g' hg hg'
        · intro r g g' hg hg'
          simp only [Py.Dict.get_set] at hg
          split at hg
          · rename_i he; exact he
          · exact hi.disj2 r g g' hg hg'
        · intro n r hn hr
          simp only [Py.Dict.get_set] at hn ⊢
          split at hn
          · cases hn; exact absurd rfl hr
          · rw [if_neg hr]
            exact hi.client n r hn hr
        · intro r _
          unfold resolve
          by_cases hr : r = 0
          · simp [hr]
          · simp only [hr, if_false, Py.Dict.get_set]
      · have hn := hi.nextPos
        refine ⟨rfl, ⟨Nat.succ_pos _, ?_, ?_, ?_, ?_, ?_, hi.disj3, ?_, hcache, hcr _ (hset _) (hkeep _), hnt _⟩,
          ⟨rfl, Nat.le_succ _, ?_, hkeep _⟩, hset _⟩
        · intro r g hg
          simp only [Py.Dict.get_set] at hg
          split at hg
          · rename_i he; cases hg; rw [he]; exact ⟨Nat.lt_succ_self _, hf⟩
          · exact ⟨Nat.lt_succ_of_lt (hi.serverLt r g hg).1, (hi.serverLt r g hg).2⟩
        · intro r g hg; exact ⟨Nat.lt_succ_of_lt (hi.lineLt r g hg).1, (hi.lineLt r g hg).2⟩
        · intro r g hg; exact ⟨Nat.lt_succ_of_lt (hi.frameLt r g hg).1, (hi.frameLt r g hg).2⟩
        · intro r g g' hg hg'
          simp only [Py.Dict.get_set] at hg
          split at hg
          · rename_i he; have := (hi.lineLt r g' hg').1; omega
          · exact hi.disj1 r g g' hg hg'
        · intro r g g' hg hg'
          simp only [Py.Dict.get_set] at hg
          split at hg
          · rename_i he; have := (hi.frameLt r g' hg').1; omega
          · exact hi.disj2 r g g' hg hg'
        · intro n r hn' hr
          simp only [Py.Dict.get_set] at hn' ⊢
          split at hn'
          · rename_i he; cases hn'; exact ⟨f, by simp, he.symm⟩
          · obtain ⟨g, hg, hg'⟩ := hi.client n r hn' hr
            have := (hi.serverLt r g hg).1
            rw [if_neg (by omega)]
            exact ⟨g, hg, hg'⟩
        · intro r hr
          unfold resolve
          have : r ≠ s.next := by omega
          simp only [Py.Dict.get_set, if_neg this]

theorem showFrame_ok {s : State} (hi : Inv P s) {fr : Fr} (hf : fr.file ≠ []) :
    Inv P (showFrame P s fr).2 ∧ Extends s (showFrame P s fr).2 ∧
      ((showFrame P s fr).1 ≠ 0 → (showFrame P s fr).1 < (showFrame P s fr).2.next ∧
        Right P s.es fr (resolve (showFrame P s fr).2 (showFrame P s fr).1)) ∧
      (P.exists_ fr.file = true →
        (showFrame P s fr).1 = (Py.Dict.get (showFrame P s fr).2.clientRef (toClient P s.es fr.file).1).getD 0 ∧
        (s.es.isEmpty = true ∨ (Py.Dict.get (showFrame P s fr).2.clientRef (toClient P s.es fr.file).1).isSome)) := by
  obtain ⟨h1, h2, h3, h4⟩ := mapClient_ok hi hf
  unfold showFrame
  generalize mapClient P s fr.file = m at h1 h2 h3 h4 ⊢
  obtain ⟨r, t⟩ := m
  simp only at h1 h2 h3 h4 ⊢
  have hnp := h2.nextPos
  have hsN : Py.Dict.get t.refServer t.next = none := by
    cases hg : Py.Dict.get t.refServer t.next with
    | none => rfl
    | some g => have := (h2.serverLt _ _ hg).1; omega
  have hlN : Py.Dict.get t.lineRefs t.next = none := by
    cases hg : Py.Dict.get t.lineRefs t.next with
    | none => rfl
    | some g => have := (h2.lineLt _ _ hg).1; omega
  split
  · rename_i hcond
    have hex : P.exists_ fr.file = true → False := by
      intro he; simp [he] at hcond
    split
    · -- a frame reference
      refine ⟨⟨Nat.succ_pos _, ?_, ?_, ?_, h2.disj1, ?_, ?_, h2.client, h2.cache, h2.cacheRef, h2.noTable⟩,
        h3.trans ⟨rfl, Nat.le_succ _, ?_, fun _ _ h => h⟩, ?_, fun h => (hex h).elim⟩
      · intro a g hg; exact ⟨Nat.lt_succ_of_lt (h2.serverLt a g hg).1, (h2.serverLt a g hg).2⟩
      · intro a g hg; exact ⟨Nat.lt_succ_of_lt (h2.lineLt a g hg).1, (h2.lineLt a g hg).2⟩
      · intro a g hg
        simp only [Py.Dict.get_set] at hg
        split at hg
        · rename_i he; rw [he]; exact ⟨Nat.lt_succ_self _, by omega⟩
        · exact ⟨Nat.lt_succ_of_lt (h2.frameLt a g hg).1, (h2.frameLt a g hg).2⟩
      · intro a g g' hg hg'
        simp only [Py.Dict.get_set] at hg'
        split at hg'
        · rename_i he; have := (h2.serverLt a g hg).1; omega
        · exact h2.disj2 a g g' hg hg'
      · intro a g g' hg hg'
        simp only [Py.Dict.get_set] at hg'
        split at hg'
        · rename_i he; have := (h2.lineLt a g hg).1; omega
        · exact h2.disj3 a g g' hg hg'
      · intro a ha
        unfold resolve
        have : a ≠ t.next := by omega
        simp only [Py.Dict.get_set, if_neg this]
      · intro _
        refine ⟨Nat.lt_succ_self _, .inl ?_⟩
        unfold resolve
        have : t.next ≠ 0 := by omega
        simp [this, hsN, hlN, Py.Dict.get_set]
    · split
      · -- a linecache reference
        refine ⟨⟨Nat.succ_pos _, ?_, ?_, ?_, ?_, h2.disj2, ?_, h2.client, h2.cache, h2.cacheRef, h2.noTable⟩,
          h3.trans ⟨rfl, Nat.le_succ _, ?_, fun _ _ h => h⟩, ?_, fun h => (hex h).elim⟩
        · intro a g hg; exact ⟨Nat.lt_succ_of_lt (h2.serverLt a g hg).1, (h2.serverLt a g hg).2⟩
        · intro a g hg
          simp only [Py.Dict.get_set] at hg
          split at hg
          · rename_i he; cases hg; rw [he]; exact ⟨Nat.lt_succ_self _, by omega, hf⟩
          · exact ⟨Nat.lt_succ_of_lt (h2.lineLt a g hg).1, (h2.lineLt a g hg).2⟩
        · intro a g hg; exact ⟨Nat.lt_succ_of_lt (h2.frameLt a g hg).1, (h2.frameLt a g hg).2⟩
        · intro a g g' hg hg'
          simp only [Py.Dict.get_set] at hg'
          split at hg'
          · rename_i he; have := (h2.serverLt a g hg).1; omega
          · exact h2.disj1 a g g' hg hg'
        · intro a g g' hg hg'
          simp only [Py.Dict.get_set] at hg
          split at hg
          · rename_i he; have := (h2.frameLt a g' hg').1; omega
          · exact h2.disj3 a g g' hg hg'
        · intro a ha
          unfold resolve
          have : a ≠ t.next := by omega
          simp only [Py.Dict.get_set, if_neg this]
        · intro _
          refine ⟨Nat.lt_succ_self _, .inr ⟨fr.file, ?_, .inl rfl⟩⟩
          unfold resolve
          have : t.next ≠ 0 := by omega
          simp [this, hsN, Py.Dict.get_set, hf]
      · exact ⟨h2, h3, fun h => absurd rfl h, fun h => (hex h).elim⟩
  · refine ⟨h2, h3, ?_, fun _ => ⟨by rw [h1], h4⟩⟩
    intro hne
    cases hg : Py.Dict.get t.clientRef r.1 with
    | none => rw [hg] at hne; exact absurd rfl hne
    | some a =>
      rw [hg] at hne
      simp only [Option.getD_some] at hne ⊢
      obtain ⟨g, hg1, hg2⟩ := h2.client r.1 a hg hne
      obtain ⟨hlt, hgne⟩ := h2.serverLt a g hg1
      refine ⟨hlt, .inr ⟨g, resolve_server hg1 hgne hne, .inr ?_⟩⟩
      rw [← h3.1, hg2, h1, h3.1]

theorem step_ok {s : State} (hi : Inv P s) {a : Action} (ha : OkAction a) : Inv P (step P s a) ∧ Extends s (step P s a) := by
  cases a with
  | «show» fr => exact ⟨(showFrame_ok hi ha).1, (showFrame_ok hi ha).2.1⟩
  | map f => exact ⟨(mapClient_ok hi ha).2.1, (mapClient_ok hi ha).2.2.1⟩
  | setPaths _ => exact ha.elim

theorem run_ok (as : List Action) : ∀ s, Inv P s → (∀ a ∈ as, OkAction a) → Inv P (run P s as) ∧ Extends s (run P s as) := by
  induction as with
  | nil => intro s hi _; exact ⟨hi, Extends.refl s⟩
  | cons a as ih =>
    intro s hi ha
    obtain ⟨h1, h2⟩ := step_ok hi (ha a (by simp))
    obtain ⟨h3, h4⟩ := ih _ h1 fun x hx => ha x (by simp [hx])
    exact ⟨h3, h2.trans h4⟩

theorem inv_setPaths_fresh (paths : List (Str × Str)) : Inv P (setPaths P {} paths) := by
  refine ⟨Nat.one_pos, ?_, ?_, ?_, ?_, ?_, ?_, ?_, ?_, ?_, ?_⟩ <;> intros <;> simp_all [setPaths, Py.Dict.get]

theorem resolves_from {r : Nat} {fr : Fr} (hr : r ≠ 0) : ∀ (as : List Action) (s : State), Inv P s → (∀ a ∈ as, OkAction a) →
    (r, fr) ∈ sent P s as → Right P s.es fr (resolve (run P s as) r) := by
  intro as
  induction as with
  | nil => intro s _ _ h; cases h
  | cons a as ih =>
    intro s hi ha h
    have hrest : ∀ x ∈ as, OkAction x := fun x hx => ha x (by simp [hx])
    obtain ⟨h1, h2⟩ := step_ok hi (ha a (by simp))
    have later : (r, fr) ∈ sent P (step P s a) as → Right P s.es fr (resolve (run P s (a :: as)) r) := by
      intro h
      have := ih (step P s a) h1 hrest h
      rw [h2.1] at this
      exact this
    cases a with
    | «show» g =>
      simp only [sent, List.mem_cons, Prod.mk.injEq] at h
      rcases h with ⟨rfl, rfl⟩ | h
      · obtain ⟨_, _, h5, _⟩ := showFrame_ok hi (show fr.file ≠ [] from ha (.show fr) (by simp))
        obtain ⟨h6, h7⟩ := h5 hr
        obtain ⟨_, h8⟩ := run_ok as (step P s (.show fr)) h1 hrest
        show Right P s.es fr (resolve (run P (step P s (.show fr)) as) _)
        rw [h8.2.2.1 _ h6]
        exact h7
      · exact later h
    | map g => exact later (by simpa [sent] using h)
    | setPaths ps => exact (show False from ha (.setPaths ps) (by simp)).elim

/-- After any history, every reference sent for a frame (0 means none) stands for the source of that frame: its
file (or one the client knows under the same name), or the frame itself when its source has to be decompiled. -/
theorem c31_resolves (paths : List (Str × Str)) (as : List Action) (has : ∀ a ∈ as, OkAction a) (r : Nat) (fr : Fr)
    (h : (r, fr) ∈ sent P (setPaths P {} paths) as) (hr : r ≠ 0) :
    Right P (entries P paths) fr (resolve (run P (setPaths P {} paths) as) r) :=
  resolves_from hr as _ (inv_setPaths_fresh paths) has h

/-! ### Changing the mappings -/

/-- The table in force after a history that began with `t`: the last one set. -/
def tableAfter (t : List (Str × Str)) : List Action → List (Str × Str)
  | [] => t
  | .setPaths ps :: as => tableAfter ps as
  | _ :: as => tableAfter t as

theorem mapClient_es (s : State) (f : Str) : (mapClient P s f).2.es = s.es := by
  unfold mapClient; split
  · rfl
  · simp only; split
    · rfl
    · split <;> rfl

theorem mapClient_cache {s : State} (hc : ∀ f r, Py.Dict.get s.cache f = some r → r = toClient P s.es f) (f : Str) :
    (mapClient P s f).1 = toClient P s.es f ∧
      ∀ g r, Py.Dict.get (mapClient P s f).2.cache g = some r → r = toClient P s.es g := by
  unfold mapClient
  cases h : Py.Dict.get s.cache f with
  | some r => exact ⟨hc f r h, hc⟩
  | none =>
    have hcache : ∀ g r, Py.Dict.get (Py.Dict.set s.cache f (toClient P s.es f)) g = some r → r = toClient P s.es g := by
      intro g r hg
      rw [Py.Dict.get_set] at hg
      split at hg
      · rename_i he; cases hg; rw [he]
      · exact hc g r hg
    simp only
    split
    · exact ⟨rfl, hcache⟩
    · split <;> exact ⟨rfl, hcache⟩

theorem showFrame_rest (s : State) (fr : Fr) : (showFrame P s fr).2.es = (mapClient P s fr.file).2.es ∧
    (showFrame P s fr).2.cache = (mapClient P s fr.file).2.cache := by
  unfold showFrame
  generalize mapClient P s fr.file = m
  simp only
  split
  · split
    · exact ⟨rfl, rfl⟩
    · split <;> exact ⟨rfl, rfl⟩
  · exact ⟨rfl, rfl⟩

/-- Whatever was shown and mapped before and however often the table was changed, a file is shown to the client as the table
set last says. -/
theorem c30_current (as : List Action) (f : Str) :
    (mapClient P (run P {} as) f).1 = toClient P (entries P (tableAfter [] as)) f := by
  have key : ∀ (as : List Action) (s : State) (t : List (Str × Str)), s.es = entries P t →
      (∀ g r, Py.Dict.get s.cache g = some r → r = toClient P s.es g) →
      (mapClient P (run P s as) f).1 = toClient P (entries P (tableAfter t as)) f := by
    intro as
    induction as with
    | nil => intro s t h1 h2; show (mapClient P s f).1 = toClient P (entries P t) f; rw [← h1]; exact (mapClient_cache h2 f).1
    | cons a as ih =>
      intro s t h1 h2
      show (mapClient P (run P (step P s a) as) f).1 = _
      cases a with
      | setPaths ps =>
        refine ih _ ps rfl ?_
        intro g r hg
        simp [step, setPaths, Py.Dict.get] at hg
      | map g =>
        refine ih _ t ((mapClient_es s g).trans h1) ?_
        show ∀ g' r, Py.Dict.get (mapClient P s g).2.cache g' = some r → r = toClient P (mapClient P s g).2.es g'
        rw [mapClient_es]
        exact (mapClient_cache h2 g).2
      | «show» fr =>
        obtain ⟨h3, h4⟩ := showFrame_rest (P := P) s fr
        refine ih _ t ((h3.trans (mapClient_es s fr.file)).trans h1) ?_
        show ∀ g r, Py.Dict.get (showFrame P s fr).2.cache g = some r → r = toClient P (showFrame P s fr).2.es g
        rw [h3, h4, mapClient_es]
        exact (mapClient_cache h2 fr.file).2
  refine key as {} [] (by simp [entries]) ?_
  intro g r hg
  simp [Py.Dict.get] at hg

theorem mapClient_refs (s : State) (f : Str) :
    (mapClient P s f).2.lineRefs = s.lineRefs ∧ (mapClient P s f).2.frameRefs = s.frameRefs := by
  unfold mapClient; split
  · exact ⟨rfl, rfl⟩
  · simp only; split
    · exact ⟨rfl, rfl⟩
    · split <;> exact ⟨rfl, rfl⟩

theorem run_refs (as : List Action) : ∀ s : State, (∀ fr, Action.show fr ∈ as → P.exists_ fr.file = true) →
    (run P s as).lineRefs = s.lineRefs ∧ (run P s as).frameRefs = s.frameRefs := by
  induction as with
  | nil => intro s _; exact ⟨rfl, rfl⟩
  | cons a as ih =>
    intro s h
    have h1 : (step P s a).lineRefs = s.lineRefs ∧ (step P s a).frameRefs = s.frameRefs := by
      cases a with
      | setPaths ps => exact ⟨rfl, rfl⟩
      | map g => exact mapClient_refs s g
      | «show» fr =>
        have he := h fr (by simp)
        have := mapClient_refs (P := P) s fr.file
        simpa [step, showFrame, he] using this
    obtain ⟨h2, h3⟩ := ih (step P s a) fun fr hfr => h fr (List.mem_cons_of_mem _ hfr)
    exact ⟨h2.trans h1.1, h3.trans h1.2⟩

theorem inv_setPaths {s : State} (h1 : s.lineRefs = []) (h2 : s.frameRefs = []) (paths : List (Str × Str)) :
    Inv P (setPaths P s paths) := by
  refine ⟨Nat.one_pos, ?_, ?_, ?_, ?_, ?_, ?_, ?_, ?_, ?_, ?_⟩ <;> intros <;> simp_all [setPaths, Py.Dict.get]

/-- The references sent after the mappings were changed stand for the right sources too, whatever was sent before, as long as
what was shown before was in existing files (see `c31_restart` for other frames). -/
theorem c31_resolves_again (before : List Action) (hb : ∀ fr, Action.show fr ∈ before → P.exists_ fr.file = true)
    (paths : List (Str × Str)) (as : List Action) (has : ∀ a ∈ as, OkAction a) (r : Nat) (fr : Fr)
    (h : (r, fr) ∈ sent P (setPaths P (run P {} before) paths) as) (hr : r ≠ 0) :
    Right P (entries P paths) fr (resolve (run P {} (before ++ .setPaths paths :: as)) r) := by
  have h1 := run_refs (P := P) before {} hb
  have h2 : run P {} (before ++ .setPaths paths :: as) = run P (setPaths P (run P {} before) paths) as := by
    simp [run, List.foldl_append, step]
  rw [h2]
  exact resolves_from hr as _ (inv_setPaths h1.1 h1.2 paths) has h

example : sent {} (setPaths {} (run {} {} [.setPaths [(c!"/c", c!"/s")], .show { id := 1, file := c!"/lib/x.py" }]) [(c!"/d", c!"/t")])
    [.show { id := 2, file := c!"/lib/y.py" }] = [(1, { id := 2, file := c!"/lib/y.py" })] := by decide

/-- So a number is never shared by different sources: two frames with the same reference are the same frame, or have
files with the same name for the client, or one's file is the source of both. -/
theorem c31_distinct (paths : List (Str × Str)) (as : List Action) (has : ∀ a ∈ as, OkAction a) (r : Nat) (fr fr' : Fr)
    (h : (r, fr) ∈ sent P (setPaths P {} paths) as) (h' : (r, fr') ∈ sent P (setPaths P {} paths) as) (hr : r ≠ 0) :
    fr.id = fr'.id ∨ (toClient P (entries P paths) fr.file).1 = (toClient P (entries P paths) fr'.file).1 := by
  have h1 := c31_resolves paths as has r fr h hr
  have h2 := c31_resolves paths as has r fr' h' hr
  rcases h1 with h1 | ⟨f, h1, hf⟩
  · rcases h2 with h2 | ⟨f', h2, _⟩
    · rw [h1] at h2; left; injection h2
    · rw [h1] at h2; cases h2
  · rcases h2 with h2 | ⟨f', h2, hf'⟩
    · rw [h1] at h2; cases h2
    · rw [h1] at h2
      injection h2 with h2
      subst h2
      right
      have e1 : (toClient P (entries P paths) f).1 = (toClient P (entries P paths) fr.file).1 := by
        rcases hf with rfl | h
        · rfl
        · exact h
      have e2 : (toClient P (entries P paths) f).1 = (toClient P (entries P paths) fr'.file).1 := by
        rcases hf' with rfl | h
        · rfl
        · exact h
      rw [← e1, e2]

/-- Frames of existing files that the client knows under the same name always get the same number. -/
theorem c31_stable (paths : List (Str × Str)) (as : List Action) (has : ∀ a ∈ as, OkAction a) (r r' : Nat) (fr fr' : Fr)
    (h : (r, fr) ∈ sent P (setPaths P {} paths) as) (h' : (r', fr') ∈ sent P (setPaths P {} paths) as)
    (hex : P.exists_ fr.file = true) (hex' : P.exists_ fr'.file = true)
    (hn : (toClient P (entries P paths) fr.file).1 = (toClient P (entries P paths) fr'.file).1) : r = r' := by
  have key : ∀ (as : List Action) (s : State), Inv P s → (∀ a ∈ as, OkAction a) → ∀ r fr, P.exists_ fr.file = true →
      (r, fr) ∈ sent P s as → r = (Py.Dict.get (run P s as).clientRef (toClient P s.es fr.file).1).getD 0 := by
    intro as
    induction as with
    | nil => intro s _ _ r fr _ h; cases h
    | cons a as ih =>
      intro s hi ha r fr hex h
      have hrest : ∀ x ∈ as, OkAction x := fun x hx => ha x (by simp [hx])
      obtain ⟨h1, h2⟩ := step_ok hi (ha a (by simp))
      have later : (r, fr) ∈ sent P (step P s a) as →
          r = (Py.Dict.get (run P s (a :: as)).clientRef (toClient P s.es fr.file).1).getD 0 := by
        intro h
        have := ih (step P s a) h1 hrest r fr hex h
        rw [h2.1] at this
        exact this
      cases a with
      | «show» g =>
        simp only [sent, List.mem_cons, Prod.mk.injEq] at h
        rcases h with ⟨rfl, rfl⟩ | h
        · obtain ⟨_, _, _, h5⟩ := showFrame_ok hi (show fr.file ≠ [] from ha (.show fr) (by simp))
          obtain ⟨h6, h7⟩ := h5 hex
          obtain ⟨h9, h8⟩ := run_ok as (step P s (.show fr)) h1 hrest
          show _ = (Py.Dict.get (run P (step P s (.show fr)) as).clientRef _).getD 0
          rcases h7 with h7 | h7
          · have e1 := h1.noTable (by rw [h2.1]; exact h7)
            have e2 := h9.noTable (by rw [h8.1, h2.1]; exact h7)
            rw [h6, e2]
            show (Py.Dict.get (step P s (.show fr)).clientRef _).getD 0 = _
            rw [e1]
          · obtain ⟨v, hv⟩ := Option.isSome_iff_exists.1 h7
            rw [h6, hv, h8.2.2.2 _ _ hv]
        · exact later h
      | map g => exact later (by simpa [sent] using h)
      | setPaths ps => exact (show False from ha (.setPaths ps) (by simp)).elim
  have e1 := key as _ (inv_setPaths_fresh paths) has r fr hex h
  have e2 := key as _ (inv_setPaths_fresh paths) has r' fr' hex' h'
  rw [e1, e2]
  show (Py.Dict.get _ (toClient P (entries P paths) fr.file).1).getD 0 = (Py.Dict.get _ (toClient P (entries P paths) fr'.file).1).getD 0
  rw [hn]

example : sent {} (setPaths {} {} [(c!"/c", c!"/s")]) [.show { id := 1, file := c!"/lib/x.py" }, .map c!"/s/a", .show { id := 2, file := c!"/lib/x.py" }]
    = [(1, { id := 1, file := c!"/lib/x.py" }), (1, { id := 2, file := c!"/lib/x.py" })] := by decide

def noFiles : Plat := { exists_ := fun _ => false }
def fr1 : Fr := { id := 7, file := c!"<gen>" }
def fr2 : Fr := { id := 8, file := c!"/lib/x.py" }

/-- a decompiled frame (no path table) and a library file (with a table) get references that resolve -/
example : sent noFiles (setPaths noFiles {} []) [.show fr1, .show fr2] = [(1, fr1), (2, fr2)] := by decide
example : sent noFiles (setPaths noFiles {} [(c!"/c", c!"/s")]) [.show fr1, .show fr2, .show fr1] = [(1, fr1), (2, fr2), (1, fr1)] := by decide
example : resolve (run noFiles (setPaths noFiles {} [(c!"/c", c!"/s")]) [.show fr1, .show fr2]) 2 = .file c!"/lib/x.py" := by decide

/-- Changing the path mappings restarts the numbering but keeps the references to frames: an old reference to a frame
then shows a file. -/
theorem c31_restart :
    let s := run noFiles (setPaths noFiles {} []) [.show fr1]
    sent noFiles (setPaths noFiles {} []) [.show fr1] = [(1, fr1)] ∧ resolve s 1 = .frame 7 ∧
      resolve (run noFiles s [.setPaths [(c!"/c", c!"/s")], .show fr2]) 1 = .file c!"/lib/x.py" := by decide

end Paths
