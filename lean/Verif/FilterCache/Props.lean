import Verif.FilterCache.Model
/-!
C29: the cached decisions are those of the current configuration.
-/

namespace FilterCache
open Filtering

variable (P : Plat)

/-! ### Specification: the decisions without caches -/

/-- A caller that makes `<string>` code library code: a file that is not the debugger's, nor `runpy.py`, nor itself
`<string>`. -/
def isUserCaller (c : Conf) (g : Frame) : Bool :=
  (P.abs g.code.filename = c!"<string>" || plainType P c (P.abs g.code.filename) ≠ some .pydev) &&
    P.base g.code.filename ≠ c!"runpy.py" && P.base g.code.filename ≠ c!"<string>"

def typeOf (c : Conf) (f : Frame) (back : List Frame) : Option FileType :=
  if P.abs f.code.filename = c!"<string>" then (if back.any (isUserCaller P c) then some .lib else none)
  else plainType P c (P.abs f.code.filename)

def scopeOf (c : Conf) (f : Frame) (back : List Frame) : Bool :=
  let abs := P.abs f.code.filename
  if typeOf P c f back = some .pydev then false
  else if abs = c!"<string>" then typeOf P c f back ≠ some .lib
  else c.mapped.contains abs || inProjectRoots P.env.sep P.norm c.projectRoots c.libraryRoots abs

def excludedOf (c : Conf) (f : Frame) (back : List Frame) : Option Bool :=
  if typeOf P c f back = some .pydev then some true
  else excludeByFilter P.env (P.abs f.code.filename) f.module c.filters

/-- Is the frame filtered out: a rule decides if there are rules and one matches; otherwise it is filtered out when
the library filter is on (or forced) and it is not in the project. -/
def appliedOf (c : Conf) (f : Frame) (back : List Frame) (force : Bool) : Bool :=
  match (if c.filters = [] then none else excludedOf P c f back) with
  | some b => b
  | none => (c.useLib || force) && !scopeOf P c f back

/-- The configuration the client has set, by the list of its requests. -/
def confAfter (c : Conf) : List Action → Conf
  | [] => c
  | .setFilters fs :: as => confAfter { c with filters := fs } as
  | .setProjectRoots rs :: as => confAfter { c with projectRoots := fixRoots P.env.sep P.norm rs } as
  | .setUseLib b :: as => confAfter { c with useLib := b } as
  | .setMapped ms :: as => confAfter { c with mapped := ms } as
  | .setPatterns ss es :: as =>
    confAfter (if c.patterns = none ∧ ss = [] ∧ es = [] then c else { c with patterns := some (ss, es) }) as
  | .rootsDuring rs _ _ :: as => confAfter { c with projectRoots := fixRoots P.env.sep P.norm rs } as
  | .touch :: as => confAfter c as
  | .askType _ _ :: as => confAfter c as
  | .askScope _ _ :: as => confAfter c as
  | .askExcluded _ _ _ :: as => confAfter c as
  | .askApply _ _ _ _ :: as => confAfter c as

/-- What is assumed about the stacks the program shows (a stack is a frame followed by its callers): the callers of a
frame of it are shown too; equal code under `<string>` is always called from user code or never; and functions with
the same file, name and first line are in modules of the same name. -/
structure Coherent (U : List Frame → Prop) : Prop where
  suffix : ∀ f b, U (f :: b) → U b
  string : ∀ f b f' b', U (f :: b) → U (f' :: b') → key P f = key P f' → P.abs f.code.filename = c!"<string>" →
    ∀ c, b.any (isUserCaller P c) = b'.any (isUserCaller P c)
  module : ∀ f b f' b', U (f :: b) → U (f' :: b') → P.abs f.code.filename = P.abs f'.code.filename →
    f.code.name = f'.code.name → f.code.firstLine = f'.code.firstLine → f.module = f'.module

/-- Queries are about shown stacks; the file name passed by the caller is the frame's file name in some form; no
configuration change happens inside a query. -/
def OkAction (U : List Frame → Prop) : Action → Prop
  | .askType f b => U (f :: b)
  | .askScope f b => U (f :: b)
  | .askExcluded f b orig => U (f :: b) ∧ P.abs orig = P.abs f.code.filename
  | .askApply f b orig _ => U (f :: b) ∧ P.abs orig = P.abs f.code.filename
  | .rootsDuring _ _ _ => False
  | _ => True

/-! ### Invariant -/

variable {P} {U : List Frame → Prop}

def FtOk (P : Plat) (U : List Frame → Prop) (c : Conf) (k : Caches) : Prop :=
  ∀ f b, U (f :: b) → ∀ v, Py.Dict.get k.fileType (key P f) = some v → v = typeOf P c f b

def ScOk (P : Plat) (U : List Frame → Prop) (c : Conf) (k : Caches) : Prop :=
  ∀ f b, U (f :: b) → ∀ v, Py.Dict.get k.scope (key P f) = some v → v = scopeOf P c f b

def ExOk (P : Plat) (U : List Frame → Prop) (c : Conf) (k : Caches) : Prop :=
  ∀ f b, U (f :: b) → ∀ v, Py.Dict.get k.excl (P.abs f.code.filename, f.code.name, f.code.firstLine) = some v →
    v = excludedOf P c f b

def ApOk (P : Plat) (U : List Frame → Prop) (c : Conf) (k : Caches) : Prop :=
  ∀ f b orig force, U (f :: b) → P.abs orig = P.abs f.code.filename → ∀ v,
    Py.Dict.get k.apply (f.code.firstLine, orig, force, f.code) = some v → v = appliedOf P c f b force

structure Inv (P : Plat) (U : List Frame → Prop) (s : State) : Prop where
  excl : s.exclEnabled = !s.conf.filters.isEmpty
  lib : s.libEnabled = s.conf.useLib
  ft : FtOk P U s.conf s.caches
  sc : ScOk P U s.conf s.caches
  ex : ExOk P U s.conf s.caches
  ap : ApOk P U s.conf s.caches
  depScope : s.caches.fileType = [] → s.caches.scope = []
  depExcl : s.caches.fileType = [] → s.caches.excl = []
  depApply : s.caches.fileType = [] → ∀ l o fo co v, Py.Dict.get s.caches.apply (l, o, fo, co) = some v →
    s.exclEnabled = false ∧ s.libEnabled = false ∧ fo = false

theorem set_ne_nil {κ ν : Type} [DecidableEq κ] (d : List (κ × ν)) (k : κ) (v : ν) : Py.Dict.set d k v ≠ [] := by
  cases d with
  | nil => simp [Py.Dict.set]
  | cons e d => simp only [Py.Dict.set]; split <;> simp

/-- `k'` is `k` with more file types. -/
def Ext (k k' : Caches) : Prop :=
  k'.scope = k.scope ∧ k'.excl = k.excl ∧ k'.apply = k.apply ∧ (k.fileType ≠ [] → k'.fileType ≠ [])

theorem Ext.refl (k : Caches) : Ext k k := ⟨rfl, rfl, rfl, id⟩
theorem Ext.trans {a b c : Caches} (h1 : Ext a b) (h2 : Ext b c) : Ext a c :=
  ⟨h2.1.trans h1.1, h2.2.1.trans h1.2.1, h2.2.2.1.trans h1.2.2.1, fun h => h2.2.2.2 (h1.2.2.2 h)⟩

theorem typeOf_key (hU : Coherent P U) {c : Conf} {f f' : Frame} {b b' : List Frame} (h : U (f :: b)) (h' : U (f' :: b'))
    (hk : key P f = key P f') : typeOf P c f b = typeOf P c f' b' := by
  have habs : P.abs f.code.filename = P.abs f'.code.filename := by
    simp only [key, Prod.mk.injEq] at hk; exact hk.2.1
  unfold typeOf
  rw [← habs]
  split
  · rename_i hs; rw [hU.string f b f' b' h h' hk hs c]
  · rfl

theorem ftOk_set (hU : Coherent P U) {c : Conf} {f : Frame} {b : List Frame} (h : U (f :: b)) {k : Caches}
    (hk : FtOk P U c k) : FtOk P U c { k with fileType := Py.Dict.set k.fileType (key P f) (typeOf P c f b) } := by
  intro f' b' h' v hv
  simp only [Py.Dict.get_set] at hv
  split at hv
  · rename_i he
    cases hv
    exact typeOf_key hU h h' he.symm
  · exact hk f' b' h' v hv

theorem getFileType_ok (hU : Coherent P U) {c : Conf} {f : Frame} {b : List Frame} (h : U (f :: b))
    {scan : Caches → Bool × Caches}
    (hscan : ∀ k, FtOk P U c k → (scan k).1 = b.any (isUserCaller P c) ∧ FtOk P U c (scan k).2 ∧ Ext k (scan k).2)
    {k : Caches} (hk : FtOk P U c k) :
    (getFileType P c f scan k).1 = typeOf P c f b ∧ FtOk P U c (getFileType P c f scan k).2 ∧
      Ext k (getFileType P c f scan k).2 ∧ (getFileType P c f scan k).2.fileType ≠ [] := by
  unfold getFileType
  cases hg : Py.Dict.get k.fileType (key P f) with
  | some v =>
    refine ⟨hk f b h v hg, hk, Ext.refl k, ?_⟩
    intro he; rw [he] at hg; cases hg
  | none =>
    simp only
    by_cases hs : P.abs f.code.filename = c!"<string>"
    · rw [if_pos hs]
      obtain ⟨h1, h2, h3⟩ := hscan k hk
      have ht : typeOf P c f b = if (scan k).1 then some .lib else none := by unfold typeOf; rw [if_pos hs, h1]
      refine ⟨ht.symm, ?_, ?_, set_ne_nil _ _ _⟩
      · have := ftOk_set hU h h2; rwa [ht] at this
      · exact h3.trans ⟨rfl, rfl, rfl, fun _ => set_ne_nil _ _ _⟩
    · rw [if_neg hs]
      have ht : typeOf P c f b = plainType P c (P.abs f.code.filename) := by unfold typeOf; rw [if_neg hs]
      refine ⟨ht.symm, ?_, ⟨rfl, rfl, rfl, fun _ => set_ne_nil _ _ _⟩, set_ne_nil _ _ _⟩
      have := ftOk_set hU h hk; rwa [ht] at this

theorem scanBack_ok (hU : Coherent P U) {c : Conf} : ∀ (b : List Frame), U b → ∀ k, FtOk P U c k →
    (scanBack P c b k).1 = b.any (isUserCaller P c) ∧ FtOk P U c (scanBack P c b k).2 ∧ Ext k (scanBack P c b k).2 := by
  intro b
  induction b with
  | nil => intro _ k hk; exact ⟨rfl, hk, Ext.refl k⟩
  | cons g rest ih =>
    intro hb k hk
    have hrest := hU.suffix g rest hb
    obtain ⟨h1, h2, h3, _⟩ := getFileType_ok hU hb (ih hrest) hk
    rw [scanBack]
    have hcond : (decide ((getFileType P c g (scanBack P c rest) k).1 ≠ some .pydev) &&
        decide (P.base g.code.filename ≠ c!"runpy.py") && decide (P.base g.code.filename ≠ c!"<string>")) = isUserCaller P c g := by
      rw [h1]
      unfold isUserCaller typeOf
      by_cases hs : P.abs g.code.filename = c!"<string>"
      · simp only [hs, if_true]
        cases rest.any (isUserCaller P c) <;> simp
      · simp [hs]
    simp only [hcond]
    cases hu : isUserCaller P c g with
    | true =>
      simp only [if_true, List.any_cons, hu, Bool.true_or, true_and]
      exact ⟨h2, h3⟩
    | false =>
      simp only [Bool.false_eq_true, if_false, List.any_cons, hu, Bool.false_or]
      obtain ⟨h4, h5, h6⟩ := ih hrest _ h2
      exact ⟨h4, h5, h3.trans h6⟩

theorem inScope_ok (hU : Coherent P U) {c : Conf} {f : Frame} {b : List Frame} (h : U (f :: b)) {k : Caches}
    (hft : FtOk P U c k) (hsc : ScOk P U c k) (hdep : k.fileType = [] → k.scope = []) :
    let r := inScope P c f b k
    r.1 = scopeOf P c f b ∧ FtOk P U c r.2 ∧ ScOk P U c r.2 ∧ r.2.excl = k.excl ∧ r.2.apply = k.apply ∧ r.2.fileType ≠ [] := by
  simp only
  unfold inScope
  cases hg : Py.Dict.get k.scope (key P f) with
  | some v =>
    refine ⟨hsc f b h v hg, hft, hsc, rfl, rfl, ?_⟩
    intro he; rw [hdep he] at hg; cases hg
  | none =>
    obtain ⟨h1, h2, h3, h4⟩ := getFileType_ok hU h (scanBack_ok hU b (hU.suffix f b h)) hft
    simp only [h1]
    have hv : (if typeOf P c f b = some .pydev then false
      else if P.abs f.code.filename = c!"<string>" then decide (typeOf P c f b ≠ some .lib)
      else if c.mapped.contains (P.abs f.code.filename) = true then true
      else inProjectRoots P.env.sep P.norm c.projectRoots c.libraryRoots (P.abs f.code.filename)) = scopeOf P c f b := by
      unfold scopeOf
      simp only
      split
      · rfl
      · split
        · rfl
        · split
          · rename_i hm; rw [hm]; rfl
          · rename_i hm; rw [Bool.not_eq_true] at hm; rw [hm, Bool.false_or]
    rw [hv]
    refine ⟨rfl, h2, ?_, h3.2.1, h3.2.2.1, h4⟩
    intro f' b' h' v hv'
    simp only [Py.Dict.get_set] at hv'
    split at hv'
    · rename_i he
      cases hv'
      have ht := typeOf_key (c := c) hU h h' he.symm
      have habs : P.abs f.code.filename = P.abs f'.code.filename := by
        simp only [key, Prod.mk.injEq] at he; exact he.2.1.symm
      unfold scopeOf
      rw [ht, habs]
    · rw [h3.1] at hv'; exact hsc f' b' h' v hv'

theorem excluded_ok (hU : Coherent P U) {c : Conf} {f : Frame} {b : List Frame} (h : U (f :: b)) {k : Caches}
    (hft : FtOk P U c k) (hex : ExOk P U c k) (hdep : k.fileType = [] → k.excl = []) :
    let r := excluded P c f b (P.abs f.code.filename) k
    r.1 = excludedOf P c f b ∧ FtOk P U c r.2 ∧ ExOk P U c r.2 ∧ r.2.scope = k.scope ∧ r.2.apply = k.apply ∧ r.2.fileType ≠ [] := by
  simp only
  unfold excluded
  cases hg : Py.Dict.get k.excl (P.abs f.code.filename, f.code.name, f.code.firstLine) with
  | some v =>
    refine ⟨hex f b h v hg, hft, hex, rfl, rfl, ?_⟩
    intro he; rw [hdep he] at hg; cases hg
  | none =>
    obtain ⟨h1, h2, h3, h4⟩ := getFileType_ok hU h (scanBack_ok hU b (hU.suffix f b h)) hft
    simp only [h1]
    refine ⟨rfl, h2, ?_, h3.1, h3.2.2.1, h4⟩
    intro f' b' h' v hv'
    simp only [Py.Dict.get_set] at hv'
    split at hv'
    · rename_i he
      cases hv'
      simp only [Prod.mk.injEq] at he
      have hm := hU.module f b f' b' h h' he.1.symm he.2.1.symm he.2.2.symm
      unfold excludedOf
      rw [← he.1.symm, hm]
      have hp : (typeOf P c f b = some .pydev) ↔ (typeOf P c f' b' = some .pydev) := by
        unfold typeOf
        rw [he.1]
        split
        · constructor <;> (intro hh; split at hh <;> cases hh)
        · exact Iff.rfl
      by_cases hq : typeOf P c f b = some .pydev
      · rw [if_pos hq, if_pos (hp.1 hq)]
      · rw [if_neg hq, if_neg (fun hh => hq (hp.2 hh))]
    · rw [h3.2.1] at hv'; exact hex f' b' h' v hv'

theorem appliedOf_code (hU : Coherent P U) {c : Conf} {f f' : Frame} {b b' : List Frame} {force : Bool}
    (h : U (f :: b)) (h' : U (f' :: b')) (hc : f.code = f'.code) : appliedOf P c f b force = appliedOf P c f' b' force := by
  have hk : key P f = key P f' := by unfold key; rw [hc]
  have ht := typeOf_key (c := c) hU h h' hk
  have hm := hU.module f b f' b' h h' (by rw [hc]) (by rw [hc]) (by rw [hc])
  unfold appliedOf excludedOf scopeOf
  rw [ht, hm, hc]

/-- `apply_files_filter`: answer and caches. -/
theorem applyFilter_ok (hU : Coherent P U) {s : State} (hi : Inv P U s) {f : Frame} {b : List Frame} (h : U (f :: b))
    {orig : Str} (ho : P.abs orig = P.abs f.code.filename) (force : Bool) :
    (applyFilter P s f b orig force).1 = appliedOf P s.conf f b force ∧
      Inv P U { s with caches := (applyFilter P s f b orig force).2 } := by
  unfold applyFilter
  cases hg : Py.Dict.get s.caches.apply (f.code.firstLine, orig, force, f.code) with
  | some v => exact ⟨hi.ap f b orig force h ho v hg, hi⟩
  | none =>
    simp only
    -- first half
    have h1 : (applyExcl P s f b orig s.caches).1 = (if s.conf.filters = [] then none else excludedOf P s.conf f b) ∧
        FtOk P U s.conf (applyExcl P s f b orig s.caches).2 ∧ ExOk P U s.conf (applyExcl P s f b orig s.caches).2 ∧
        (applyExcl P s f b orig s.caches).2.scope = s.caches.scope ∧ (applyExcl P s f b orig s.caches).2.apply = s.caches.apply ∧
        (s.caches.fileType ≠ [] → (applyExcl P s f b orig s.caches).2.fileType ≠ []) ∧
        ((applyExcl P s f b orig s.caches).2.fileType = [] → s.exclEnabled = false ∧ (applyExcl P s f b orig s.caches).2.excl = []) := by
      unfold applyExcl
      by_cases hf : s.conf.filters = []
      · have : s.exclEnabled = false := by rw [hi.excl, hf]; rfl
        rw [this]
        simp only [Bool.false_eq_true, if_false, hf, if_true, true_and]
        exact ⟨hi.ft, hi.ex, id, hi.depExcl⟩
      · have : s.exclEnabled = true := by rw [hi.excl]; simpa using hf
        rw [this]
        simp only [if_true, hf, if_false, ho]
        obtain ⟨e1, e2, e3, e4, e5, e6⟩ := excluded_ok hU h hi.ft hi.ex hi.depExcl
        exact ⟨e1, e2, e3, e4, e5, fun _ => e6, fun he => absurd he e6⟩
    obtain ⟨a1, a2, a3, a4, a5, a6, a7⟩ := h1
    generalize hek : applyExcl P s f b orig s.caches = ek at a1 a2 a3 a4 a5 a6 a7
    obtain ⟨e, k⟩ := ek
    simp only at a1 a2 a3 a4 a5 a6 a7 ⊢
    have hsc : ScOk P U s.conf k := by
      intro f' b' h' v hv; rw [a4] at hv; exact hi.sc f' b' h' v hv
    have hdep : k.fileType = [] → k.scope = [] := by
      intro he
      rw [a4]
      apply hi.depScope
      apply Classical.byContradiction
      intro hne; exact a6 hne he
    -- storing
    have store : ∀ k' v, FtOk P U s.conf k' → ScOk P U s.conf k' → ExOk P U s.conf k' → k'.apply = s.caches.apply →
        (k'.fileType = [] → k'.scope = [] ∧ k'.excl = [] ∧ s.exclEnabled = false ∧ s.libEnabled = false ∧ force = false ∧
          s.caches.fileType = []) →
        v = appliedOf P s.conf f b force →
        Inv P U { s with caches := { k' with apply := Py.Dict.set k'.apply (f.code.firstLine, orig, force, f.code) v } } := by
      intro k' v q1 q2 q3 q4 q5 q6
      refine ⟨hi.excl, hi.lib, q1, q2, q3, ?_, fun he => (q5 he).1, fun he => (q5 he).2.1, ?_⟩
      · intro f' b' orig' force' h' ho' v' hv'
        simp only [Py.Dict.get_set] at hv'
        split at hv'
        · rename_i he
          cases hv'
          simp only [Prod.mk.injEq] at he
          obtain ⟨_, _, rfl, hc⟩ := he
          rw [q6]
          exact appliedOf_code hU h h' hc.symm
        · rw [q4] at hv'; exact hi.ap f' b' orig' force' h' ho' v' hv'
      · intro he l o fo co v' hv'
        obtain ⟨_, _, x1, x2, x3, x4⟩ := q5 he
        simp only [Py.Dict.get_set] at hv'
        split at hv'
        · rename_i hk
          simp only [Prod.mk.injEq] at hk
          obtain ⟨_, _, rfl, _⟩ := hk
          exact ⟨x1, x2, x3⟩
        · rw [q4] at hv'; exact hi.depApply x4 l o fo co v' hv'
    cases e with
    | some eb =>
      simp only
      have hf : s.conf.filters ≠ [] := by intro hf; rw [if_pos hf] at a1; cases a1
      rw [if_neg hf] at a1
      have hv : eb = appliedOf P s.conf f b force := by unfold appliedOf; rw [if_neg hf, ← a1]
      refine ⟨hv, store k eb a2 hsc a3 a5 ?_ hv⟩
      intro he
      have := (a7 he).1
      rw [hi.excl] at this
      simp only [Bool.not_eq_eq_eq_not, Bool.not_false, List.isEmpty_iff] at this
      exact absurd this hf
    | none =>
      simp only
      unfold applyScope
      by_cases hl : (s.libEnabled || force) = true
      · rw [if_pos hl]
        obtain ⟨r1, r2, r3, r4, r5, r6⟩ := inScope_ok hU h a2 hsc hdep
        generalize hr : inScope P s.conf f b k = rr at r1 r2 r3 r4 r5 r6
        obtain ⟨v, k'⟩ := rr
        simp only at r1 r2 r3 r4 r5 r6 ⊢
        have hv : (!v) = appliedOf P s.conf f b force := by
          unfold appliedOf
          rw [← a1, r1]
          rw [hi.lib] at hl
          rw [hl]; simp
        refine ⟨hv, store k' _ r2 r3 ?_ (r5.trans a5) (fun he => absurd he r6) hv⟩
        intro f' b' h' v' hv'
        rw [r4] at hv'; exact a3 f' b' h' v' hv'
      · rw [if_neg hl]
        simp only [Bool.not_eq_true, Bool.or_eq_false_iff] at hl
        have hv : false = appliedOf P s.conf f b force := by
          unfold appliedOf
          rw [← a1]
          rw [hi.lib] at hl
          rw [hl.1, hl.2]; rfl
        refine ⟨hv, store k _ a2 hsc a3 a5 ?_ hv⟩
        intro he
        refine ⟨hdep he, (a7 he).2, (a7 he).1, hl.1, hl.2, ?_⟩
        apply Classical.byContradiction
        intro hne; exact a6 hne he

theorem inv_start (c : Conf) : Inv P U (start c) := by
  refine ⟨rfl, rfl, ?_, ?_, ?_, ?_, fun _ => rfl, fun _ => rfl, ?_⟩
  · intro f b _ v hv; cases hv
  · intro f b _ v hv; cases hv
  · intro f b _ v hv; cases hv
  · intro f b _ _ _ _ v hv; cases hv
  · intro _ _ _ _ _ v hv; cases hv

theorem inv_clear {s : State} (hft : FtOk P U s.conf s.caches) : Inv P U (clear s) := by
  refine ⟨rfl, rfl, hft, ?_, ?_, ?_, fun _ => rfl, fun _ => rfl, ?_⟩
  · intro f b _ v hv; cases hv
  · intro f b _ v hv; cases hv
  · intro f b _ _ _ _ v hv; cases hv
  · intro _ _ _ _ _ v hv; cases hv

/-- The file type depends on the configuration through the start/end patterns only. -/
theorem typeOf_conf {c c' : Conf} (h : c.patterns = c'.patterns) (f : Frame) (b : List Frame) :
    typeOf P c f b = typeOf P c' f b := by
  have he : ∀ a, external P c a = external P c' a := by intro a; unfold external; rw [h]
  have hp : ∀ a, plainType P c a = plainType P c' a := by intro a; unfold plainType; rw [he]
  have hu : isUserCaller P c = isUserCaller P c' := by funext g; unfold isUserCaller; rw [hp]
  unfold typeOf
  rw [hp, hu]

theorem ftOk_conf {c c' : Conf} (h : c.patterns = c'.patterns) {k : Caches} (hk : FtOk P U c k) : FtOk P U c' k := by
  intro f b hu v hv
  rw [hk f b hu v hv, typeOf_conf h]

theorem inv_step (hU : Coherent P U) {s : State} (hi : Inv P U s) {a : Action} (ha : OkAction P U a) : Inv P U (step P s a) := by
  cases a with
  | setFilters fs => exact inv_clear (ftOk_conf (by rfl) hi.ft)
  | setProjectRoots rs => exact inv_clear (ftOk_conf (by rfl) hi.ft)
  | setUseLib b => exact inv_clear (ftOk_conf (by rfl) hi.ft)
  | setMapped ms => exact inv_clear (ftOk_conf (by rfl) hi.ft)
  | touch => exact inv_clear hi.ft
  | setPatterns ss es =>
    simp only [step, setPatterns]
    split
    · exact hi
    · rename_i hn
      split
      · apply inv_clear
        intro f b _ v hv; cases hv
      · rename_i hr
        by_cases he : s.caches.fileType = []
        · have h1 := hi.depScope he
          have h2 := hi.depExcl he
          have h3 := hi.depApply he
          refine ⟨hi.excl, hi.lib, ?_, ?_, ?_, ?_, hi.depScope, hi.depExcl, hi.depApply⟩
          · intro f b _ v hv; rw [he] at hv; cases hv
          · intro f b _ v hv; rw [h1] at hv; cases hv
          · intro f b _ v hv; rw [h2] at hv; cases hv
          · intro f b orig force hu ho v hv
            obtain ⟨x1, x2, x3⟩ := h3 _ _ _ _ v hv
            have hold := hi.ap f b orig force hu ho v hv
            rw [hi.excl] at x1
            rw [hi.lib] at x2
            have hf : s.conf.filters = [] := by simpa using x1
            unfold appliedOf at hold ⊢
            simp only [hf, if_true, x2, x3, Bool.or_self, Bool.false_and] at hold ⊢
            exact hold
        · have hsame : s.conf.patterns = some (ss, es) := by
            apply Classical.byContradiction
            intro hne
            apply hr
            rw [Bool.and_eq_true, decide_eq_true_eq]
            exact ⟨by simpa using he, hne⟩
          have : ({ s with conf := { s.conf with patterns := some (ss, es) } } : State) = s := by
            rw [← hsame]
          rw [this]
          exact hi
  | askType f b =>
    obtain ⟨_, h2, h3, h4⟩ := getFileType_ok hU ha (scanBack_ok hU b (hU.suffix f b ha)) hi.ft
    refine ⟨hi.excl, hi.lib, h2, ?_, ?_, ?_, fun he => absurd he h4, fun he => absurd he h4, fun he => absurd he h4⟩
    · intro f' b' h' v hv; exact hi.sc f' b' h' v (by rw [← h3.1]; exact hv)
    · intro f' b' h' v hv; exact hi.ex f' b' h' v (by rw [← h3.2.1]; exact hv)
    · intro f' b' o fo h' ho v hv; exact hi.ap f' b' o fo h' ho v (by rw [← h3.2.2.1]; exact hv)
  | askScope f b =>
    obtain ⟨_, h2, h3, h4, h5, h6⟩ := inScope_ok hU ha hi.ft hi.sc hi.depScope
    refine ⟨hi.excl, hi.lib, h2, h3, ?_, ?_, fun he => absurd he h6, fun he => absurd he h6, fun he => absurd he h6⟩
    · intro f' b' h' v hv; exact hi.ex f' b' h' v (by rw [← h4]; exact hv)
    · intro f' b' o fo h' ho v hv; exact hi.ap f' b' o fo h' ho v (by rw [← h5]; exact hv)
  | askExcluded f b orig =>
    obtain ⟨hu, ho⟩ := ha
    obtain ⟨_, h2, h3, h4, h5, h6⟩ := excluded_ok hU hu hi.ft hi.ex hi.depExcl
    simp only [step, ho]
    refine ⟨hi.excl, hi.lib, h2, ?_, h3, ?_, fun he => absurd he h6, fun he => absurd he h6, fun he => absurd he h6⟩
    · intro f' b' h' v hv; exact hi.sc f' b' h' v (by rw [← h4]; exact hv)
    · intro f' b' o fo h' ho v hv; exact hi.ap f' b' o fo h' ho v (by rw [← h5]; exact hv)
  | askApply f b orig force => exact (applyFilter_ok hU hi ha.1 ha.2 force).2
  | rootsDuring rs f b => exact ha.elim

theorem inv_run (hU : Coherent P U) (as : List Action) : ∀ s, Inv P U s → (∀ a ∈ as, OkAction P U a) → Inv P U (run P s as) := by
  induction as with
  | nil => intro s h _; exact h
  | cons a as ih => intro s h ha; exact ih _ (inv_step hU h (ha a (by simp))) fun x hx => ha x (by simp [hx])

theorem conf_run (as : List Action) : ∀ s : State, (run P s as).conf = confAfter P s.conf as := by
  induction as with
  | nil => intro s; rfl
  | cons a as ih =>
    intro s
    show (run P (step P s a) as).conf = _
    rw [ih]
    cases a with
    | setPatterns ss es =>
      simp only [confAfter, step, setPatterns]
      congr 1
      split
      · rfl
      · split <;> rfl
    | _ => rfl

/-- After any history of configuration changes and queries, what `apply_files_filter`, `in_project_scope`,
`_exclude_by_filter` and `get_file_type` answer is what the configuration now in effect says, computed afresh. -/
theorem c29_answers (hU : Coherent P U) (c : Conf) (as : List Action) (has : ∀ a ∈ as, OkAction P U a)
    (f : Frame) (b : List Frame) (h : U (f :: b)) (orig : Str) (ho : P.abs orig = P.abs f.code.filename) (force : Bool) :
    let s := run P (start c) as
    let now := confAfter P c as
    (applyFilter P s f b orig force).1 = appliedOf P now f b force ∧
    (inScope P s.conf f b s.caches).1 = scopeOf P now f b ∧
    (excluded P s.conf f b (P.abs orig) s.caches).1 = excludedOf P now f b ∧
    (getFileType P s.conf f (scanBack P s.conf b) s.caches).1 = typeOf P now f b := by
  simp only
  have hi : Inv P U (run P (start c) as) := inv_run hU as _ (inv_start c) has
  have hc : (run P (start c) as).conf = confAfter P c as := conf_run as (start c)
  rw [← hc, ho]
  exact ⟨(applyFilter_ok hU hi h ho force).1, (inScope_ok hU h hi.ft hi.sc hi.depScope).1,
    (excluded_ok hU h hi.ft hi.ex hi.depExcl).1, (getFileType_ok hU h (scanBack_ok hU b (hU.suffix f b h)) hi.ft).1⟩

/-- The file type of a file other than `<string>`: the built-in table first, else the file is a debugger file
exactly when one of the client's patterns starts or ends its normalized name. -/
theorem c29_patterns (c : Conf) (abs : Str) :
    (∀ t, P.builtin abs = some t → plainType P c abs = some t) ∧
    (P.builtin abs = none → plainType P c abs =
      open Classical in
      if ∃ ss es, c.patterns = some (ss, es) ∧
        ((∃ p ∈ ss, p <+: P.env.normcase abs) ∨ (∃ p ∈ es, p <:+ P.env.normcase abs)) then some .pydev else none) := by
  constructor
  · intro t h; unfold plainType; rw [h]
  · intro h
    unfold plainType
    rw [h]
    simp only
    have hx : external P c abs = true ↔ ∃ ss es, c.patterns = some (ss, es) ∧
        ((∃ p ∈ ss, p <+: P.env.normcase abs) ∨ (∃ p ∈ es, p <:+ P.env.normcase abs)) := by
      unfold external
      cases hp : c.patterns with
      | none => simp
      | some x =>
        obtain ⟨ss, es⟩ := x
        simp only [Bool.or_eq_true, List.any_eq_true, Py.startsWith_iff, Py.endsWith_iff, Option.some.injEq, Prod.mk.injEq]
        constructor
        · intro h; exact ⟨ss, es, ⟨rfl, rfl⟩, h⟩
        · rintro ⟨_, _, ⟨rfl, rfl⟩, h⟩; exact h
    by_cases he : external P c abs = true
    · rw [if_pos he, if_pos (hx.1 he)]
    · rw [if_neg he, if_neg (fun h => he (hx.2 h))]

/-! ### A case, and where the assumptions are needed -/

def P0 : Plat where
  env := { fnmatch := fun x p => p = c!"*" || p = x }
  norm := id
  abs := id
  base := id
  builtin := fun a => if a = c!"pydevd.py" then some .pydev else none

def fA : Frame := { code := { id := 1, filename := c!"/p/a.py" }, module := c!"a" }
def fLib : Frame := { code := { id := 2, filename := c!"/lib/x.py" }, module := c!"x" }
def fMain : Frame := { code := { id := 3, filename := c!"/p/a.py" }, module := c!"__main__" }
def fStr : Frame := { code := { id := 4, filename := c!"<string>" }, module := c!"__main__" }

def U0 (s : List Frame) : Prop := s = [fLib, fA] ∨ s = [fA] ∨ s = []

example : Coherent P0 U0 := by
  refine ⟨?_, ?_, ?_⟩
  · rintro f b (h | h | h)
    · simp only [List.cons.injEq] at h; exact .inr (.inl h.2)
    · simp only [List.cons.injEq] at h; exact .inr (.inr h.2)
    · cases h
  · rintro f b f' b' (h | h | h) - - hs
    · simp only [List.cons.injEq] at h; rw [h.1] at hs; exact absurd hs (by decide)
    · simp only [List.cons.injEq] at h; rw [h.1] at hs; exact absurd hs (by decide)
    · cases h
  · rintro f b f' b' (h | h | h) (h' | h' | h') he - -
    all_goals first
      | (simp only [List.cons.injEq] at h h'; rw [h.1, h'.1]; done)
      | (simp only [List.cons.injEq] at h h'; rw [h.1, h'.1] at he; exact absurd he (by decide))
      | (cases h'; done)
      | (cases h; done)

/-- a library frame, asked about before and after the roots change: the second answer is the new one -/
example : (applyFilter P0 (run P0 (start { useLib := true }) [.setProjectRoots [c!"/p"], .askApply fLib [fA] c!"/lib/x.py" false])
    fLib [fA] c!"/lib/x.py" false).1 = true ∧
    (applyFilter P0 (run P0 (start { useLib := true }) [.setProjectRoots [c!"/p"], .askApply fLib [fA] c!"/lib/x.py" false,
      .setProjectRoots [c!"/p", c!"/lib"]]) fLib [fA] c!"/lib/x.py" false).1 = false := by decide

/-- The module-rule cache does not know the module: the same file run as a script and imported under its own name
gets one answer, that of whichever was asked first. -/
theorem c29_module_not_in_key :
    let s := run P0 (start {}) [.setFilters [{ name := c!"a", exclude := true, isPath := false }], .askExcluded fA [] c!"/p/a.py"]
    (excluded P0 s.conf fMain [] c!"/p/a.py" s.caches).1 = some true ∧ excludedOf P0 s.conf fMain [] = none := by decide

/-- Equal code compiled as `<string>` twice: once run by `python -c` (user code), once by `exec` in a user file
(library code). The second gets the answer of the first. -/
theorem c29_string_twice :
    let s := run P0 (start {}) [.askScope fStr []]
    (inScope P0 s.conf fStr [fA] s.caches).1 = true ∧ scopeOf P0 s.conf fStr [fA] = false := by decide

/-- A configuration change during a query: the old answer is stored after the caches were cleared and stays. -/
theorem c29_race :
    let s := run P0 (start { projectRoots := [c!"/q/"] }) [.rootsDuring [c!"/p"] fA []]
    (inScope P0 s.conf fA [] s.caches).1 = false ∧ scopeOf P0 s.conf fA [] = true := by decide

end FilterCache
