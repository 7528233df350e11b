import Verif.Process.Spec
import Verif.PatchArgs.Props
import Verif.Process.ForkProps
/-!
# C106: the processes a program starts are those it would start without the debugger
-/
namespace Process
open Spec

theorem execv_fin (e : Env) (file : Str) (args : List Str) (env : Option Str) :
    (execv e file args env).fin = Spec.exec e.world false file (e.args args) env := by
  unfold execv Spec.exec candidates errorOf
  cases h : e.world.exec file with
  | none => simp [h]
  | some x =>
    simp only [Bool.false_and, Bool.false_eq_true, if_false, List.find?_cons, h, Option.isNone_some, List.find?_nil,
      List.filterMap_cons, List.filterMap_nil]
    cases x <;> simp

theorem search_fin (e : Env) (file : Str) (args : List Str) (env : Option Str) (dirs : List Str) (saved : Option Err)
    (last : Err) (hl : saved = none → last = .notFound) (hs : saved ≠ some .notFound) :
    (search e file args env dirs saved last).fin =
      match (dirs.map (e.world.join · file)).find? (fun f => (e.world.exec f).isNone) with
      | some f => .runs f (e.args args) env
      | none => .raised (saved.getD (errorOf e.world (dirs.map (e.world.join · file)))) := by
  induction dirs generalizing saved last with
  | nil =>
    simp only [search, List.map_nil, List.find?_nil, errorOf, List.filterMap_nil, Option.getD_none]
    cases saved with
    | none => rw [hl rfl]
    | some x => rfl
  | cons d r ih =>
    simp only [search]
    cases h : e.world.exec (e.world.join d file) with
    | none => simp [execv, h]
    | some x =>
      have hf : (execv e (e.world.join d file) args env).fin = .raised x := by simp [execv, h]
      simp only [hf, List.map_cons, List.find?_cons, h, Option.isNone_some]
      rw [ih]
      · cases hfind : (r.map (e.world.join · file)).find? (fun f => (e.world.exec f).isNone) with
        | some f => rfl
        | none =>
          simp only [errorOf, List.filterMap_cons, h, List.find?_cons]
          by_cases hx : x = .notFound
          · simp [hx]
          · simp only [hx, if_false, Option.getD_some, ne_eq, not_false_eq_true, decide_true]
      · by_cases hx : x = .notFound
        · simp [hx]
        · simp [hx]
      · by_cases hx : x = .notFound
        · simp [hx, hs]
        · simp only [hx, if_false]
          cases saved with
          | none => simpa using hx
          | some y => simpa using hs

theorem execV_fin (e : Env) (p : Bool) (file : Str) (args : List Str) (env : Option Str)
    (h : e.args (e.args args) = e.args args) :
    (execV e p file args env).fin = Spec.exec e.world p file (e.args args) env := by
  unfold execV
  cases p with
  | false => simp [execv_fin]
  | true =>
    simp only [if_true, execvp]
    by_cases hd : e.world.hasDir file = true
    · simp only [hd, if_true]
      rw [execv_fin, h]
      simp [Spec.exec, candidates, hd]
    · simp only [hd, if_false, Bool.false_eq_true]
      rw [search_fin _ _ _ _ _ _ _ (fun _ => rfl) (by simp), h]
      simp only [Bool.not_eq_true] at hd
      simp only [Spec.exec, candidates, hd, Bool.not_false, Bool.and_true, if_true, Option.getD_none]
      rfl

theorem exec_fin (e : Env) (l p : Bool) (file : Str) (args : List Str) (env : Option Str)
    (h : e.args (e.args args) = e.args args) :
    (exec e l p file args env).fin = Spec.exec e.world p file (e.args args) env := by
  unfold exec
  cases l with
  | false => simpa using execV_fin e p file args env h
  | true =>
    simp only [if_true, execL]
    split
    · exact execV_fin e p file args env h
    · rw [execV_fin e p file (e.args args) env (by rw [h, h]), h]

/-- The arguments for which patching them again changes nothing: all but code given with `-c` (see `c40_again`). -/
def Spec.Usual (args : List Str) : Prop :=
  ∃ exe flags rest, args = exe :: (flags ++ rest) ∧ PatchArgs.Spec.Flags flags ∧
    (PatchArgs.Spec.NoTarget rest ∨ (∃ program a, rest = program :: a ∧ program.head? ≠ some '-') ∨
      ∃ letters name m a, rest = m ++ a ∧ PatchArgs.Spec.Valued 'm' letters name m)

theorem usual_again (e e' : PatchArgs.Env) (hwin : e.win = false) (hwin' : e'.win = false)
    (hd : e.pydevd.head? ≠ some '-') (hm : c!"pydevd.py" <:+ e.pydevd) (args : List Str) (hu : Usual args) :
    PatchArgs.patchArgs e' (PatchArgs.patchArgs e args) = PatchArgs.patchArgs e args := by
  obtain ⟨exe, flags, rest, rfl, hf, hr⟩ := hu
  exact PatchArgs.c40_again e e' hwin hwin' exe flags rest hf hd hm hr

/-- **C106** (replacing the process): any of the functions `os.exec*` executes the file it would without the debugger, in the
same environment, or fails with the same error; the arguments are those given, patched once, although the functions call each
other. -/
theorem c106_exec (e : Env) (pe : PatchArgs.Env) (he : e.patch = PatchArgs.patchArgs pe) (hwin : pe.win = false)
    (hd : pe.pydevd.head? ≠ some '-') (hm : c!"pydevd.py" <:+ pe.pydevd) (l p : Bool) (file : Str) (args : List Str)
    (env : Option Str) (hu : Usual args) (hp : e.patching = true) :
    (exec e l p file args env).fin = Spec.exec e.world p file (PatchArgs.patchArgs pe args) env := by
  have h := exec_fin e l p file args env
  simp only [Env.args, hp, if_true, he] at h
  exact h (usual_again pe pe hwin hwin hd hm args hu)

/-- **C106** (left alone): where patching is switched off everything is as without the debugger, and the client is told
nothing. -/
theorem c106_exec_skip (e : Env) (l p : Bool) (file : Str) (args : List Str) (env : Option Str) (hp : e.patching = false) :
    (exec e l p file args env).fin = Spec.exec e.world p file args env ∧ (exec e l p file args env).msgs = [] := by
  constructor
  · have h := exec_fin e l p file args env
    simp only [Env.args, hp, Bool.false_eq_true, if_false] at h
    exact h trivial
  · have hm : e.msgs = [] := by simp [Env.msgs, hp]
    have h1 : ∀ f a, (execv e f a env).msgs = [] := by intro f a; simp [execv, hm]
    have h2 : ∀ f a dirs s x, (search e f a env dirs s x).msgs = [] := by
      intro f a dirs
      induction dirs with
      | nil => intro s x; rfl
      | cons d r ih =>
        intro s x
        simp only [search]
        split
        · exact h1 _ _
        · simp [h1, ih]
    have h3 : ∀ a, (execV e p file a env).msgs = [] := by
      intro a
      unfold execV
      split
      · simp only [execvp, hm, List.nil_append]
        split
        · exact h1 _ _
        · exact h2 _ _ _ _ _
      · exact h1 _ _
    unfold exec
    split
    · simp [execL, hm, h3]
    · exact h3 _

/-- **C106** (the client is told): before a process is replaced the client is told (also if that fails, see
`c106_replaced_witness`). -/
theorem c106_exec_told (e : Env) (l p : Bool) (file : Str) (args : List Str) (env : Option Str) (hp : e.patching = true)
    (hd : e.debugger = true) :
    Msg.created ∈ (exec e l p file args env).msgs ∧ Msg.replaced ∈ (exec e l p file args env).msgs := by
  have hm : e.msgs = [.created, .replaced] := by simp [Env.msgs, hp, hd]
  unfold exec
  split
  · simp [execL, hm]
  · unfold execV
    split
    · simp [execvp, hm]
    · simp [execv, hm]

/-- **C106** (starting a process): any of the functions `os.spawn*` starts a child that executes the file it would, in the same
environment, or fails with the same error, with the arguments given, patched once by the process that starts it. -/
theorem c106_spawn (b : Both) (pe ce : PatchArgs.Env) (he : b.patch = PatchArgs.patchArgs pe)
    (hc : b.childPatch = PatchArgs.patchArgs ce) (hwin : pe.win = false) (hwin' : ce.win = false)
    (hd : pe.pydevd.head? ≠ some '-') (hm : c!"pydevd.py" <:+ pe.pydevd) (l p : Bool) (file : Str) (args : List Str)
    (env : Option Str) (hu : Usual args) (hp : b.patching = true) :
    (spawn b l p file args env).child = Spec.exec b.world p file (PatchArgs.patchArgs pe args) env := by
  have h1 : b.patch (b.patch args) = b.patch args := by rw [he]; exact usual_again pe pe hwin hwin hd hm args hu
  have h2 : b.childPatch (b.patch args) = b.patch args := by rw [hc, he]; exact usual_again pe ce hwin hwin' hd hm args hu
  have h3 : (execV b.inChild p file (b.patch args) env).fin = Spec.exec b.world p file (b.patch args) env := by
    have ha : ∀ a, b.inChild.args a = b.childPatch a := by intro a; simp [Env.args, Both.inChild, hp]
    have := execV_fin b.inChild p file (b.patch args) env
    rw [ha (b.patch args), h2, ha, h2] at this
    exact this rfl
  rw [← he]
  unfold spawn
  split
  · simp only [spawnL, spawnV, Both.args, hp, if_true]
    split
    · exact h3
    · rw [h1]; exact h3
  · simp only [spawnV, Both.args, hp, if_true]
    exact h3

/-- **C106** (starting a process, left alone). -/
theorem c106_spawn_skip (b : Both) (l p : Bool) (file : Str) (args : List Str) (env : Option Str)
    (hp : b.patching = false) : (spawn b l p file args env).child = Spec.exec b.world p file args env := by
  have h3 : ∀ a, (execV b.inChild p file a env).fin = Spec.exec b.world p file a env := by
    intro a
    have ha : ∀ a, b.inChild.args a = a := by intro a; simp [Env.args, Both.inChild, hp]
    have := execV_fin b.inChild p file a env
    rw [ha, ha] at this
    exact this rfl
  unfold spawn
  split
  · simp only [spawnL, spawnV, Both.args, hp, Bool.false_eq_true, if_false, ite_self]
    exact h3 _
  · simp only [spawnV, Both.args, hp, Bool.false_eq_true, if_false]
    exact h3 _

/-- **C106** (`os.posix_spawn`, `subprocess`): the same, with any arguments. -/
theorem c106_direct (b : Both) (file : Str) (args : List Str) (env : Option Str) :
    (direct b file args env).child = Spec.exec b.world false file (if b.patching then b.patch args else args) env ∧
    (direct b file args env).msgs = if b.patching && b.debugger then [.created] else [] := by
  refine ⟨?_, rfl⟩
  have := execv_fin { world := b.world, patching := b.patching, patch := b.patch, debugger := b.debugger } file args env
  simpa [execv, direct, Env.args, Both.args] using this

/-! ### Putting the functions in place -/

/-- **C106** (in place): however often and in whatever order the functions are put in place, each of them calls the function
Python has under the name, and it is the one put in place first. -/
theorem c106_functions (python : Nat → Option Nat) (rounds : List (List Nat × Bool)) (n : Nat) :
    let m := rounds.foldl (fun m r => patchAll r.1 m r.2)
      { fn := fun k => (python k).map .python, original := fun _ => none }
    callee m n = (python n).map .python ∧
    m.fn n = (python n).map fun f =>
      match rounds.find? (fun r => r.1.contains n) with
      | some r => .wrapper r.2
      | none => .python f := by
  have one : ∀ (names : List Nat) (m : Module) (w : Bool),
      (patchAll names m w).fn n = (if names.contains n && (m.original n).isNone then (m.fn n).map fun _ => .wrapper w
        else m.fn n) ∧
      (patchAll names m w).original n = (if names.contains n && (m.original n).isNone then m.fn n else m.original n) := by
    intro names
    induction names with
    | nil => intro m w; simp [patchAll]
    | cons a r ih =>
      intro m w
      have e : patchAll (a :: r) m w = patchAll r (patchModule m a w) w := rfl
      rw [e, (ih _ _).1, (ih _ _).2]
      by_cases ha : n = a
      · subst ha
        unfold patchModule
        cases hf : m.fn n with
        | none => cases ho : m.original n <;> simp [hf, ho]
        | some f => cases ho : m.original n <;> simp [hf, ho]
      · have h1 : (patchModule m a w).fn n = m.fn n := by
          unfold patchModule; split <;> simp [ha]
        have h2 : (patchModule m a w).original n = m.original n := by
          unfold patchModule; split <;> simp [ha]
        rw [h1, h2]
        simp [ha]
  have all : ∀ (rounds : List (List Nat × Bool)) (m : Module),
      (rounds.foldl (fun m r => patchAll r.1 m r.2) m).fn n =
        (if (m.original n).isNone then (m.fn n).map fun f =>
          match rounds.find? (fun r => r.1.contains n) with
          | some r => .wrapper r.2
          | none => f
        else m.fn n) ∧
      (rounds.foldl (fun m r => patchAll r.1 m r.2) m).original n =
        (if (m.original n).isNone && (rounds.find? (fun r => r.1.contains n)).isSome then m.fn n else m.original n) := by
    intro rounds
    induction rounds with
    | nil => intro m; simp
    | cons r rs ih =>
      intro m
      simp only [List.foldl_cons]
      rw [(ih _).1, (ih _).2, (one _ _ _).1, (one _ _ _).2]
      cases hc : r.1.contains n with
      | false => simp only [Bool.false_and, Bool.false_eq_true, if_false, List.find?_cons, hc, and_self]
      | true =>
        simp only [Bool.true_and, List.find?_cons, hc]
        cases ho : m.original n with
        | some o => simp [ho]
        | none =>
          cases hf : m.fn n with
          | none => simp [ho, hf]
          | some f => simp [ho, hf]
  intro m
  have h := all rounds { fn := fun k => (python k).map .python, original := fun _ => none }
  have h1 : m.fn n = (python n).map fun f =>
      match rounds.find? (fun r => r.1.contains n) with
      | some r => .wrapper r.2
      | none => .python f := by
    refine h.1.trans ?_
    simp only [Option.isNone_none, if_true, Option.map_map]
    cases python n <;> rfl
  refine ⟨?_, h1⟩
  have h2 : m.original n =
      if (rounds.find? (fun r => r.1.contains n)).isSome then (python n).map .python else none := by
    have h3 := h.2
    simp only [Option.isNone_none, Bool.true_and] at h3
    exact h3
  unfold callee
  rw [h1, h2]
  cases python n with
  | none => simp
  | some f =>
    simp only [Option.map_some]
    cases rounds.find? (fun r => r.1.contains n) <;> simp

/-! ### Where patching is switched off -/

/-- **C106** (where): in a thread that enters and leaves `skip_subprocess_arg_patch` in turn, arguments are patched exactly
outside of it, whatever other threads do. -/
theorem c106_skip_scope (acts : List Skip) (t : Nat) (h : Alternates t acts) :
    applies (acts.foldl skipStep fun _ => none) t = decide (depth t acts = 0) := by
  have app : ∀ a b : List Skip, depth t (a ++ b) = depth t a + depth t b := by
    intro a b
    induction a with
    | nil => simp [depth]
    | cons x r ih => cases x <;> simp only [List.cons_append, depth, ih] <;> omega
  have key : ∀ rev : List Skip, Alternates t rev.reverse →
      applies (rev.reverse.foldl skipStep fun _ => none) t = decide (depth t rev.reverse = 0) := by
    intro rev
    induction rev with
    | nil => intro _; rfl
    | cons a r ih =>
      intro h
      have hr : Alternates t r.reverse := fun p hp => h p (hp.trans ⟨[a], by simp⟩)
      have h1 := ih hr
      have h2 := hr r.reverse (List.prefix_refl _)
      have h3 := h (r.reverse ++ [a]) (by simp)
      rw [app] at h3
      rw [List.reverse_cons, List.foldl_append, app]
      simp only [List.foldl_cons, List.foldl_nil]
      generalize (r.reverse.foldl skipStep fun _ => none) = s at h1 ⊢
      cases a with
      | enter u =>
        simp only [depth, applies, skipStep] at h1 h3 ⊢
        by_cases hu : t = u
        · subst hu
          simp only [if_true] at h3 ⊢
          have : depth t r.reverse = 0 := by omega
          simp [this]
        · have hu' : ¬ u = t := fun x => hu x.symm
          simp only [hu, hu', if_false]
          simpa using h1
      | leave u =>
        simp only [depth, applies, skipStep] at h1 h3 ⊢
        by_cases hu : t = u
        · subst hu
          simp only [if_true] at h3 ⊢
          have : depth t r.reverse = 1 := by omega
          simp [this]
        · have hu' : ¬ u = t := fun x => hu x.symm
          simp only [hu, hu', if_false]
          simpa using h1
  have := key acts.reverse (by simpa using h)
  simpa using this

/-- **C106** (with a warning): the functions that only warn return what those of Python do; but see
`c106_warn_witness`. -/
theorem c106_warn (o : Out) : warnCall o = o ∧ ((∀ x, o ≠ .exc x) → warnForkExec o = o) := by
  refine ⟨rfl, fun h => ?_⟩
  cases o with
  | exc x => exact absurd rfl (h x)
  | _ => rfl

/-! ### Non-vacuity -/

/-- A system with `/bin/python`. -/
def sampleWorld : World where
  exec := fun f => if f = c!"/bin/python" then none else if f = c!"/sbin/python" then some (.other 13) else some .notFound
  hasDir := fun f => f.contains '/'
  join := fun d f => d ++ '/' :: f
  path := fun _ => [c!"/usr/bin", c!"/sbin", c!"/bin"]

def samplePatch : PatchArgs.Env := ⟨false, c!"/d/pydevd.py", fun _ => none, some c!"attach(); ", fun _ => none⟩

def sampleEnv : Env :=
  { world := sampleWorld, patching := true, patch := PatchArgs.patchArgs samplePatch, debugger := true }

/-- `os.execlp("python", "python", "x.py")` is found along the search path; the arguments are patched once. -/
theorem c106_example :
    Usual [c!"python", c!"x.py"] ∧
    (exec sampleEnv true true c!"python" [c!"python", c!"x.py"] none).fin =
      .runs c!"/bin/python" [c!"python", c!"/d/pydevd.py", c!"--file", c!"x.py"] none ∧
    (exec sampleEnv true true c!"ruby" [c!"ruby"] none).fin = .raised .notFound ∧
    Alternates 0 [.enter 0, .enter 1, .enter 1, .leave 0] := by
  refine ⟨⟨c!"python", [], [c!"x.py"], rfl, .nil, .inr (.inl ⟨_, _, rfl, by decide⟩)⟩, by decide +kernel, by decide +kernel, ?_⟩
  intro p hp
  have h := List.prefix_iff_eq_take.mp hp
  generalize p.length = k at h
  subst h
  match k with
  | 0 => decide
  | 1 => decide
  | 2 => decide
  | 3 => decide
  | k + 4 => simp [depth]

/-! ### Limits -/

/-- Code given with `-c` is patched by each of the functions: `os.execlp` gives code that attaches three times. -/
theorem c106_code_witness :
    (exec sampleEnv true true c!"python" [c!"python", c!"-c", c!"f()"] none).fin =
      .runs c!"/bin/python" [c!"python", c!"-c", c!"attach(); attach(); attach(); f()"] none := by decide +kernel

/-- The client is told that the process is replaced, five times, although no file can be executed and the program goes on. -/
theorem c106_replaced_witness :
    exec sampleEnv true true c!"ruby" [c!"ruby"] none =
      ⟨[.created, .replaced, .created, .replaced, .created, .replaced, .created, .replaced, .created, .replaced],
        .raised .notFound⟩ := by decide +kernel

/-- `os.spawnl` tells of three processes and starts one. -/
theorem c106_created_witness :
    (spawn ⟨sampleWorld, true, PatchArgs.patchArgs samplePatch, PatchArgs.patchArgs samplePatch, true, true⟩ true false
      c!"/bin/python" [c!"python", c!"x.py"] none).msgs = [.created, .created, .created] := by decide +kernel

/-- Once functions that only warn are in place, those that attach to the child never are. -/
theorem c106_order_witness :
    (patchAll [0] (patchAll [0] { fn := fun _ => some (.python 7), original := fun _ => none } true) false).fn 0 =
      some (.wrapper true) := by decide

/-- Without attaching to children, an exception of `fork_exec` is lost, and `None` is returned. -/
theorem c106_warn_witness : warnForkExec (.exc (.other 12)) = .none := by decide

/-- Leaving an inner `skip_subprocess_arg_patch` ends the outer one. -/
theorem c106_nested_witness :
    depth 0 [.enter 0, .enter 0, .leave 0] = 1 ∧
    applies ([Skip.enter 0, .enter 0, .leave 0].foldl skipStep fun _ => none) 0 = true := by decide

end Process
