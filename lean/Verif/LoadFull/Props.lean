import Verif.LoadFull.Spec
import Verif.VarPath.Props
/-!
C134: full values are those of the variables asked for, in order.
-/

namespace LoadFull

open Spec
open VarPath (World Val Frame)
open VarPath.Spec (Opened Means Name)

/-! ### The separator -/

theorem go_skip (sp acc xs rest : Str) : splitGo sp acc xs.length (xs ++ rest) = splitGo sp acc 0 rest := by
  induction xs with
  | nil => rfl
  | cons x xs ih => rw [List.length_cons, List.cons_append, splitGo]; exact ih

theorem go_part (w rest acc : Str) (h : Clean w) : splitGo sep acc 0 (w ++ (sep ++ rest)) = (acc.reverse ++ w) :: splitGo sep [] 0 rest := by
  induction w generalizing acc with
  | nil =>
    rw [List.nil_append, List.append_nil]
    have := go_skip sep [] c!"_pydev_val__" rest
    show splitGo sep acc 0 ('_' :: (c!"_pydev_val__" ++ rest)) = _
    rw [splitGo, if_pos (by simp [sep])]
    exact congrArg _ this
  | cons c w ih =>
    have hw : Clean w := by
      intro hi
      exact h (hi.trans (List.suffix_cons c _).isInfix)
    have hp : ¬ sep.isPrefixOf (c :: (w ++ (sep ++ rest))) = true := by
      rw [List.isPrefixOf_iff_prefix]
      intro hpre
      apply h
      have h2 : (c :: w) ++ c!"__pydev_val_" <+: c :: (w ++ (sep ++ rest)) := ⟨'_' :: rest, by simp [sep]⟩
      exact (List.prefix_of_prefix_length_le hpre h2 (by simp [sep])).isInfix
    rw [List.cons_append, splitGo, if_neg hp, ih _ hw]
    simp

theorem go_last (w acc : Str) (h : Clean w) : splitGo sep acc 0 w = [acc.reverse ++ w] := by
  induction w generalizing acc with
  | nil => simp [splitGo]
  | cons c w ih =>
    have hw : Clean w := by
      intro hi
      exact h (hi.trans (List.suffix_cons c _).isInfix)
    have hp : ¬ sep.isPrefixOf (c :: w) = true := by
      rw [List.isPrefixOf_iff_prefix]
      intro hpre
      exact h (hpre.trans (List.prefix_append (c :: w) _)).isInfix
    rw [splitGo, if_neg hp, ih _ hw]
    simp

theorem splitSep_joined (ws : List Str) (hne : ws ≠ []) (h : ∀ w ∈ ws, Clean w) : splitSep (joined ws) = ws := by
  unfold splitSep
  induction ws with
  | nil => exact absurd rfl hne
  | cons a ws ih =>
    cases ws with
    | nil => rw [joined, go_last _ _ (h a (by simp))]; rfl
    | cons b l =>
      rw [joined, List.append_assoc]
      have := go_part a (joined (b :: l)) [] (h a (by simp))
      rw [show (c!"__pydev_val__" : Str) = sep from rfl, this, ih (by simp) (fun w hw => h w (by simp [hw]))]
      rfl

/-! ### The thread -/

theorem onRun_spec (over : Nat → Bool) (l : List (Str × Val)) (k : Nat) :
    onRun over k l <+: l ∧ (∀ i, i < (onRun over k l).length → over (k + i) = false) ∧
      ((onRun over k l).length < l.length → over (k + (onRun over k l).length) = true) := by
  induction l generalizing k with
  | nil => simp [onRun]
  | cons x l ih =>
    rw [onRun]
    by_cases ho : over k = true
    · rw [if_pos ho]
      exact ⟨List.nil_prefix, by simp, by simpa using ho⟩
    · rw [if_neg ho]
      obtain ⟨h1, h2, h3⟩ := ih (k + 1)
      refine ⟨List.prefix_cons_inj x |>.mpr h1, ?_, ?_⟩
      · intro i hi
        cases i with
        | zero => simpa using ho
        | succ i =>
          have := h2 i (by simpa using hi)
          rw [← this]; congr 1; omega
      · intro hl
        have := h3 (by simpa using hl)
        rw [← this, List.length_cons]; congr 1; omega

theorem onRun_inTime (over : Nat → Bool) (l : List (Str × Val)) : InTime over l (onRun over 0 l) := by
  have := onRun_spec over l 0
  simpa [InTime] using this

/-! ### Variables -/

/-- what is asked for can be asked for -/
structure Ok (w : World) (f : Frame) (i : Item) (text : Str) : Prop where
  name : Name i.name
  opened : Opened w (.obj i.root) i.path i.value
  clean : Clean text
  strip : Py.strip text = text

theorem objects_eq (w : World) (th fr : Str) (f : Frame) (hf : w.frame th fr = some f) (hl : Py.Dict.Ok f.locals) (hg : Py.Dict.Ok f.globals)
    (is : List Item) (h : ∀ i ∈ is, Ok w f i i.frameText ∧ Means f i.name i.root) :
    objects w th fr (is.map Item.frameText) = some (is.map fun i => ((Py.join1 '\t' (i.name :: i.path)).take 1, i.value)) := by
  induction is with
  | nil => rfl
  | cons i is ih =>
    obtain ⟨ho, hm⟩ := h i (by simp)
    have hstrip := ho.strip
    have htext : i.frameText = c!"FRAME" ++ '\t' :: Py.join1 '\t' (i.name :: i.path) := by
      unfold Item.frameText
      rw [Py.join1_cons _ _ _ (by simp)]
    have hps : ∀ x ∈ i.name :: i.path, '\t' ∉ x := by
      intro x hx
      rcases List.mem_cons.mp hx with rfl | hx
      · exact ho.name.1
      · exact VarPath.opened_tabs ho.opened x hx
    have hg' : VarPath.getVariable w th fr c!"FRAME" (some (Py.join1 '\t' (i.name :: i.path))) = some i.value := by
      have hparts : VarPath.parts (some (Py.join1 '\t' (i.name :: i.path))) = i.name :: i.path := Py.split1_join1 _ _ (by simp) hps
      unfold VarPath.getVariable
      rw [if_neg (by decide), hf]
      simp only
      rw [if_neg (by decide), if_neg (by decide), hparts, VarPath.walk, VarPath.resolve_name w _ ho.name (VarPath.merged_means hl hg hm)]
      exact VarPath.walk_opened ho.opened (by simp)
    rw [List.map_cons, objects]
    simp only [hstrip]
    rw [if_neg (by rw [htext]; simp), htext, LineReq.splitN_cons _ _ _ (by decide), LineReq.splitN_zero]
    simp only [hg', Option.bind_some, ih (fun j hj => h j (by simp [hj])), Option.map_some, List.map_cons]

/-- C134. In a paused program: the values that come are those of the variables asked for, in order, all of them unless time is over. -/
theorem c134_values (w : World) (over : Nat → Bool) (th fr : Str) (f : Frame) (hf : w.frame th fr = some f) (h1 : '\t' ∉ th) (h2 : '\t' ∉ fr)
    (hl : Py.Dict.Ok f.locals) (hg : Py.Dict.Ok f.globals) (is : List Item) (hne : is ≠ [])
    (h : ∀ i ∈ is, Ok w f i i.frameText ∧ Means f i.name i.root) :
    ∃ rows, request w over (Py.join1 '\t' [th, fr, joined (is.map Item.frameText)]) = some (.values rows) ∧
      InTime over (is.map (·.value)) (rows.map (·.2)) := by
  refine ⟨onRun over 0 (is.map fun i => ((Py.join1 '\t' (i.name :: i.path)).take 1, i.value)), ?_, ?_⟩
  · unfold request
    simp only [Py.join1]
    rw [LineReq.splitN_cons _ _ _ h1, LineReq.splitN_cons _ _ _ h2, LineReq.splitN_zero]
    simp only
    rw [splitSep_joined _ (by simpa using hne) (by
      intro t ht
      obtain ⟨i, hi, rfl⟩ := List.mem_map.mp ht
      exact (h i hi).1.clean)]
    unfold load
    rw [objects_eq w th fr f hf hl hg is h]
  · have := onRun_inTime over (is.map fun i => ((Py.join1 '\t' (i.name :: i.path)).take 1, i.value))
    obtain ⟨k1, k2, k3⟩ := this
    refine ⟨?_, by simpa using k2, by simpa using k3⟩
    have := k1.map (·.2)
    simpa [Function.comp_def] using this

/-- C134. If a variable cannot be found no value is sent, but an error. -/
theorem c134_error (w : World) (over : Nat → Bool) (th fr : Str) (pre post : List Str) (v scope attrs : Str)
    (hs : Py.strip v = scope ++ '\t' :: attrs) (hscope : '\t' ∉ scope) (h : VarPath.getVariable w th fr scope (some attrs) = none) :
    load w over th fr (pre ++ v :: post) = .error := by
  have key : objects w th fr (pre ++ v :: post) = none := by
    induction pre with
    | nil =>
      rw [List.nil_append, objects]
      simp only [hs]
      rw [if_neg (by simp), LineReq.splitN_cons _ _ _ hscope, LineReq.splitN_zero]
      simp only [h, Option.bind_none]
    | cons a pre ih =>
      rw [List.cons_append, objects]
      split
      · exact ih
      · split <;> simp [ih]
  unfold load
  rw [key]

theorem console_eq (w : World) (f : Frame) (is : List Item)
    (h : ∀ i ∈ is, Ok w f i i.consoleText ∧ Py.Dict.get f.globals i.name = some i.root) :
    consoleObjects w f (is.map Item.consoleText) = some (is.map fun i => (i.name, i.value)) := by
  induction is with
  | nil => rfl
  | cons i is ih =>
    obtain ⟨ho, hm⟩ := h i (by simp)
    have ih := ih (fun j hj => h j (by simp [hj]))
    rw [List.map_cons, consoleObjects]
    cases hp : i.path with
    | nil =>
      have ht : i.consoleText = i.name := by unfold Item.consoleText; rw [hp]; rfl
      have hv : i.value = .obj i.root := by
        have := ho.opened
        rw [hp] at this
        generalize i.value = x at this ⊢
        cases this
        rfl
      rw [ht, LineReq.splitN_last _ _ ho.name.1]
      simp only [hm, VarPath.parts, VarPath.walk, Option.bind_some, ih, Option.map_some, List.map_cons, hv]
    | cons n ns =>
      have ht : i.consoleText = i.name ++ '\t' :: Py.join1 '\t' i.path := by
        unfold Item.consoleText
        rw [Py.join1_cons _ _ _ (by rw [hp]; simp)]
      have hparts : VarPath.parts (some (Py.join1 '\t' i.path)) = i.path :=
        Py.split1_join1 _ _ (by rw [hp]; simp) (VarPath.opened_tabs ho.opened)
      rw [ht, LineReq.splitN_cons _ _ _ ho.name.1, LineReq.splitN_zero]
      simp only [hm, hparts, VarPath.walk_opened ho.opened (by simp), Option.bind_some, ih, Option.map_some, List.map_cons]

/-- C134. In a console: the values that come are those of the variables asked for, with their names. -/
theorem c134_console (w : World) (f : Frame) (over : Nat → Bool) (is : List Item) (hne : is ≠ [])
    (h : ∀ i ∈ is, Ok w f i i.consoleText ∧ Py.Dict.get f.globals i.name = some i.root) :
    ∃ rows, consoleLoad w f over (joined (is.map Item.consoleText)) = some rows ∧ InTime over (is.map fun i => (i.name, i.value)) rows := by
  refine ⟨onRun over 0 (is.map fun i => (i.name, i.value)), ?_, onRun_inTime over _⟩
  unfold consoleLoad
  rw [splitSep_joined _ (by simpa using hne) (by
    intro t ht
    obtain ⟨i, hi, rfl⟩ := List.mem_map.mp ht
    exact (h i hi).1.clean), console_eq w f is h]
  rfl

/-! ### Cases, and what is wrong -/

def sample : World := VarPath.sample

/-- Two variables in one request; in a paused program each value comes with the first character of its name only. -/
theorem c134_name_witness :
    request sample (fun _ => false) c!"t\tf\tFRAME\tx\t0__pydev_val__FRAME\tx" = some (.values [(c!"x", .obj 2), (c!"x", .obj 1)]) ∧
    (let w : World := { VarPath.sample with frame := fun _ _ => some { locals := [(c!"apple", 1), (c!"alpha", 2)] } }
     request w (fun _ => false) c!"t\tf\tFRAME\tapple__pydev_val__FRAME\talpha" = some (.values [(c!"a", .obj 1), (c!"a", .obj 2)])) := by
  constructor <;> decide +kernel

/-- Time is over after the first. -/
theorem c134_timeout_example :
    request sample (fun i => decide (0 < i)) c!"t\tf\tFRAME\tx\t0__pydev_val__FRAME\tx" = some (.values [(c!"x", .obj 2)]) := by decide +kernel

/-- In a console what is below the value of an expression is not found: the value of the expression itself comes. -/
theorem c134_expression_witness :
    consoleLoad sample { evaluate := fun e => if e = c!"f()" then some 1 else none } (fun _ => false) c!"f()\t0" = some [(c!"f()", .obj 1)] ∧
    VarPath.walk sample (.obj 1) [c!"0"] = some (.obj 2) := by constructor <;> decide +kernel

example : Ok sample ((sample.frame [] []).getD {}) ⟨c!"x", [c!"0", c!"'a' (50)"], 1, .obj 7⟩ (Item.frameText ⟨c!"x", [c!"0", c!"'a' (50)"], 1, .obj 7⟩) :=
  ⟨⟨by decide, by decide, by decide⟩, VarPath.sample_opened, by unfold Clean; decide +kernel, by decide +kernel⟩

end LoadFull
