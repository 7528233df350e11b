/-!
# C73: private attributes in expressions

Models the second attempt of `eval_in_context` (`_pydevd_bundle/pydevd_vars.py` 275-291): if an
expression with `.__` in it raised, it is split at its dots and followed attribute by attribute, with
Python's renaming of private names done by hand.
-/
namespace Evaluate

/-- An object: the name of its class, and its attributes (its own and those of its classes). -/
structure Obj where
  cls : List Char
  attr : List Char → Option Nat

/-- `entry.startswith("__")`. -/
def startsDunder (e : List Char) : Bool := ['_', '_'].isPrefixOf e

/-- The name used for an attribute (`pydevd_vars.py` 285-286). -/
def debuggerName (o : Obj) (e : List Char) : List Char :=
  if startsDunder e && (o.attr e).isNone then '_' :: (o.cls ++ e) else e

/-- The loop over the attributes (`pydevd_vars.py` 284-287); `none` if an attribute is missing. -/
def follow (heap : Nat → Obj) (curr : Nat) : List (List Char) → Option Nat
  | [] => some curr
  | e :: r =>
    match (heap curr).attr (debuggerName (heap curr) e) with
    | some next => follow heap next r
    | none => none

/-- The attempt, for an expression split into a name and attributes (`pydevd_vars.py` 278-289). -/
def resolve (heap : Nat → Obj) (ns : List Char → Option Nat) (first : List Char)
    (rest : List (List Char)) : Option Nat :=
  match ns first with
  | some o => follow heap o rest
  | none => none

/-- Python's renaming of a private name inside a class: names which begin and don't end with two
underscores get the class's name in front, without its own leading underscores; a class whose name
has only underscores renames nothing. -/
def pythonName (cls e : List Char) : List Char :=
  let stripped := cls.dropWhile (· == '_')
  if startsDunder e && !(['_', '_'].isPrefixOf e.reverse) && !stripped.isEmpty then
    '_' :: (stripped ++ e)
  else e

/-- What an expression stands for, when each attribute is read as in a method of the class of the
object it is read from. -/
inductive Denotes (heap : Nat → Obj) : Nat → List (List Char) → Nat → Prop where
  | here (o : Nat) : Denotes heap o [] o
  | attr {o next v : Nat} {e : List Char} {r : List (List Char)} :
      (heap o).attr (pythonName (heap o).cls e) = some next → Denotes heap next r v →
      Denotes heap o (e :: r) v

/-- **The object found is the one the program would find.** If no class involved has a name which
begins with an underscore, and no object has an attribute whose literal name is private, then an
expression which denotes an object in the program's own methods is resolved to it. -/
theorem c73_found (heap : Nat → Obj) (ns : List Char → Option Nat) (first : List Char) (o v : Nat)
    (rest : List (List Char)) (hn : ns first = some o)
    (hc : ∀ x, (heap x).cls.head? ≠ some '_' ∧ (heap x).cls ≠ [])
    (hp : ∀ x e, startsDunder e = true → ['_', '_'].isPrefixOf e.reverse = false →
      (heap x).attr e = none)
    (h : Denotes heap o rest v) : resolve heap ns first rest = some v := by
  simp only [resolve, hn]
  clear hn
  induction h with
  | here o => rfl
  | @attr o next v e r ha hd ih =>
    have hs : (heap o).cls.dropWhile (· == '_') = (heap o).cls := by
      have := hc o
      cases hcls : (heap o).cls with
      | nil => exact absurd hcls this.2
      | cons a s =>
        rw [hcls] at this
        have ha : a ≠ '_' := fun h => this.1 (by simp [h])
        simp [ha]
    have hne : (heap o).cls.isEmpty = false := by
      have := (hc o).2
      cases hcls : (heap o).cls with
      | nil => exact absurd hcls this
      | cons a s => rfl
    have hname : debuggerName (heap o) e = pythonName (heap o).cls e := by
      unfold debuggerName pythonName
      simp only [hs, hne, Bool.not_false, Bool.and_true]
      cases h1 : startsDunder e with
      | false => simp
      | true =>
        cases h2 : List.isPrefixOf ['_', '_'] e.reverse with
        | false => simp [hp o e h1 h2]
        | true =>
          -- ends with two underscores: read by its own name, which is there
          have : (heap o).attr e = some next := by
            unfold pythonName at ha
            simp only [h1, h2, Bool.not_true, Bool.and_false, Bool.false_and] at ha
            exact ha
          simp [this]
    simp only [follow, hname, ha]
    exact ih

/-- A chain: `self.__next.value`, for a class `Node`. -/
def nodes : Nat → Obj
  | 0 => ⟨"Node".toList, fun e => if e = "_Node__next".toList then some 1 else none⟩
  | _ => ⟨"Node".toList, fun e => if e = "value".toList then some 7 else none⟩

theorem c73_example :
    resolve nodes (fun k => if k = "self".toList then some 0 else none) "self".toList
      ["__next".toList, "value".toList] = some 7 := by decide +kernel

/-- A class whose name begins with an underscore: Python stores `_Node__next` for the class `_Node`,
the debugger looks for `__Node__next`. -/
theorem c73_underscore_witness :
    let heap : Nat → Obj := fun _ =>
      ⟨"_Node".toList, fun e => if e = "_Node__next".toList then some 1 else none⟩
    pythonName "_Node".toList "__next".toList = "_Node__next".toList ∧
    (heap 0).attr (pythonName "_Node".toList "__next".toList) = some 1 ∧
    resolve heap (fun k => if k = "self".toList then some 0 else none) "self".toList
      ["__next".toList] = none := by decide +kernel

/-- An attribute of a base class: in the methods of `Base`, where the debugger has stopped,
`self.__x` is `_Base__x`; the debugger looks for `_Sub__x`. -/
theorem c73_base_class_witness :
    let heap : Nat → Obj := fun _ =>
      ⟨"Sub".toList, fun e => if e = "_Base__x".toList then some 1 else none⟩
    (heap 0).attr (pythonName "Base".toList "__x".toList) = some 1 ∧
    resolve heap (fun k => if k = "self".toList then some 0 else none) "self".toList
      ["__x".toList] = none := by decide +kernel

end Evaluate
