import Verif.Common.Lit
import Verif.Common.Split
/-!
Model of how the event loop of a graphical interface is activated while the program is paused.

Source: `/repo/_pydevd_bundle/pydevd_utils.py` `import_attr_from_module` (494-517); `/repo/pydevd.py` `init_gui_support` (1625-1657),
`_activate_gui_if_needed` (1659-1690).

Simplifications: objects are numbers; importing and reading attributes are functions, errors of both are `none`. The functions that activate
matplotlib do not raise.
-/

namespace GuiLoop

abbrev Str := List Char

/-- `s.rsplit(".", 1)` if there is a dot -/
def rsplit (s : Str) : Option (Str × Str) :=
  if '.' ∈ s then some ((s.reverse.dropWhile (· != '.')).tail.reverse, (s.reverse.takeWhile (· != '.')).reverse) else none

theorem rsplit_lt {s a b : Str} (h : rsplit s = some (a, b)) : a.length < s.length := by
  unfold rsplit at h
  split at h
  · rename_i hm
    simp only [Option.some.injEq, Prod.mk.injEq] at h
    rw [← h.1, List.length_reverse, List.length_tail]
    have h1 : (s.reverse.dropWhile (· != '.')).length ≤ s.length := by
      have := (List.dropWhile_suffix (l := s.reverse) (· != '.')).length_le
      simpa using this
    have h2 : 0 < s.length := List.length_pos_of_mem hm
    omega
  · exact absurd h (by simp)

/-- what Python knows: modules by name, attributes of objects -/
structure World where
  imp : Str → Option Nat
  attr : Nat → Str → Option Nat

/-- the loop over the attributes (512-514) -/
def attrs (w : World) (o : Nat) : List Str → Option Nat
  | [] => some o
  | a :: as => (w.attr o a).bind fun o => attrs w o as

/-- the loop of `import_attr_from_module` (501-517) -/
def importLoop (w : World) (moduleName attrName : Str) : Option Nat :=
  match w.imp moduleName with
  | some m => attrs w m (Py.split1 '.' attrName)
  | none =>
    match _h : rsplit moduleName with
    | none => none
    | some (a, b) => importLoop w a (b ++ c!"." ++ attrName)
termination_by moduleName.length
decreasing_by exact rsplit_lt _h

/-- `import_attr_from_module` (494-517); `none`: `ImportError` -/
def importAttr (w : World) (name : Str) : Option Nat := (rsplit name).bind fun p => importLoop w p.1 p.2

/-- what comes of `enable_gui`: it is a known loop, an unknown one (`ValueError`), or another exception -/
inductive Enabled
  | ok
  | unknown
  | fails
deriving DecidableEq

/-- a call of `_activate_gui_if_needed`: whether the main thread makes it, the modules imported by then, what `enable_gui` would do, and what
`import_attr_from_module` would give -/
structure Call where
  main : Bool
  loaded : List Str := []
  enabled : Enabled := .unknown
  custom : Option Nat := none

/-- what was activated -/
inductive Ev
  | module (m : Str)
  | builtin
  | hook (f : Nat)
deriving DecidableEq

structure St where
  /-- `mpl_modules_for_patching` -/
  mpl : List Str := []
  /-- `activate_gui_function is not None` -/
  fn : Bool := false
  /-- `gui_in_use` -/
  inUse : Bool := false
  log : List Ev := []

/-- `init_gui_support` (1625-1657) -/
def initial (matplotlib : Bool) : St :=
  if matplotlib then { mpl := [c!"matplotlib", c!"matplotlib.pyplot", c!"pylab"] } else { fn := true }

/-- the loop over the modules (1665-1670) -/
def patchLoop (loaded : List Str) (s : St) : List Str → St
  | [] => s
  | m :: ms =>
    if m ∈ loaded then
      patchLoop loaded { s with mpl := s.mpl.filter (· != m), inUse := true, log := if m ∈ s.mpl then s.log ++ [.module m] else s.log } ms
    else patchLoop loaded s ms

/-- `_activate_gui_if_needed` (1659-1690) -/
def activate (s : St) (c : Call) : St :=
  if s.inUse then s
  else
    let s := if s.mpl ≠ [] ∧ c.main then patchLoop c.loaded s s.mpl else s
    if s.fn ∧ c.main then
      match c.enabled with
      | .ok => { s with fn := false, inUse := true, log := s.log ++ [.builtin] }
      | .fails => s
      | .unknown =>
        match c.custom with
        | some f => { s with fn := false, inUse := true, log := s.log ++ [.hook f] }
        | none => { s with fn := false }
    else s

def run (s : St) (cs : List Call) : St := cs.foldl activate s

end GuiLoop
