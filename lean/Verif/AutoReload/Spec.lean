import Verif.AutoReload.Model
/-!
What a user expects of reloading.
-/

namespace AutoReload.Spec

open AutoReload

/-- the name of a directory with its separator -/
def WithSep (f f' : Str) : Prop :=
  (f = [] ∧ f' = []) ∨ (∃ a, (f = a ++ ['/'] ∨ f = a ++ ['\\']) ∧ f' = f) ∨
  (f ≠ [] ∧ (∀ a, f ≠ a ++ ['/'] ∧ f ≠ a ++ ['\\']) ∧ f' = f ++ ['/'])

/-- a file is watched if a pattern to include matches -/
def FileWatched (mtch : Str → Str → Bool) (ps : Patterns) (f : Str) : Prop := ∃ p ∈ ps.incl, mtch f p = true

/-- a directory is watched if a pattern to include matches, or none to exclude does -/
def DirWatched (mtch : Str → Str → Bool) (ps : Patterns) (f : Str) : Prop :=
  ∃ f', WithSep f f' ∧ ((∃ p ∈ ps.incl, mtch f' p = true) ∨ ∀ p ∈ ps.excl, mtch f' p = false)

/-- the source of a file: `x.py` for `x.pyc` and `x.pyo` -/
def Source (f g : Str) : Prop :=
  (∃ s, (f = s ++ c!".pyc" ∨ f = s ++ c!".pyo") ∧ g = s ++ c!".py") ∨
  ((∀ s, f ≠ s ++ c!".pyc" ∧ f ≠ s ++ c!".pyo") ∧ g = f)

/-- a module is meant by a name: it has that name, or there is none of that name and it has the last part of it -/
def MeantByName (mods : Modules) (n : Str) (m : Mod) : Prop :=
  Py.Dict.get mods n = some (some m) ∨
  ((∀ e ∈ mods, e.1 ≠ n) ∧ ∃ a b, n = a ++ '.' :: b ∧ '.' ∉ b ∧ Py.Dict.get mods b = some (some m))

/-- a module is meant by a file: it is one of the modules, and the source of its file is that file -/
def MeantByFile (normcase : Str → Str) (mods : Modules) (f : Str) (m : Mod) : Prop :=
  f ≠ [] ∧ ∃ n g s, (n, some m) ∈ mods ∧ m.file = some g ∧ Source g s ∧ normcase s = normcase f

end AutoReload.Spec
