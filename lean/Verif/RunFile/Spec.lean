import Verif.RunFile.Model
/-!
What a user expects of running files in the console.
-/

namespace RunFile.Spec

open RunFile

/-- the parts of a dotted name -/
inductive IsPart : Str → Str → Prop
  | whole (c : Str) : '.' ∉ c → IsPart c c
  | first (c r : Str) : '.' ∉ c → IsPart c (c ++ '.' :: r)
  | later (c w r : Str) : '.' ∉ w → IsPart c r → IsPart c (w ++ '.' :: r)

/-- the names of a list separated by commas -/
inductive IsName : Str → Str → Prop
  | whole (c : Str) : ',' ∉ c → IsName c c
  | first (c r : Str) : ',' ∉ c → IsName c (c ++ ',' :: r)
  | later (c w r : Str) : ',' ∉ w → IsName c r → IsName c (w ++ ',' :: r)

/-- the words of a text, which have white space between them -/
inductive Words : Str → List Str → Prop
  | nil (g : Str) : (∀ c ∈ g, Py.isSpace c = true) → Words g []
  | cons (g w s : Str) (ws : List Str) : (∀ c ∈ g, Py.isSpace c = true) → w ≠ [] → (∀ c ∈ w, Py.isSpace c = false) →
      (s = [] ∨ ∃ c s', s = c :: s' ∧ Py.isSpace c = true) → Words s ws → Words (g ++ (w ++ s)) (w :: ws)

/-- the modules when the first run with the deleter enabled began, and its list of names to keep -/
def first (env : Env) (st : St) : List (Run × (St → St × Bool)) → Option (List Str × Option Str)
  | [] => none
  | (r, ex) :: rs => if r.enabled then some (st.mods.map (·.1), r.namelist) else first env (runs env st [(r, ex)]) rs

/-- a module of the user, which is loaded again: it was not there at first, has a file that is in none of the directories to
ignore, and no part of its name is to be kept -/
def OfUser (env : Env) (names : List Str) (keep : Option Str) (m : Str × Option Str) : Prop :=
  m.1 ∉ names ∧ ∃ f, m.2 = some f ∧ (∀ p ∈ env.ignored, ¬ p <+: f) ∧
    ∀ l c, keep = some l → IsName c l → ¬ IsPart c m.1

end RunFile.Spec
