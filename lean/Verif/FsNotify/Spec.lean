import Verif.FsNotify.Model
/-!
Which files are watched, and what the changes between two trees are.
-/

namespace FsNotify.Spec

open FsNotify

/-- the entry with the name `n` of the directory `d` -/
def child (d n : Str) : Str := d ++ '/' :: n

/-- the entry `e` of the directory `d` can be examined -/
def Examinable (c : Cfg) (d : Str) (e : Entry) : Prop :=
  match e.kind with
  | .unknown => False
  | .dir => True
  | .file none => c.acceptFile (child d e.name) = false
  | .file (some _) => True

/-- `e` and all entries of the directory `d` before it can be examined -/
def Examined (c : Cfg) (fs : FS) (d : Str) (e : Entry) : Prop :=
  ∃ l l', fs d = some (l ++ e :: l') ∧ ∀ x ∈ l ++ [e], Examinable c d x

/-- the directory `d` is watched, `n` levels below the root `r` -/
inductive Reach (c : Cfg) (fs : FS) : Nat → Str → Str → Prop
  | root (r : Str) : Reach c fs 0 r r
  | sub (n : Nat) (r d name : Str) : Reach c fs n r d → Examined c fs d ⟨name, .dir⟩ → c.acceptDir (child d name) = true →
      Reach c fs (n + 1) r (child d name)

/-- the directory `d` has the accepted file `p` -/
def FileIn (c : Cfg) (fs : FS) (d p : Str) (s : Stat) : Prop :=
  ∃ name, Examined c fs d ⟨name, .file (some s)⟩ ∧ p = child d name ∧ c.acceptFile p = true

/-- the file `p` is watched -/
def Seen (c : Cfg) (fs : FS) (roots : List Str) (p : Str) (s : Stat) : Prop :=
  ∃ r ∈ roots, ∃ n, n ≤ c.maxLevel ∧ ∃ d, Reach c fs n r d ∧ FileIn c fs d p s

/-- `changes` are exactly the differences, each once -/
structure Diff (before after : Str → Stat → Prop) (changes : List (Change × Str)) : Prop where
  added : ∀ p, (Change.added, p) ∈ changes ↔ (∃ s, after p s) ∧ ¬ ∃ s, before p s
  modified : ∀ p, (Change.modified, p) ∈ changes ↔ ∃ s s', before p s ∧ after p s' ∧ s ≠ s'
  deleted : ∀ p, (Change.deleted, p) ∈ changes ↔ (∃ s, before p s) ∧ ¬ ∃ s, after p s
  once : (changes.map (·.2)).Nodup

/-- the names in a directory are different, not empty and without a separator -/
def Tree (fs : FS) : Prop :=
  ∀ d es, fs d = some es → (es.map (·.name)).Nodup ∧ ∀ e ∈ es, e.name ≠ [] ∧ '/' ∉ e.name

/-- not ending in a separator -/
def Plain (r : Str) : Prop := r.getLast? ≠ some '/'

/-- `b` is a path below `a` -/
def Below (a b : Str) : Prop := child a [] <+: b

/-- roots below other roots come first -/
def NestedFirst (order : List Str) : Prop := order.Pairwise fun a b => ¬ Below a b

/-- no directory is below the maximum level -/
def NothingCut (c : Cfg) (fs : FS) (roots : List Str) : Prop := ∀ r ∈ roots, ∀ d, ¬ Reach c fs (c.maxLevel + 1) r d

end FsNotify.Spec
