import Verif.Common.Dict
import Verif.Common.Lit
import Verif.Common.Split
import Verif.Common.Str
/-!
Model of the extensions (classes that show values, in modules the user adds).

Source: `/repo/_pydevd_bundle/pydevd_extension_utils.py` `ExtensionManager` (12-56).

Simplifications: an instance is known by its class. `getattr(extension, name)` does not fail for the names of `dir`.
-/

namespace Extensions

abbrev Str := List Char

/-- an attribute of a module: its class, if it is one, and whether an instance can be made -/
structure Attr where
  name : Str
  cls : Option Nat
  ctor : Bool := true
deriving DecidableEq

structure Mod where
  attrs : List Attr
  /-- `__all__` -/
  all : Option (List Str) := none
deriving DecidableEq

inductive Imp
  | ok
  | importError
  /-- any other exception -/
  | other
deriving DecidableEq

/-- what `pkgutil.walk_packages` finds -/
structure Found where
  name : Str
  ispkg : Bool := false
  imp : Imp := .ok
  mod : Mod
deriving DecidableEq

structure World where
  found : List Found
  /-- `issubclass` -/
  sub : Nat → Nat → Bool

/-- `not ispkg and name.split(".")[-1].startswith("pydevd_plugin")` (21-22) -/
def wanted (f : Found) : Bool := !f.ispkg && Py.startsWith ((Py.split1 '.' f.name).getLastD []) c!"pydevd_plugin"

/-- `_iter_attr` (34-40) for one module -/
def iterAttr (m : Mod) : List Attr :=
  m.attrs.filter fun a => !Py.startsWith a.name c!"_" && (match m.all with
    | none => true
    | some l => l.contains a.name)

/-- the condition of 48, with the instance made (50) -/
def handler (w : World) (t : Nat) (a : Attr) : Option Nat :=
  match a.cls with
  | some c => if w.sub c t && c != t && a.ctor then some c else none
  | none => none

structure St where
  /-- `loaded_extensions` -/
  loaded : Option (List Mod) := none
  /-- `type_to_instance` -/
  cache : List (Nat × List Nat) := []
deriving DecidableEq

/-- where a call of `get_extension_classes` is -/
inductive Pc
  | start
  | load (todo : List Found)
  | look
  | create
  | fill (next : Nat) (todo : List Attr)
  | done (ans : List Nat)
  | raised
deriving DecidableEq

/-- one step of a call (17-53) -/
def step (w : World) (t : Nat) (s : St) : Pc → St × Pc
  | .start =>
    match s.loaded with
    | none => ({ s with loaded := some [] }, .load w.found)
    | some _ => (s, .look)
  | .load [] => (s, .look)
  | .load (f :: fs) =>
    if wanted f then
      match f.imp with
      | .ok => ({ s with loaded := s.loaded.map (· ++ [f.mod]) }, .load fs)
      | .importError => (s, .load fs)
      | .other => (s, .raised)
    else (s, .load fs)
  | .look =>
    match Py.Dict.get s.cache t with
    | some l => (s, .done l)
    | none => (s, .create)
  | .create =>
    match Py.Dict.get s.cache t with
    | some _ => (s, .fill 0 [])
    | none => ({ s with cache := Py.Dict.set s.cache t [] }, .fill 0 [])
  | .fill i (a :: as) =>
    match handler w t a with
    | some c => ({ s with cache := Py.Dict.set s.cache t ((Py.Dict.get s.cache t).getD [] ++ [c]) }, .fill i as)
    | none => (s, .fill i as)
  | .fill i [] =>
    match (s.loaded.getD [])[i]? with
    | some m => (s, .fill (i + 1) (iterAttr m))
    | none => (s, .done ((Py.Dict.get s.cache t).getD []))
  | .done l => (s, .done l)
  | .raised => (s, .raised)

/-- so many steps of one call -/
def steps (w : World) (t : Nat) : Nat → St × Pc → St × Pc
  | 0, x => x
  | n + 1, x => steps w t n (step w t x.1 x.2)

/-- calls in threads: what each asks for, and where it is -/
structure Sys where
  st : St := {}
  threads : List (Nat × Pc)
deriving DecidableEq

/-- one step of thread `i` -/
def sched (w : World) (s : Sys) (i : Nat) : Sys :=
  match s.threads[i]? with
  | some (t, pc) => ⟨(step w t s.st pc).1, s.threads.set i (t, (step w t s.st pc).2)⟩
  | none => s

def run (w : World) (s : Sys) (l : List Nat) : Sys := l.foldl (sched w) s

end Extensions
