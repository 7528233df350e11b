import Verif.Extensions.Model
/-!
The extensions of a type.
-/

namespace Extensions.Spec

open Extensions

/-- the name is that of a module in a package of extensions, and the module is a plugin -/
def IsPlugin (f : Found) : Bool := !f.ispkg && c!"pydevd_plugin".isPrefixOf (f.name.reverse.takeWhile (· ≠ '.')).reverse

/-- the attribute is public -/
def Public (m : Mod) (a : Attr) : Bool := a.name.head? != some '_' && (m.all.all fun l => decide (a.name ∈ l))

/-- the modules that are loaded -/
def modules (w : World) : List Mod := (w.found.filter fun f => IsPlugin f && decide (f.imp = .ok)).map (·.mod)

/-- the public classes of the modules that extend the type, and can be made, in order -/
def extensions (w : World) (t : Nat) : List Nat :=
  (modules w).flatMap fun m => (m.attrs.filter (Public m)).filterMap fun a =>
    a.cls.filter fun c => a.ctor && w.sub c t && decide (c ≠ t)

/-- no module fails with another error than `ImportError` -/
def NoOther (w : World) : Prop := ∀ f ∈ w.found, f.imp ≠ .other

end Extensions.Spec
