import Verif.Common.Dict
/-!
# Reloading the code of a module

Models `Reload` of `_pydevd_bundle/pydevd_reload.py`: the file is run in a new namespace, and what
the module has is updated in place from what came of it.

Simplified: objects are numbers in a heap; what running the file gives is arbitrary: a namespace and
objects. The order in which names are taken from sets is that of the new namespace, which is
arbitrary here. The hooks (`__xreload_old_new__`, `__xreload_after_reload_update__`) are left out, so
are classes which refuse to have attributes set. `fuel` stands for Python's limit on recursion: when
it is used up the `RecursionError` is caught by the innermost `_update`.
-/
namespace Reload

abbrev Name := String

/-- A namespace: a dict from names to objects. -/
abbrev Ns := List (Name × Nat)

/-- A code object, as far as it matters here: all that says what it does (`code_objects_equal`,
149-155, compares everything but lines and the qualified name), its lines, and how many variables it
takes from outside. -/
structure Code where
  body : Nat
  lines : Nat
  free : Nat
deriving DecidableEq, Repr

/-- A function: its code, defaults and docstring, and the namespace its globals are in. Its attributes
are left out. -/
structure Func where
  code : Code
  defaults : Nat
  doc : Nat
  globals : Nat
deriving DecidableEq, Repr

/-- An object. A class has a metaclass and a namespace; methods and the like hold a function; other
objects have a type. -/
inductive Obj where
  | func (f : Func)
  | cls (metaclass : Nat) (ns : Ns)
  | method (f : Nat)
  | classMethod (f : Nat)
  | staticMethod (f : Nat)
  | property_ (get : Nat)
  | value (type : Nat)
deriving DecidableEq, Repr

/-- The objects, the namespace of the module, and `found_change`. -/
structure State where
  heap : Nat → Obj
  mod : Ns
  changed : Bool

/-- `code_objects_equal` (149-155) -/
def codeEq (a b : Code) : Bool := a.body == b.body && a.free == b.free

/-- An object of the heap is changed. -/
def State.put (s : State) (o : Nat) (x : Obj) : State := { s with heap := fun i => if i = o then x else s.heap i }

/-- `_update_function` (354-378). Setting code which takes another number of variables from outside
raises; `_update` catches that, and the defaults stay. -/
def updateFunction (s : State) (o : Nat) (f g : Func) : State :=
  if codeEq f.code g.code then s.put o (.func { f with doc := g.doc, defaults := g.defaults })
  else if f.code.free = g.code.free then
    { s.put o (.func { f with doc := g.doc, code := g.code, defaults := g.defaults }) with changed := true }
  else s.put o (.func { f with doc := g.doc })

/-- `newnames - oldnames` with what they are bound to. -/
def newNames (old new : Ns) : Ns := new.filter fun e => !Py.Dict.has old e.1

/-- `setattr` of the names an old class does not have (397-400). -/
def addNames (s : State) (o : Nat) (m : Nat) (a b : Ns) : State :=
  { s.put o (.cls m (a ++ newNames a b)) with changed := s.changed || !(newNames a b).isEmpty }

/-- The names of a class which are not updated (407). -/
def special (n : Name) : Bool := n == "__dict__" || n == "__doc__"

/-- `_update` (278-350) with the functions it calls: of methods, class methods and static methods
what they hold is updated (380-387, 417-433), of classes what both have, after the new names were
added (389-415). Objects of another type, and those it has no way to update, stay. -/
def update : Nat → State → Nat → Nat → State
  | 0, s, _, _ => s
  | fuel + 1, s, o, n =>
    if o = n then s
    else
      match s.heap o, s.heap n with
      | .func f, .func g => updateFunction s o f g
      | .method a, .method b => update fuel s a b
      | .classMethod a, .classMethod b => update fuel s a b
      | .staticMethod a, .staticMethod b => update fuel s a b
      | .cls m a, .cls m' b =>
        if m = m' then
          b.foldl (fun s e =>
            match Py.Dict.get a e.1 with
            | some x => if special e.1 then s else update fuel s x e.2
            | none => s) (addNames s o m a b)
        else s
      | _, _ => s

/-- `apply` (208-259): names the module does not have are added, others updated. `new` is the
namespace the file was run in; `none` if that raised. -/
def apply (fuel : Nat) (s : State) (new : Option Ns) : State :=
  match new with
  | none => s
  | some new =>
    new.foldl (fun s' e =>
      match Py.Dict.get s.mod e.1 with
      | some o => update fuel s' o e.2
      | none => s')
      { s with mod := s.mod ++ newNames s.mod new, changed := s.changed || !(newNames s.mod new).isEmpty }

end Reload
