import Verif.Common.Dict
/-!
Model of the functions that are called when modules are imported (used for matplotlib in consoles).

Source: `/repo/_pydev_bundle/pydev_import_hook.py` `ImportHookManager` (9-33) and its installation (36-37).

Simplifications: an import statement is a tree: the statements that are executed while the module is imported, whether the import succeeds,
and the statements the function of the module executes if it is called (up to the error, if it raises one: errors of functions are
caught). Nothing else sets `builtins.__import__`.
-/

namespace ImportHook

/-- what is done by a program -/
inductive Act
  /-- `add_module_name` -/
  | add (name : Nat) (fn : Nat)
  /-- an import statement -/
  | imp (name : Nat) (during : List Act) (ok : Bool) (onActivate : List Act)

/-- what can be seen -/
inductive Ev
  | added (name : Nat) (fn : Nat)
  /-- the system has imported the module for a statement -/
  | imported (name : Nat)
  /-- the function is called -/
  | called (name : Nat) (fn : Nat)
  /-- the hook is removed -/
  | removed
deriving DecidableEq

structure St where
  /-- whether `builtins.__import__` is `do_import` -/
  hooked : Bool := true
  /-- `_modules_to_patch` -/
  toPatch : List (Nat × Nat) := []
  log : List Ev := []
deriving DecidableEq

/-- the end of `do_import` (28-31) -/
def restore (s : St) : St :=
  if s.toPatch = [] then (if s.hooked then { s with hooked := false, log := s.log ++ [.removed] } else s) else s

mutual
/-- `add_module_name` (15-16), `do_import` (18-33) -/
def run (s : St) : Act → St
  | .add n f => { s with toPatch := Py.Dict.set s.toPatch n f, log := s.log ++ [.added n f] }
  | .imp n during ok onActivate =>
    let h := s.hooked
    let s1 := runs s during
    if ok then
      let s2 := { s1 with log := s1.log ++ [.imported n] }
      if h then
        match Py.Dict.get s2.toPatch n with
        | some f => restore (runs { s2 with toPatch := Py.Dict.erase s2.toPatch n, log := s2.log ++ [.called n f] } onActivate)
        | none => restore s2
      else s2
    else s1
/-- one after the other -/
def runs (s : St) : List Act → St
  | [] => s
  | a :: as => runs (run s a) as
end

end ImportHook
