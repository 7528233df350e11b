import Verif.Process.Model
/-!
# What a program that starts processes expects
-/
namespace Process.Spec
open Process

/-- The files that are tried. -/
def candidates (w : World) (p : Bool) (file : Str) (env : Option Str) : List Str :=
  if p && !w.hasDir file then (w.path env).map (w.join · file) else [file]

/-- The error of an execution that fails: the first one which is not that a file is not there, if there is such. -/
def errorOf (w : World) (files : List Str) : Err := ((files.filterMap w.exec).find? (· ≠ .notFound)).getD .notFound

/-- `os.exec*` without a debugger: the first of the files that can be executed is, with the arguments and the environment. -/
def exec (w : World) (p : Bool) (file : Str) (args : List Str) (env : Option Str) : End :=
  match (candidates w p file env).find? (fun f => (w.exec f).isNone) with
  | some f => .runs f args env
  | none => .raised (errorOf w (candidates w p file env))

/-- How deep a thread is inside of `with skip_subprocess_arg_patch()`. -/
def depth (t : Nat) : List Skip → Int
  | [] => 0
  | .enter u :: r => (if u = t then 1 else 0) + depth t r
  | .leave u :: r => (if u = t then -1 else 0) + depth t r

/-- The thread enters and leaves in turn. -/
def Alternates (t : Nat) (acts : List Skip) : Prop := ∀ p, p <+: acts → depth t p = 0 ∨ depth t p = 1

end Process.Spec
