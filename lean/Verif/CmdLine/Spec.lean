import Verif.CmdLine.Model
/-!
What a debugger command line is: options, then possibly `--file`, the program and its arguments.
-/

namespace CmdLine.Spec

inductive Opt
  /-- `--name` -/
  | flag (name : Str)
  /-- `--name value` -/
  | param (name value : Str)
  /-- `--qt-support` or `--qt-support=mode` -/
  | qt (mode : Option Str)

/-- the arguments of an option -/
def Opt.args : Opt → List Str
  | .flag n => [c!"--" ++ n]
  | .param n v => [c!"--" ++ n, v]
  | .qt none => [c!"--qt-support"]
  | .qt (some m) => [c!"--qt-support=" ++ m]

/-- the options without a value -/
def flags : List Str :=
  [c!"server", c!"multiproc", c!"multiprocess", c!"save-signatures", c!"save-threading", c!"save-asyncio",
   c!"print-in-debugger-startup", c!"cmd-line", c!"module", c!"skip-notify-stdin", c!"json-dap", c!"json-dap-http",
   c!"protocol-quoted-line", c!"protocol-http"]

/-- the options whose value is a text -/
def texts : List Str :=
  [c!"vm_type", c!"client", c!"access-token", c!"client-access-token", c!"debug-mode", c!"preimport", c!"log-file"]

/-- the options whose value is a number (`ppid` must not be the process itself) -/
def numbers : List Str := [c!"port", c!"ppid", c!"log-level"]

/-- the setting without the option -/
def default (name : Str) : Val :=
  if name ∈ flags then .bool false else if name = c!"port" ∨ name = c!"ppid" then .int 0 else .none

/-- the setting an option stands for; `none`: not a valid option -/
def Opt.setting (pid : Int) : Opt → Option (Str × Val)
  | .flag n => if n ∈ flags then some (n, .bool true) else none
  | .param n v =>
    if n ∈ texts then some (n, .str v)
    else if n ∈ numbers then
      match Py.parseInt v with
      | none => none
      | some i => if n = c!"ppid" ∧ i = pid ∧ i ≠ 0 then none else some (n, .int i)
    else none
  | .qt none => some (c!"qt-support", .str c!"auto")
  | .qt (some m) => if m ∈ [c!"none", c!"auto", c!"pyqt5", c!"pyqt4", c!"pyside", c!"pyside2"] then
      some (c!"qt-support", .str (if m = c!"none" then [] else m)) else none

/-- settings applied in order -/
def settings (pid : Int) : List Opt → Setup → Option Setup
  | [], s => some s
  | o :: os, s => match o.setting pid with
    | none => none
    | some (n, v) => settings pid os (s.put n v)

/-- the program and its arguments, after `--file`; nothing without a program -/
def tail : List Str → List Str
  | [] => []
  | f :: args => c!"--file" :: f :: args

/-- the setup with the program in it -/
def withFile (s : Setup) : List Str → Setup
  | [] => s
  | f :: _ => s.put c!"file" (.str f)

/-- a complete setup with values of the right kind -/
structure WellTyped (pid : Int) (s : Setup) : Prop where
  flag : ∀ n ∈ flags, ∃ b, s n = some (.bool b)
  text : ∀ n ∈ texts, s n = some .none ∨ ∃ t, s n = some (.str t)
  port : ∃ i, s c!"port" = some (.int i)
  ppid : ∃ i, s c!"ppid" = some (.int i) ∧ (i = pid → i = 0)
  level : s c!"log-level" = some .none ∨ ∃ i, s c!"log-level" = some (.int i)

end CmdLine.Spec
