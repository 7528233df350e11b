import Verif.Common.PyInt
import Verif.Common.Str
/-!
Model of the debugger's command line.

Source: `/repo/_pydevd_bundle/pydevd_command_line_handling.py` (all).

Simplifications: a setup is a function from names to optional values (`none`: the key is not there); the index `i` of
the loop is 0 until `--file` is found (the arguments handled are deleted), so the list is consumed from the front; text
that is not a plain decimal number is refused by `int` as in `Common/PyInt.lean`.
-/

namespace CmdLine

abbrev Str := List Char

/-- values in a setup -/
inductive Val
  | none
  | bool (b : Bool)
  | int (i : Int)
  | str (s : Str)
deriving DecidableEq

abbrev Setup := Str → Option Val

def Setup.put (s : Setup) (k : Str) (v : Val) : Setup := fun k' => if k' = k then some v else s k'

/-- `convert_val`: none, `int`, `convert_ppid` -/
inductive Conv
  | text
  | int
  | ppid
deriving DecidableEq

/-- `ArgHandlerWithParam` (5-31) and `ArgHandlerBool` (34-52, `conv = none`) -/
structure Handler where
  name : Str
  conv : Option Conv
  dflt : Val
deriving DecidableEq

/-- `arg_v_rep` -/
def Handler.rep (h : Handler) : Str := c!"--" ++ h.name

/-- `ACCEPTED_ARG_HANDLERS` (63-91) -/
def handlers : List Handler :=
  [⟨c!"port", some .int, .int 0⟩, ⟨c!"ppid", some .ppid, .int 0⟩, ⟨c!"vm_type", some .text, .none⟩, ⟨c!"client", some .text, .none⟩,
   ⟨c!"access-token", some .text, .none⟩, ⟨c!"client-access-token", some .text, .none⟩, ⟨c!"debug-mode", some .text, .none⟩,
   ⟨c!"preimport", some .text, .none⟩, ⟨c!"log-file", some .text, .none⟩, ⟨c!"log-level", some .int, .none⟩,
   ⟨c!"server", none, .bool false⟩, ⟨c!"multiproc", none, .bool false⟩, ⟨c!"multiprocess", none, .bool false⟩,
   ⟨c!"save-signatures", none, .bool false⟩, ⟨c!"save-threading", none, .bool false⟩, ⟨c!"save-asyncio", none, .bool false⟩,
   ⟨c!"print-in-debugger-startup", none, .bool false⟩, ⟨c!"cmd-line", none, .bool false⟩, ⟨c!"module", none, .bool false⟩,
   ⟨c!"skip-notify-stdin", none, .bool false⟩, ⟨c!"json-dap", none, .bool false⟩, ⟨c!"json-dap-http", none, .bool false⟩,
   ⟨c!"protocol-quoted-line", none, .bool false⟩, ⟨c!"protocol-http", none, .bool false⟩]

/-- `"%s" % (v,)` -/
def Val.text : Val → Str
  | .none => c!"None"
  | .bool true => c!"True"
  | .bool false => c!"False"
  | .int i => Py.intStr i
  | .str s => s

/-- truth of a value -/
def Val.truthy : Val → Bool
  | .none => false
  | .bool b => b
  | .int i => i ≠ 0
  | .str s => s ≠ []

/-- `to_argv` (16-20, 44-47): the arguments added -/
def Handler.toArgv (h : Handler) (setup : Setup) : List Str :=
  let v := (setup h.name).getD .none
  match h.conv with
  | some _ => if v ≠ .none ∧ v ≠ h.dflt then [h.rep, v.text] else []
  | none => if v.truthy then [h.rep] else []

/-- `setup_to_argv` (108-126) -/
def setupToArgv (pydevdFile : Str) (setup : Setup) (skip : List Str) : List Str :=
  pydevdFile :: handlers.flatMap fun h => if (setup h.name).isSome ∧ h.name ∉ skip then h.toArgv setup else []

/-- `convert_val`, with `convert_ppid` (55-60) in the process `pid`; `none`: an exception -/
def Conv.apply (pid : Int) : Conv → Str → Option Val
  | .text, s => some (.str s)
  | .int, s => (Py.parseInt s).map .int
  | .ppid, s => match Py.parseInt s with
    | none => none
    | some i => if i ≠ 0 ∧ i = pid then none else some (.int i)

inductive Result
  | ok (setup : Setup) (argv : List Str)
  /-- an exception -/
  | error
  /-- still running when the fuel is used up -/
  | running

/-- the setup at the start of `process_command_line` (132-136) -/
def initial : Setup :=
  ((handlers.foldl (fun s h => Setup.put s h.name h.dflt) (fun _ => none)).put c!"file" (.str [])).put c!"qt-support" (.str [])

def qtModes : List Str := [c!"none", c!"auto", c!"pyqt5", c!"pyqt4", c!"pyside", c!"pyside2"]

/-- the `--qt-support` option (147-168): the value, `none`: an exception -/
def qtValue (arg : Str) : Option Str :=
  if arg = c!"--qt-support" then some c!"auto"
  else if Py.startsWith arg c!"--qt-support=" then
    let mode := arg.drop (c!"--qt-support=").length
    if mode ∉ qtModes then none else if mode = c!"none" then some [] else some mode
  else none

/-- the handler of an argument, from `ARGV_REP_TO_HANDLER` (93-95) -/
def handlerOf (arg : Str) : Option Handler := handlers.find? fun h => h.rep == arg

/-- the loop of `process_command_line` (142-182) -/
def loop (pid : Int) : Nat → List Str → Setup → Result
  | _, [], s => .ok s []
  | 0, _ :: _, _ => .running
  | fuel + 1, a :: argv, s =>
    match handlerOf a with
    | some h =>
      match h.conv with
      | none => loop pid fuel argv (s.put h.name (.bool true))
      | some c =>
        match argv with
        | [] => .error
        | v :: argv =>
          match c.apply pid v with
          | none => .error
          | some v => loop pid fuel argv (s.put h.name v)
    | none =>
      if Py.startsWith a c!"--qt-support" then
        match qtValue a with
        | none => .error
        | some v => loop pid fuel argv (s.put c!"qt-support" (.str v))
      else if a = c!"--file" then
        match argv with
        | [] => .error
        | f :: argv => .ok (s.put c!"file" (.str f)) (f :: argv)
      else if a = c!"--DEBUG" then loop pid fuel (a :: argv) s
      else .error

/-- `process_command_line` (129-183); an empty argument list raises (139) -/
def process (pid : Int) (fuel : Nat) (argv : List Str) : Result :=
  match argv with
  | [] => .error
  | _ :: argv => loop pid fuel argv initial

end CmdLine
