import Verif.CmdLine.Model
import Verif.WinQuote.Model
/-!
Model of how the command line of a subprocess is changed so that the debugger runs in it.

Source: `/repo/_pydev_bundle/pydev_monkey.py`: `_get_setup_updated_with_protocol_and_ppid` (46-91),
`_separate_future_imports` (115-183), `_get_python_c_args` (186-213), `_is_managed_arg` (223-227), `is_python` (277-287),
`remove_quotes_from_args` (294-323), `quote_args` (359-363), `patch_args` (366-589), `patch_arg_str_win` (675-682).

Simplifications: arguments are strings (not `bytes` or `Path`, which go through the same steps). The parts that depend on
the process are in `Env`: the platform, the file of the debugger, the setup to hand over, the text that attaches the
debugger to code given by `-c` (`none` when there is no port), and where the last `from __future__` import of a code ends
according to Python's parser. Exceptions inside `patch_args` give back the arguments (587-589).
-/

namespace PatchArgs

abbrev Str := List Char

structure Env where
  /-- `sys.platform == "win32"` -/
  win : Bool
  /-- the debugger's file, first in the result of `setup_to_argv` -/
  pydevd : Str
  /-- the result of `_get_setup_updated_with_protocol_and_ppid` -/
  setup : CmdLine.Setup
  /-- the text between the imports from `__future__` and the code (198-213); `none`: there is no port (537) -/
  attach : Option Str
  /-- the offset of the end of the last import from `__future__` (128-154), `none`: there is none, or an error -/
  futureEnd : Str → Option Nat

/-- the part after the last separator, `os.path.basename` -/
def afterLast (sep : Char → Bool) (s : Str) : Str := (s.reverse.takeWhile fun c => !sep c).reverse

/-- `os.path.basename`; on Windows without drives of the form `\\server\share` -/
def basename (win : Bool) (s : Str) : Str :=
  if win then afterLast (fun c => c == '/' || c == '\\') (match s with | _ :: ':' :: r => r | _ => s)
  else afterLast (fun c => c == '/') s

/-- `is_python` (277-287) -/
def isPython (win : Bool) (path : Str) : Bool :=
  let path := if Py.endsWith path ['\''] || Py.endsWith path ['"'] then (path.take (path.length - 1)).drop 1 else path
  let filename := (basename win path).map Char.toLower
  Py.isIn c!"python" filename || Py.isIn c!"jython" filename || Py.isIn c!"pypy" filename

/-- `_is_managed_arg` (223-227) -/
def isManaged (arg : Str) : Bool := Py.endsWith arg c!"pydevd.py"

/-- an element of `remove_quotes_from_args` on Windows (305-310) -/
def unquote (x : Str) : Str :=
  if x ≠ c!"\"\"" ∧ x.length > 1 ∧ Py.startsWith x ['"'] ∧ Py.endsWith x ['"'] then (x.take (x.length - 1)).drop 1 else x

/-- `remove_quotes_from_args` (294-323) -/
def removeQuotes (win : Bool) (args : List Str) : List Str := if win then args.map unquote else args

/-- `params_with_value_in_separate_arg` (401-404) -/
def longParams : List Str := [c!"--check-hash-based-pycs", c!"--jit"]

/-- `params_with_combinable_arg` (425) -/
def combinable (c : Char) : Bool := c == 'W' || c == 'X' || c == 'Q' || c == 'c' || c == 'm'

/-- the loop over the characters of a flag (457-506): what is before the first letter that takes a value, the letter, and
the remainder -/
def findFlag : Str → Option (Str × Char × Str)
  | [] => none
  | c :: cs => if combinable c then some ([], c, cs) else (findFlag cs).map fun (a, d, r) => (c :: a, d, r)

/-- what the loop over the arguments finds (440-532) -/
inductive Target
  /-- no program, the standard input, a command with the debugger in it, or an exception (a value is missing) -/
  | untouched
  /-- `filename_i` -/
  | file (i : Nat) (name : Str)
  /-- `module_name_i_start`, `before_module_flag`, `module_name`, `module_name_i_end + 1` -/
  | module (i : Nat) (before name : Str) (iEnd : Nat)
  /-- `code_i`, `code_flag`, `code`, `code_i_end` -/
  | code (i : Nat) (flag code : Str) (iEnd : Nat)
deriving DecidableEq

/-- `before_module_flag` (472-474) -/
def beforeFlag (before : Str) : Str := if before = c!"-" then [] else before

/-- the loop over the arguments (440-532), from the argument with index `i`; `ign` is `ignore_next` -/
def scan (ign : Bool) (i : Nat) : List Str → Target
  | [] => .untouched
  | a :: rest =>
    if ign then scan false (i + 1) rest
    else if Py.startsWith a ['-'] then
      if a = ['-'] then .untouched
      else if longParams.any fun p => Py.startsWith a p then scan (longParams.contains a) (i + 1) rest
      else match findFlag a with
        | none => scan false (i + 1) rest
        | some (before, c, remainder) =>
          if c = 'm' then
            match remainder, rest with
            | [], [] => .untouched
            | [], name :: _ => .module i (beforeFlag before) name (i + 2)
            | r, _ => .module i (beforeFlag before) r (i + 1)
          else if c = 'c' then
            match remainder, rest with
            | [], [] => .untouched
            | [], code :: _ => .code i (before ++ ['c']) code (i + 2)
            | r, _ => .code i (before ++ ['c']) r (i + 1)
          else scan remainder.isEmpty (i + 1) rest
    else if isManaged a then .untouched
    else .file i a

/-- the characters skipped after the imports from `__future__` (156-161) -/
def skipped (c : Char) : Bool := c == ' ' || c == '\t' || c == ';' || c == ')' || c == '\n'

/-- `_separate_future_imports` (115-183): the imports and the rest of the code -/
def separateFuture (futureEnd : Str → Option Nat) (code : Str) : Str × Str :=
  match futureEnd code with
  | none => ([], code)
  | some off =>
    let off := off + ((code.drop off).takeWhile skipped).length
    let future := code.take off
    let newlines := (future.reverse.takeWhile (· == '\n')).length
    let imports := future.take (future.length - newlines)
    (if Py.endsWith imports [';'] then imports else imports ++ [';'], List.replicate newlines '\n' ++ code.drop off)

/-- `_get_python_c_args` (186-213) -/
def pythonC (futureEnd : Str → Option Nat) (attach code : Str) : Str :=
  let (future, code) := if Py.isIn c!"__future__" code then separateFuture futureEnd code else ([], code)
  future ++ attach ++ code

/-- the debugger and its options, `setup_to_argv(..., skip_names={"module", "cmd-line"})` (563-567) -/
def debugger (e : Env) : List Str := CmdLine.setupToArgv e.pydevd e.setup [c!"module", c!"cmd-line"]

/-- `patch_args` (366-589) between the removal of quotes and `quote_args`; `none`: the original arguments are returned -/
def patchCore (e : Env) (args : List Str) : Option (List Str) :=
  match args with
  | [] => none
  | exe :: _ =>
    if isPython e.win exe = false then none
    else match scan true 0 args with
      | .untouched => none
      | .code i flag code iEnd =>
        match e.attach with
        | none => none
        | some attach => some (args.take i ++ [flag, pythonC e.futureEnd attach code] ++ args.drop iEnd)
      | .module i before name iEnd =>
        let start := args.take i ++ (if before = [] then [] else [before])
        let all := start ++ debugger e ++ [c!"--file"]
        some (all.take (start.length + 1) ++ [c!"--module"] ++ all.drop (start.length + 1) ++ name :: args.drop iEnd)
      | .file i name => some (args.take i ++ debugger e ++ [c!"--file"] ++ name :: args.drop (i + 1))

/-- `patch_args` (366-589) -/
def patchArgs (e : Env) (args : List Str) : List Str :=
  match patchCore e (removeQuotes e.win args) with
  | none => args
  | some new => if e.win then new.map WinQuote.quoteArg else new

/-- `patch_arg_str_win` (675-682) -/
def patchArgStr (e : Env) (line : Str) : Str :=
  match WinQuote.strToArgs line with
  | [] => line
  | exe :: args => if isPython e.win exe = false then line else WinQuote.join (patchArgs e (exe :: args))

/-! ### The setup handed over -/

/-- `pydevd_constants.get_protocol()` -/
inductive Protocol
  | httpJson
  | json
  | quotedLine
  | http
  | other
deriving DecidableEq

/-- the state of the process the setup is updated from -/
structure World where
  pid : Int
  protocol : Protocol
  /-- `PydevdCustomization.DEBUG_MODE`, `PydevdCustomization.PREIMPORT`, `DebugInfoHolder.PYDEVD_DEBUG_FILE`: empty when not set -/
  debugMode : Str
  preimport : Str
  logFile : Str
  /-- `DebugInfoHolder.DEBUG_TRACE_LEVEL` -/
  logLevel : Int

/-- `setup.pop(k, None)` -/
def drop (s : CmdLine.Setup) (k : Str) : CmdLine.Setup := fun k' => if k' = k then none else s k'

def putIf (c : Bool) (s : CmdLine.Setup) (k : Str) (v : CmdLine.Val) : CmdLine.Setup := if c then s.put k v else s

/-- `_get_setup_updated_with_protocol_and_ppid` (46-91) -/
def updated (w : World) (isExec : Bool) (setup : Option CmdLine.Setup) : CmdLine.Setup :=
  let s := setup.getD fun _ => none
  let s := drop (drop (drop s c!"json-dap-http") c!"json-dap") c!"protocol-quoted-line"
  let s := if isExec then s else s.put c!"ppid" (.int w.pid)
  let s := match w.protocol with
    | .httpJson => s.put c!"json-dap-http" (.bool true)
    | .json => s.put c!"json-dap" (.bool true)
    | .quotedLine => s.put c!"protocol-quoted-line" (.bool true)
    | .http => s.put c!"protocol-http" (.bool true)
    | .other => s
  let s := putIf (w.debugMode ≠ []) s c!"debug-mode" (.str w.debugMode)
  let s := putIf (w.preimport ≠ []) s c!"preimport" (.str w.preimport)
  let s := putIf (w.logFile ≠ []) s c!"log-file" (.str w.logFile)
  putIf (w.logLevel ≠ 0) s c!"log-level" (.int w.logLevel)

end PatchArgs
