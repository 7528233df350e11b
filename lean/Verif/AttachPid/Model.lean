import Verif.Common.Lit
import Verif.Common.PyInt
import Verif.Common.Split
/-!
Model of attaching to a running process by its number on Linux: from the command line to the command that is run.

Source: `/repo/pydevd_attach_to_process/attach_pydevd.py` `process_command_line` (5-42), `main` (45-84),
`/repo/pydevd_attach_to_process/add_code_to_python_process.py` `run_python_code_linux` (398-483).

Simplifications: the library to load is found; what is printed, and the environment of the command (which loses
`PYTHONPATH` and `PYTHONIOENCODING`), are left out. Windows and Mac are not modelled.
-/

namespace AttachPid

abbrev Str := List Char

/-- the options (attach_pydevd.py 6-11) -/
structure Setup where
  port : Int := 5678
  pid : Int := 0
  host : Str := c!"127.0.0.1"
  protocol : Str := []
  mode : Str := []
deriving DecidableEq

inductive Res
  /-- the options -/
  | ok (s : Setup)
  /-- the process ends with an error message -/
  | exit
  /-- an exception: a value is missing or not a number -/
  | error
  /-- the loop does not end -/
  | hang
deriving DecidableEq

/-- one of the options -/
def isOption (a : Str) : Bool :=
  a == c!"--port" || a == c!"--pid" || a == c!"--host" || a == c!"--protocol" || a == c!"--debug-mode"

/-- the loop of `process_command_line` (14-42): the index stays at 0 and arguments are deleted; an argument that is not an option
is not deleted, so that the loop goes on forever -/
def parseArgs : Setup → List Str → Res
  | s, [] => if s.pid = 0 then .exit else .ok s
  | _, [a] => if isOption a then .error else .hang
  | s, a :: v :: rest =>
    if a = c!"--port" then
      match Py.parseInt v with
      | none => .error
      | some n => parseArgs { s with port := n } rest
    else if a = c!"--pid" then
      match Py.parseInt v with
      | none => .error
      | some n => parseArgs { s with pid := n } rest
    else if a = c!"--host" then parseArgs { s with host := v } rest
    else if a = c!"--protocol" then parseArgs { s with protocol := v } rest
    else if a = c!"--debug-mode" then parseArgs { s with mode := v } rest
    else .hang

/-- `process_command_line` -/
def processCommandLine (argv : List Str) : Res := parseArgs {} argv

/-- the code to run in the process (`main` 66-81); `p1` and `p2` are the directories of the debugger and of the script -/
def pythonCode (p1 p2 : Str) (s : Setup) : Str :=
  c!"import sys;" ++ c!"sys.path.append(\\\"" ++ p1 ++ c!"\\\");" ++ c!"sys.path.append(\\\"" ++ p2 ++ c!"\\\");" ++
  c!"import attach_script;" ++ c!"attach_script.attach(port=" ++ Py.intStr s.port ++ c!", host=\\\"" ++ s.host ++
  c!"\\\", protocol=\\\"" ++ s.protocol ++ c!"\\\", debug_mode=\\\"" ++ s.mode ++ c!"\\\");"

/-- the arguments for the libraries to scan (450-459); `libs` is `PYDEVD_GDB_SCAN_SHARED_LIBRARIES` -/
def libArgs (libs : Str) : List Str :=
  if Py.strip libs = [] then []
  else c!"--init-eval-command='set auto-solib-add off'" ::
    (Py.split1 ',' (Py.strip libs)).map fun l => c!"--eval-command='sharedlibrary " ++ Py.strip l ++ c!"'"

/-- the command (417-473) -/
def command (pid : Int) (libs dll dllName code : Str) : List Str :=
  [c!"gdb", c!"--nw", c!"--nh", c!"--nx", c!"--pid", Py.intStr pid, c!"--batch"] ++ libArgs libs ++
  [c!"--eval-command='set scheduler-locking off'",
   c!"--eval-command='set architecture auto'",
   c!"--eval-command='call (void*)dlopen(\"" ++ dll ++ c!"\", 2)'",
   c!"--eval-command='sharedlibrary " ++ dllName ++ c!"'",
   c!"--eval-command='call (int)DoAttach(0, \"" ++ code ++ c!"\", 0)'"]

/-- `run_python_code_linux`: the text given to the shell, `none` if an assertion fails -/
def runLinux (pid : Int) (libs dll dllName code : Str) : Option Str :=
  if '\'' ∈ code then none
  else some (Py.join1 ' ' (command pid libs dll dllName code))

/-- `main` after the command line -/
def attach (libs dll dllName p1 p2 : Str) (s : Setup) : Option Str :=
  runLinux s.pid libs dll dllName (pythonCode p1 p2 s)

end AttachPid
