import Verif.Common.Dict
import Verif.Common.PyInt
import Verif.Common.Str
import Verif.Common.Split
import Verif.Common.Lit
/-!
Model of running a file in the interactive console.

Source: `/repo/_pydev_bundle/pydev_umd.py` `UserModuleDeleter` (38-93), `runfile` (132-181);
`/repo/_pydev_bundle/_pydev_execfile.py` `execfile`.

Simplifications: what the file does is an input: any function of the state, which says whether it raised (a file that cannot
be read or compiled raises). The file does not touch the module deleter. The arguments are text. `verbose` and messages are
left out. The namespace is given or that of the console: it is one dict.
-/

namespace RunFile

abbrev Str := List Char

inductive Val
  | none
  | str (s : Str)
  | other (n : Nat)
deriving DecidableEq

/-- `sys.modules`: the name of each module and its `__file__` -/
abbrev Modules := List (Str × Option Str)

/-- `__umd__`: the names to keep and the modules that were there when it was created (48-64) -/
structure Umd where
  namelist : List Str
  previous : List Str
deriving DecidableEq

structure St where
  mods : Modules
  ns : List (Str × Val)
  argv : List Str
  cwd : Str
  umd : Option Umd := none
deriving DecidableEq

/-- the environment of the process -/
structure Env where
  /-- `[sys.prefix] + self.pathlist` -/
  ignored : List Str
  /-- the working directory can be set to it -/
  isDir : Str → Bool

/-- one call of `runfile` -/
structure Run where
  filename : Str
  args : Option Str := none
  wdir : Option Str := none
  /-- `PYDEV_UMD_ENABLED` -/
  enabled : Bool := true
  /-- `PYDEV_UMD_NAMELIST`, separated by commas -/
  namelist : Option Str := none

/-- `is_module_ignored` (66-71) -/
def isIgnored (env : Env) (u : Umd) (name path : Str) : Bool :=
  if env.ignored.any (fun p => Py.startsWith path p) then true
  else (Py.split1 '.' name).any (fun c => u.namelist.contains c)

/-- `UserModuleDeleter.run` (73-93): the modules that are left -/
def deleteModules (env : Env) (u : Umd) (mods : Modules) : Modules :=
  mods.filter fun m =>
    if u.previous.contains m.1 then true
    else match m.2 with
      | none => true
      | some path => isIgnored env u m.1 path

/-- the list of names to keep (146-148) -/
def nameList : Option Str → List Str
  | none => []
  | some s => Py.split1 ',' s

/-- `runfile` (144-153) -/
def umdStep (env : Env) (st : St) (r : Run) : St :=
  if !r.enabled then st
  else match st.umd with
    | none =>
      { st with umd := some { namelist := nameList r.namelist, previous := st.mods.map (·.1) } }
    | some u => { st with mods := deleteModules env u st.mods }

/-- `str.split()` -/
def wordsAux : Str → Str → List Str
  | cur, [] => if cur = [] then [] else [cur]
  | cur, c :: s =>
    if Py.isSpace c then (if cur = [] then wordsAux [] s else cur :: wordsAux [] s)
    else wordsAux (cur ++ [c]) s

def fileName : Str := c!"__file__"

/-- what is done before the file is executed (144-175); true if the directory could be set -/
def start (env : Env) (st : St) (r : Run) : St × Bool :=
  let st := umdStep env st r
  let st := { st with ns := Py.Dict.set st.ns fileName (.str r.filename)
                      argv := r.filename :: (match r.args with | none => [] | some a => wordsAux [] a) }
  match r.wdir with
  | none => (st, true)
  | some w => if env.isDir w then ({ st with cwd := w }, true) else (st, false)

/-- what is done after the file was executed (177-181); true if it raises -/
def finish (old : Option Val) (st : St) : St × Bool :=
  let st := { st with argv := [[]] }
  match old with
  | some (.str s) => ({ st with ns := Py.Dict.set st.ns fileName (.str s) }, false)
  | some (.other n) => ({ st with ns := Py.Dict.set st.ns fileName (.other n) }, false)
  | _ => if Py.Dict.has st.ns fileName then ({ st with ns := Py.Dict.erase st.ns fileName }, false) else (st, true)

/-- `runfile` (132-181); `exec` is what the file does -/
def runfile (env : Env) (exec : St → St × Bool) (st : St) (r : Run) : St × Bool :=
  let s := start env st r
  if !s.2 then (s.1, true)
  else
    let e := exec s.1
    if e.2 then (e.1, true) else finish (Py.Dict.get st.ns fileName) e.1

/-- a sequence of runs, each with what its file does; the module deleter is not touched by the files -/
def runs (env : Env) (st : St) : List (Run × (St → St × Bool)) → St
  | [] => st
  | (r, ex) :: rs => runs env (runfile env (fun s => ({ (ex s).1 with umd := s.umd }, (ex s).2)) st r).1 rs

end RunFile
