import Verif.VarPath.Model
/-!
Model of loading the full values of variables in the background.

Source: `/repo/_pydevd_bundle/pydevd_process_net_command.py` `cmd_load_full_value` (238-243); `/repo/_pydevd_bundle/pydevd_comm.py`
`InternalLoadFullValue` (1844-1878), `AbstractGetValueAsyncThread._on_run` (1896-1908); `/repo/_pydev_bundle/pydev_console_utils.py`
`loadFullValue` (472-511); `/repo/_pydevd_bundle/pydevd_vars.py` `resolve_var_object` (149-164).

Simplifications: as in `VarPath`. Whether time is over, or the thread was cancelled, when the variable with a number comes, is any function.
White space is that of ASCII.
-/

namespace LoadFull

open VarPath (World Val Frame)

abbrev Str := List Char

/-- `NEXT_VALUE_SEPARATOR` (pydevd_constants.py 337) -/
def sep : Str := c!"__pydev_val__"

/-- the loop of `str.split(sep)`: the part that is read, how many characters of a separator are still to be left out -/
def splitGo (sp : Str) (acc : Str) (skip : Nat) : Str → List Str
  | [] => [acc.reverse]
  | c :: cs =>
    match skip with
    | k + 1 => splitGo sp acc k cs
    | 0 => if sp.isPrefixOf (c :: cs) then acc.reverse :: splitGo sp [] (sp.length - 1) cs else splitGo sp (c :: acc) 0 cs

/-- `s.split(NEXT_VALUE_SEPARATOR)` -/
def splitSep (s : Str) : List Str := splitGo sep [] 0 s

/-- the loop over the variables (1858-1870); `none`: an exception -/
def objects (w : World) (thread frameId : Str) : List Str → Option (List (Str × Val))
  | [] => some []
  | v :: vs =>
    let v := Py.strip v
    if v = [] then objects w thread frameId vs
    else
      match LineReq.splitN 1 v with
      | [scope, attrs] => (VarPath.getVariable w thread frameId scope (some attrs)).bind fun x => (objects w thread frameId vs).map ((attrs.take 1, x) :: ·)
      | _ => (VarPath.getVariable w thread frameId v none).bind fun x => (objects w thread frameId vs).map ((v, x) :: ·)

/-- the loop of the thread (1901-1905) -/
def onRun (over : Nat → Bool) (i : Nat) : List (Str × Val) → List (Str × Val)
  | [] => []
  | x :: xs => if over i then [] else x :: onRun over (i + 1) xs

/-- what is sent -/
inductive Reply
  | error
  | values (rows : List (Str × Val))
deriving DecidableEq

/-- `InternalLoadFullValue.do_it` (1855-1878) and its thread -/
def load (w : World) (over : Nat → Bool) (thread frameId : Str) (vars : List Str) : Reply :=
  match objects w thread frameId vars with
  | none => .error
  | some l => .values (onRun over 0 l)

/-- `cmd_load_full_value` (238-243); `none`: an exception in the reader -/
def request (w : World) (over : Nat → Bool) (text : Str) : Option Reply :=
  match LineReq.splitN 2 text with
  | [thread, frameId, sa] => some (load w over thread frameId (splitSep sa))
  | _ => none

/-- the loop of the console (484-496) -/
def consoleObjects (w : World) (f : Frame) : List Str → Option (List (Str × Val))
  | [] => some []
  | v :: vs =>
    let na := match LineReq.splitN 1 v with
      | [n, a] => (n, some a)
      | _ => (v, none)
    match Py.Dict.get f.globals na.1 with
    | some r => (VarPath.walk w (.obj r) (VarPath.parts na.2)).bind fun x => (consoleObjects w f vs).map ((na.1, x) :: ·)
    | none => (f.evaluate na.1).bind fun r => (consoleObjects w f vs).map ((na.1, .obj r) :: ·)

/-- `loadFullValue` (472-511): `none`: the call fails -/
def consoleLoad (w : World) (f : Frame) (over : Nat → Bool) (scopeAttrs : Str) : Option (List (Str × Val)) :=
  (consoleObjects w f (splitSep scopeAttrs)).map (onRun over 0)

end LoadFull
