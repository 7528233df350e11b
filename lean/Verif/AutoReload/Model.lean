import Verif.Common.Dict
import Verif.Common.PyInt
import Verif.Common.Str
import Verif.Common.Split
import Verif.Common.Lit
/-!
Model of reloading code: what is watched, the request to reload, and what is reloaded by it.

Source: `/repo/pydevd.py` `setup_auto_reload_watcher` (809-877); `/repo/_pydevd_bundle/pydevd_comm.py`
`FSNotifyThread._on_run` (331-356), `internal_reload_code` (605-655);
`/repo/_pydevd_bundle/pydevd_process_net_command.py` `cmd_reload_code` (191-198).

Simplifications: whether a path matches a pattern (`glob_matches_path`) and `normcase` are inputs; the paths are those of
Linux; `xreload` does not fail, and whether it changed something is an input; the scan of the watcher is the area FsNotify.
-/

namespace AutoReload

abbrev Str := List Char

/-! ### What is watched -/

/-- the patterns given to a watcher -/
structure Patterns where
  incl : List Str
  excl : List Str

/-- the body of `accept_directory` and `accept_file` (834-842, 852-860): the first pattern that matches decides -/
def decideBy (mtch : Str → Str → Bool) (ps : Patterns) (dflt : Bool) (f : Str) : Bool :=
  if ps.incl.any (mtch f) then true else if ps.excl.any (mtch f) then false else dflt

/-- `accept_directory` (823-845) with its cache; the answer is kept for the name with the separator -/
def acceptDirectory (mtch : Str → Str → Bool) (ps : Patterns) (cache : List (Str × Bool)) (f : Str) :
    List (Str × Bool) × Bool :=
  match Py.Dict.get cache f with
  | some b => (cache, b)
  | none =>
    let f' := match f.getLast? with
      | none => f
      | some c => if c = '/' ∨ c = '\\' then f else f ++ ['/']
    let b := decideBy mtch ps true f'
    (Py.Dict.set cache f' b, b)

/-- `accept_file` (847-863) with its cache -/
def acceptFile (mtch : Str → Str → Bool) (ps : Patterns) (cache : List (Str × Bool)) (f : Str) :
    List (Str × Bool) × Bool :=
  match Py.Dict.get cache f with
  | some b => (cache, b)
  | none =>
    let b := decideBy mtch ps false f
    (Py.Dict.set cache f b, b)

/-- the answers to questions, one after the other -/
def answers (ask : List (Str × Bool) → Str → List (Str × Bool) × Bool) : List (Str × Bool) → List Str → List Bool
  | _, [] => []
  | c, f :: fs => (ask c f).2 :: answers ask (ask c f).1 fs

/-- a watcher thread: its directories and patterns, and whether it was told to end -/
structure Watcher where
  dirs : List Str
  pats : Patterns
  killed : Bool := false

/-- the watchers that were started, the last one first, and `_fsnotify_thread` as the place of one of them -/
structure Db where
  started : List Watcher := []
  current : Bool := false

/-- `setup_auto_reload_watcher` (809-877): the one before is told to end -/
def setup (db : Db) (enable : Bool) (dirs : List Str) (ps : Patterns) : Db :=
  let db := if db.current then
      { started := match db.started with
          | [] => []
          | w :: ws => { w with killed := true } :: ws
        current := false }
    else db
  if !enable then db else { started := { dirs := dirs, pats := ps } :: db.started, current := true }

inductive Change
  | added | modified | deleted
deriving DecidableEq

/-- the changes for which `_on_run` asks to reload (345-352) -/
def reloadRequests (cs : List (Change × Str)) : List Str :=
  cs.filterMap fun c => if c.1 = .modified then some c.2 else none

/-! ### What is reloaded -/

structure Mod where
  id : Nat
  /-- `getattr_checked(module, "__file__")` -/
  file : Option Str
deriving DecidableEq

/-- `sys.modules`; a name may be set to `None` -/
abbrev Modules := List (Str × Option Mod)

/-- the name to look up (608-614) -/
def lookupName (mods : Modules) (name : Str) : Str :=
  if !Py.Dict.has mods name && decide ('.' ∈ name) then
    let new := ((Py.split1 '.' name).getLast?).getD []
    if Py.Dict.has mods new then new else name
  else name

/-- `f[:-1]` of a compiled file (626-627) -/
def sourceOf (f : Str) : Str :=
  if Py.endsWith f c!".pyc" || Py.endsWith f c!".pyo" then f.dropLast else f

/-- the module of the name (617-619) -/
def namedModule (mods : Modules) (name : Option Str) : List (Nat × (Mod × Str)) :=
  match name with
  | none => []
  | some n =>
    match Py.Dict.get mods (lookupName mods n) with
    | some (some m) => [(m.id, (m, lookupName mods n))]
    | _ => []

/-- `modules_to_reload` (616-630): the modules by their identity, with a name of each -/
def modulesToReload (normcase : Str → Str) (mods : Modules) (name filename : Option Str) : List (Nat × (Mod × Str)) :=
  match filename with
  | none => namedModule mods name
  | some f =>
    if f = [] then namedModule mods name
    else
      mods.foldl (fun acc e =>
        match e.2 with
        | none => acc
        | some m =>
          match m.file with
          | none => acc
          | some g => if normcase (sourceOf g) = normcase f then Py.Dict.set acc m.id (m, e.1) else acc) (namedModule mods name)

/-- what is sent: the names that are reloaded, or what was not found -/
inductive Msg
  | start (name : Str)
  | finished (changed : Bool)
  | unableBoth (name file : Str)
  | unableFile (file : Str)
  | unableName (name : Str)
  | reloaded (seq : Int) (ok : Bool)
deriving DecidableEq

/-- the message when nothing was found (632-638): the name is that of the last module if there was a loop over the modules
(621) -/
def notFound (normcase : Str → Str) (mods : Modules) (name filename : Option Str) : List Msg :=
  match filename with
  | some f =>
    if f = [] then (match name with | some n => if lookupName mods n = [] then [] else [.unableName (lookupName mods n)] | none => [])
    else
      let last := match mods.getLast? with
        | some e => some e.1
        | none => name.map (lookupName mods)
      match last with
      | some n => if n = [] then [.unableFile (normcase f)] else [.unableBoth n (normcase f)]
      | none => [.unableFile (normcase f)]
  | none => match name with
    | some n => if lookupName mods n = [] then [] else [.unableName (lookupName mods n)]
    | none => []

/-- `internal_reload_code` (605-655) -/
def internalReloadCode (normcase : Str → Str) (changes : Nat → Bool) (mods : Modules) (seq : Int) (name filename : Option Str) :
    List Msg :=
  let ms := modulesToReload normcase mods name filename
  (if ms = [] then notFound normcase mods name filename
   else ms.flatMap fun e => [.start e.2.2, .finished (changes e.1)]) ++ [.reloaded seq (!ms.isEmpty)]

/-- `cmd_reload_code` (191-198) -/
def cmdReloadCode (text : Str) : Str × Option Str :=
  let text := Py.strip text
  if '\t' ∉ text then (Py.strip text, none)
  else (text.takeWhile (· ≠ '\t'), some ((text.dropWhile (· ≠ '\t')).drop 1))

end AutoReload
