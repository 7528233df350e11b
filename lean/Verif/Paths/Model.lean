import Verif.Common.Split
import Verif.Common.Str
import Verif.Common.Dict
import Verif.Common.Lit
/-!
Model of the client/server path mapping and of the source references.

Source: `/repo/pydevd_file_utils.py` `_fix_path` (645-661), `setup_client_server_paths` (712-900: the tables,
`_map_file_to_server` 782-836, `_map_file_to_client` 838-896), source references (664-703);
`/repo/_pydevd_bundle/pydevd_net_command_factory_json.py` 283-294 (the reference of a frame);
`/repo/_pydevd_bundle/pydevd_process_net_command_json.py` `on_source_request` (1174-1200).

Simplifications: case normalisation is per character (`str.lower` may change the length of a few characters, the
conversion of `~` names to long names on Windows is left out); `absolute_path`, `get_path_with_real_case`,
`os.path.abspath` and the file system are parameters.
-/

namespace Paths

abbrev Str := List Char

/-- The two platforms. -/
structure Plat where
  /-- `eclipse_sep`, `python_sep` -/
  clSep : Char := '/'
  pySep : Char := '/'
  /-- `_normcase_from_client`, `normcase` -/
  cn : Char → Char := id
  sn : Char → Char := id
  abspath : Str → Str := id
  absolute : Str → Str := id
  realCase : Str → Str := id
  exists_ : Str → Bool := fun _ => true

variable (P : Plat)

def endsWithSlash (p : Str) : Bool := Py.endsWith p ['/'] || Py.endsWith p ['\\']

/-- `_fix_path` (645-661) -/
def fixPath (path : Str) (sep : Char) (addEnd : Bool) : Str :=
  let path := if Py.startsWith path ['.'] then P.abspath path else path
  let path :=
    if addEnd then (if !Py.endsWith path ['/'] && !Py.endsWith path ['\\'] then path ++ ['/'] else path)
    else (if Py.endsWith path ['/'] || Py.endsWith path ['\\'] then path.dropLast else path)
  if sep ≠ '/' then Py.replaceChar '/' sep path else path

/-- `force_only_slash` (748) -/
def onlySlash (e : Str × Str) : Bool := endsWithSlash e.1 && endsWithSlash e.2

/-- the pair without the final separator (751-752) -/
def bareEntry (e : Str × Str) : Str × Str :=
  if onlySlash e then e else (fixPath P e.1 P.clSep false, fixPath P e.2 P.pySep false)

/-- the pair with a final separator (757-758); `path0`, `path1` were already rebound at 751 -/
def slashEntry (e : Str × Str) : Str × Str :=
  (fixPath P (bareEntry P e).1 P.clSep true, fixPath P (bareEntry P e).2 P.pySep true)

/-- `initial_paths` after 775; the normalized list is this one with `cn`/`sn` applied -/
def entries (paths : List (Str × Str)) : List (Str × Str) :=
  paths.map (slashEntry P) ++ (paths.filter (fun e => !onlySlash e)).map (bareEntry P)

/-- `_map_file_to_server` (782-836) without its cache -/
def toServer (es : List (Str × Str)) (filename : Str) : Str :=
  if es.isEmpty then filename
  else
    let filename := if P.clSep ≠ P.pySep then Py.replaceChar P.pySep P.clSep filename else filename
    let found := es.find? (fun e => Py.startsWith (filename.map P.cn) (e.1.map P.cn))
    let translated := match found with | some e => e.2.map P.sn ++ filename.drop e.1.length | none => filename
    let translated := if P.clSep ≠ P.pySep then Py.replaceChar P.clSep P.pySep translated else translated
    if found.isSome || P.exists_ translated then P.absolute translated else translated

/-- `_map_file_to_client` (838-880) without its cache and the source references -/
def toClient (es : List (Str × Str)) (filename : Str) : Str × Bool :=
  let abs := P.absolute filename
  let proper := P.realCase abs
  if es.isEmpty then (proper, false)
  else
    let found := es.find? (fun e => Py.startsWith (abs.map P.sn) (e.2.map P.sn))
    let translated := match found with | some e => e.1 ++ proper.drop e.2.length | none => proper
    let translated := if P.clSep ≠ P.pySep then Py.replaceChar P.pySep P.clSep translated else translated
    (translated, found.isSome)

/-! ### Source references -/

structure State where
  es : List (Str × Str) := []
  /-- `_next_source_reference` -/
  next : Nat := 1
  /-- `_source_reference_to_server_filename` -/
  refServer : List (Nat × Str) := []
  /-- `_client_filename_in_utf8_to_source_reference` -/
  clientRef : List (Str × Nat) := []
  /-- `_line_cache_source_reference_to_server_filename` -/
  lineRefs : List (Nat × Str) := []
  /-- `_source_reference_to_frame_id` -/
  frameRefs : List (Nat × Nat) := []
  /-- `norm_filename_to_client_container` -/
  cache : List (Str × (Str × Bool)) := []
deriving DecidableEq, Repr

/-- `map_file_to_client` with its cache and the creation of references (838-896). Without a table it is
`_original_file_to_client` (628-634), which creates no references. -/
def mapClient (s : State) (f : Str) : (Str × Bool) × State :=
  match Py.Dict.get s.cache f with
  | some r => (r, s)
  | none =>
    let r := toClient P s.es f
    let s := { s with cache := Py.Dict.set s.cache f r }
    if s.es.isEmpty || (Py.Dict.get s.clientRef r.1).isSome then (r, s)
    else if r.2 then
      (r, { s with clientRef := Py.Dict.set s.clientRef r.1 0, refServer := Py.Dict.set s.refServer 0 f })
    else
      (r, { s with clientRef := Py.Dict.set s.clientRef r.1 s.next, refServer := Py.Dict.set s.refServer s.next f,
                   next := s.next + 1 })

/-- A frame as far as its source is concerned. -/
structure Fr where
  id : Nat
  file : Str
  /-- has `co_lines` or `co_lnotab` -/
  hasLines : Bool := true
  /-- `linecache.getline(file, 1)` -/
  inLinecache : Bool := false
deriving DecidableEq, Repr

/-- The reference sent for a frame (factory 283-294). -/
def showFrame (s : State) (fr : Fr) : Nat × State :=
  let (r, s) := mapClient P s fr.file
  let ref := (Py.Dict.get s.clientRef r.1).getD 0
  if ref = 0 && !r.2 && !P.exists_ fr.file then
    if fr.hasLines then (s.next, { s with next := s.next + 1, frameRefs := Py.Dict.set s.frameRefs s.next fr.id })
    else if fr.inLinecache then (s.next, { s with next := s.next + 1, lineRefs := Py.Dict.set s.lineRefs s.next fr.file })
    else (0, s)
  else (ref, s)

/-- `setup_client_server_paths` (721-731) -/
def setPaths (s : State) (paths : List (Str × Str)) : State :=
  { s with es := entries P paths, next := 1, refServer := [], clientRef := [], cache := [] }

inductive Target where
  | file (f : Str)
  | frame (id : Nat)
  | nothing
deriving DecidableEq, Repr

/-- `on_source_request` (1174-1200): which source a reference stands for. (When a file cannot be read, the frame
reference with the same number is tried too.) -/
def resolve (s : State) (ref : Nat) : Target :=
  if ref = 0 then .nothing
  else
    let f := (Py.Dict.get s.refServer ref).getD []
    let f := if f = [] then (Py.Dict.get s.lineRefs ref).getD [] else f
    if f ≠ [] then .file f
    else match Py.Dict.get s.frameRefs ref with | some id => .frame id | none => .nothing

inductive Action where
  | show (fr : Fr)
  | map (f : Str)
  | setPaths (paths : List (Str × Str))

def step (s : State) : Action → State
  | .show fr => (showFrame P s fr).2
  | .map f => (mapClient P s f).2
  | .setPaths ps => setPaths P s ps

/-- The references sent, with the frame each was sent for. -/
def sent (s : State) : List Action → List (Nat × Fr)
  | [] => []
  | .show fr :: as => ((showFrame P s fr).1, fr) :: sent (step P s (.show fr)) as
  | a :: as => sent (step P s a) as

def run (s : State) (as : List Action) : State := as.foldl (step P) s

end Paths
