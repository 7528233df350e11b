import Verif.Common.Dict
import Verif.Common.Lit
/-!
Model of the mapping of source files to runtime code (notebook cells).

Source: `/repo/_pydevd_bundle/pydevd_source_mapping.py` (whole file) and `/repo/_pydevd_bundle/pydevd_api.py`
`set_source_mapping` (999-1021), which fills `source_filename`.

Simplifications: the dict of tables is an association list in insertion order; the notification callback and the
re-application of breakpoints are left out; file names are already absolute; `normcase` is a parameter. The cache is
two association lists (its keys `(lineno, "client", f)` and `("has_entry", f)` never coincide).
-/

namespace SourceMap

abbrev Str := List Char

/-- `SourceMappingEntry` (6-19) -/
structure Entry where
  line : Int
  endLine : Int
  runtimeLine : Int
  runtimeSource : Str
  /-- `source_filename` -/
  source : Str := []
deriving DecidableEq, Repr

/-- `contains_line` (21-22) -/
def containsLine (e : Entry) (i : Int) : Bool := decide (e.line ≤ i) && decide (i ≤ e.endLine)

/-- `contains_runtime_line` (24-27): `line_count` is the sum of the two lines -/
def containsRuntimeLine (e : Entry) (i : Int) : Bool :=
  let lineCount := e.endLine + e.line
  let runtimeEnd := e.runtimeLine + lineCount
  decide (e.runtimeLine ≤ i) && decide (i ≤ runtimeEnd)

/-- insertion into a list sorted by line, before the entries with the same line -/
def insertEntry (x : Entry) : List Entry → List Entry
  | [] => [x]
  | y :: ys => if x.line ≤ y.line then x :: y :: ys else y :: insertEntry x ys

/-- `sorted(mapping, key=lambda entry: entry.line)` (76): the stable sort -/
def sortEntries : List Entry → List Entry
  | [] => []
  | x :: xs => insertEntry x (sortEntries xs)

/-- `bisect.bisect` (`bisect_right`); `fuel` bounds the loop (the interval shrinks at each turn). -/
def bisectRight (a : List Int) (x : Int) : Nat → Nat → Nat → Nat
  | 0, lo, _ => lo
  | fuel + 1, lo, hi =>
    if lo < hi then
      let mid := (lo + hi) / 2
      if x < a.getD mid 0 then bisectRight a x fuel lo mid else bisectRight a x fuel (mid + 1) hi
    else lo

structure State where
  /-- `_mappings_to_server` -/
  toServer : List (Str × List Entry) := []
  /-- `_mappings_to_client` -/
  toClient : List (Str × Str) := []
  /-- `_cache` -/
  cacheClient : List ((Int × Str) × (Str × Int × Bool)) := []
  cacheHas : List (Str × Bool) := []
deriving DecidableEq, Repr

inductive Ans where
  | ok
  | refused
  /-- an exception reaches the command loop -/
  | keyError
  | loc (file : Str) (line : Int) (changed : Bool)
  | has (b : Bool)
deriving DecidableEq, Repr

/-- the loop of `del` (73-74); `false`: `KeyError` -/
def delAll (d : List (Str × Str)) : List Str → List (Str × Str) × Bool
  | [] => (d, true)
  | k :: ks => if Py.Dict.has d k then delAll (Py.Dict.erase d k) ks else (d, false)

/-- 78-79 -/
def setAll (d : List (Str × Str)) (f : Str) (ks : List Str) : List (Str × Str) := ks.foldl (fun d k => Py.Dict.set d k f) d

/-- the validation (60-68) -/
def conflicts (s : State) (f : Str) (mapping : List Entry) : Bool :=
  mapping.any fun e => match Py.Dict.get s.toClient e.runtimeSource with
    | some f' => decide (f' ≠ [] ∧ f' ≠ f)
    | none => false

/-- `PyDevdAPI.set_source_mapping` and `SourceMapping.set_source_mapping` (42-83) -/
def setMapping (norm : Str → Str) (s : State) (f : Str) (mapping : List Entry) : Ans × State :=
  let mapping := mapping.map fun e => { e with source := f }
  if conflicts s f mapping then (.refused, s)
  else
    let current := (Py.Dict.get s.toServer (norm f)).getD []
    let (d, done) := delAll s.toClient (current.map (·.runtimeSource))
    if done then
      (.ok, { toServer := Py.Dict.set s.toServer (norm f) (sortEntries mapping),
              toClient := setAll d f (mapping.map (·.runtimeSource)), cacheClient := [], cacheHas := [] })
    else (.keyError, { s with toClient := d, cacheClient := [], cacheHas := [] })

/-- the search of `map_to_client` (90-98) -/
def computeClient (ms : List (Str × List Entry)) (src : Str) (i : Int) : Str × Int × Bool :=
  match (ms.flatMap (·.2)).find? (fun e => e.runtimeSource == src && containsRuntimeLine e i) with
  | some e => (e.source, e.line + (i - e.runtimeLine), true)
  | none => (src, i, false)

/-- `map_to_client` (85-98) -/
def mapToClient (s : State) (src : Str) (i : Int) : (Str × Int × Bool) × State :=
  match Py.Dict.get s.cacheClient (i, src) with
  | some r => (r, s)
  | none =>
    let r := computeClient s.toServer src i
    (r, { s with cacheClient := Py.Dict.set s.cacheClient (i, src) r })

/-- the search of `has_mapping_entry` (111-118) -/
def computeHas (ms : List (Str × List Entry)) (src : Str) : Bool := (ms.flatMap (·.2)).any (fun e => e.runtimeSource == src)

/-- `has_mapping_entry` (100-118) -/
def hasEntry (s : State) (src : Str) : Bool × State :=
  match Py.Dict.get s.cacheHas src with
  | some r => (r, s)
  | none =>
    let r := computeHas s.toServer src
    (r, { s with cacheHas := Py.Dict.set s.cacheHas src r })

/-- the choice of the entry in `map_to_server` (131-144), for a non-empty list -/
def pickEntry (ms : List Entry) (i : Int) : Option Entry :=
  let k := bisectRight (ms.map (·.line)) i ms.length 0 ms.length
  let k := if k ≥ ms.length then k - 1 else k
  let first := if k = 0 then ms[k]? else ms[k - 1]?
  match first with
  | some e =>
    if containsLine e i then some e
    else match ms[k]? with
      | some e => if containsLine e i then some e else none
      | none => none
  | none => none

/-- `map_to_server` (120-152) -/
def mapToServer (norm : Str → Str) (s : State) (f : Str) (i : Int) : Str × Int × Bool :=
  match Py.Dict.get s.toServer (norm f) with
  | none => (f, i, false)
  | some ms =>
    match pickEntry ms i with
    | some e => (e.runtimeSource, e.runtimeLine + (i - e.line), true)
    | none => (f, i, false)

inductive Req where
  | set (f : Str) (mapping : List Entry)
  | toServer (f : Str) (i : Int)
  | toClient (src : Str) (i : Int)
  | has (src : Str)
deriving Repr

def step (norm : Str → Str) (s : State) : Req → Ans × State
  | .set f m => setMapping norm s f m
  | .toServer f i => let r := mapToServer norm s f i; (.loc r.1 r.2.1 r.2.2, s)
  | .toClient src i => let (r, s) := mapToClient s src i; (.loc r.1 r.2.1 r.2.2, s)
  | .has src => let (b, s) := hasEntry s src; (.has b, s)

/-- the answers to a sequence of requests -/
def answers (norm : Str → Str) (s : State) : List Req → List Ans
  | [] => []
  | r :: rs => (step norm s r).1 :: answers norm (step norm s r).2 rs

end SourceMap
