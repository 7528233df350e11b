import Verif.SourceMap.Model
/-!
What the source mapping is meant to do: the current table of each file is the last one accepted, a table is refused
when it maps a runtime source that another file maps, and locations are translated by the entry that contains them.
-/

namespace SourceMap

/-- for each normalized file name: the file and its entries -/
abbrev Tables := List (Str × (Str × List Entry))

/-- the source lines of an entry -/
def Covers (e : Entry) (i : Int) : Prop := e.line ≤ i ∧ i ≤ e.endLine
/-- the runtime lines of an entry: as many as source lines -/
def CoversRuntime (e : Entry) (i : Int) : Prop := e.runtimeLine ≤ i ∧ i ≤ e.runtimeLine + (e.endLine - e.line)

instance (e : Entry) (i : Int) : Decidable (Covers e i) := by unfold Covers; infer_instance
instance (e : Entry) (i : Int) : Decidable (CoversRuntime e i) := by unfold CoversRuntime; infer_instance

/-- some other file maps one of the runtime sources -/
def Taken (t : Tables) (f : Str) (m : List Entry) : Prop :=
  ∃ x ∈ t, x.2.1 ≠ f ∧ ∃ e ∈ m, ∃ e' ∈ x.2.2, e'.runtimeSource = e.runtimeSource

instance (t : Tables) (f : Str) (m : List Entry) : Decidable (Taken t f m) := by unfold Taken; infer_instance

def specStep (norm : Str → Str) (t : Tables) : Req → Ans × Tables
  | .set f m => if Taken t f m then (.refused, t) else (.ok, Py.Dict.set t (norm f) (f, m))
  | .toServer f i =>
    match ((Py.Dict.get t (norm f)).map (·.2)).getD [] |>.find? (fun e => decide (Covers e i)) with
    | some e => (.loc e.runtimeSource (e.runtimeLine + (i - e.line)) true, t)
    | none => (.loc f i false, t)
  | .toClient src i =>
    match (t.flatMap fun x => x.2.2.map fun e => (x.2.1, e)).find? (fun x => decide (x.2.runtimeSource = src ∧ CoversRuntime x.2 i)) with
    | some x => (.loc x.1 (x.2.line + (i - x.2.runtimeLine)) true, t)
    | none => (.loc src i false, t)
  | .has src => (.has ((t.flatMap fun x => x.2.2).any fun e => e.runtimeSource == src), t)

def specAnswers (norm : Str → Str) (t : Tables) : List Req → List Ans
  | [] => []
  | r :: rs => (specStep norm t r).1 :: specAnswers norm (specStep norm t r).2 rs

/-- A table as the client should send it: lines in order, entries that do not overlap, one entry per runtime source. -/
structure ValidTable (m : List Entry) : Prop where
  lines : ∀ e ∈ m, 0 ≤ e.line ∧ e.line ≤ e.endLine
  disjoint : m.Pairwise (fun a b => a.endLine < b.line ∨ b.endLine < a.line)
  sources : (m.map (·.runtimeSource)).Nodup

/-- Lines after the end of an entry of the source, where the code does not agree (see `c32_past_the_end`). -/
def PastEnd (e : Entry) (i : Int) : Prop :=
  e.runtimeLine + (e.endLine - e.line) < i ∧ i ≤ e.runtimeLine + (e.endLine + e.line)

def GoodReq (t : Tables) : Req → Prop
  | .set f m => f ≠ [] ∧ ValidTable m
  | .toClient src i => ∀ x ∈ t, ∀ e ∈ x.2.2, e.runtimeSource = src → ¬PastEnd e i
  | _ => True

def GoodRun (norm : Str → Str) (t : Tables) : List Req → Prop
  | [] => True
  | r :: rs => GoodReq t r ∧ GoodRun norm (specStep norm t r).2 rs

end SourceMap
