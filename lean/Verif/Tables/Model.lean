import Verif.Common.Lit
import Verif.Common.PyInt
/-!
Model of showing arrays and data frames as tables.

Source: `/repo/_pydevd_bundle/pydevd_vars.py` `table_like_struct_to_xml` (651-666), `array_to_xml` (669-711), `array_to_meta_xml`
(714-780), `dataframe_to_xml` (783-861).

Simplifications: arrays have one or two dimensions (for more the first matrix is taken on the first load). Offsets and numbers of
rows and columns are not negative; -1 for both is `none`. Formats of cells, types, maxima and minima of arrays and the text
of the cells are left out: a table is its numbers of rows and columns and the object each cell is made from. A cell that is `none`
is an error (an index out of range), by which the whole request fails.
-/

namespace Tables

/-- `MAXIMUM_ARRAY_SIZE` -/
def maxShown : Nat := 100
/-- `MAX_SLICE_SIZE` -/
def maxSlice : Nat := 1000

/-- an array of one or two dimensions -/
inductive Arr (V : Type)
  | d1 (l : List V)
  | d2 (m : List (List V))

/-- an item of an array: a number, or an array of one dimension -/
inductive Cell (V : Type)
  | scalar (v : V)
  | vec (l : List V)
deriving DecidableEq

variable {V : Type}

/-- `len(array)` -/
def len : Arr V → Nat
  | .d1 l => l.length
  | .d2 m => m.length

/-- `array.size` -/
def size : Arr V → Nat
  | .d1 l => l.length
  | .d2 m => (m.map List.length).sum

/-- `array[i]` -/
def item : Arr V → Nat → Option (Cell V)
  | .d1 l, i => l[i]?.map .scalar
  | .d2 m, i => m[i]?.map .vec

/-- `array[n:]` -/
def dropRows (n : Nat) : Arr V → Arr V
  | .d1 l => .d1 (l.drop n)
  | .d2 m => .d2 (m.drop n)

structure Table (V : Type) where
  rows : Nat
  cols : Nat
  cell : Nat → Nat → Option (Cell V)

/-- `array_to_xml` (675-676): `none` if it fails, as the item of an array of one dimension has no length -/
def squeeze (a : Arr V) (rows cols : Nat) : Option (Arr V) :=
  if len a = 1 ∧ (rows > 1 ∨ cols > 1) then
    match a with
    | .d1 _ => none
    | .d2 m => m[0]?.map .d1
  else some a

/-- `array_to_xml` (677-689): the array from the offsets, and the numbers of rows and columns that are shown -/
def clip (a : Arr V) (ro co rows cols : Nat) : Option (Arr V × Nat × Nat) :=
  if size a > len a then
    match a with
    | .d1 _ => none
    | .d2 m =>
      let m' := (m.drop ro).map (List.drop co)
      match m' with
      | [] => none
      | x :: _ => some (if m'.length = 1 then .d1 x else .d2 m', min rows m'.length, min cols x.length)
  else if size a = len a then
    if ro = 0 ∧ rows = 1 then some (dropRows co a, rows, min cols (len (dropRows co a)))
    else if co = 0 ∧ cols = 1 then some (dropRows ro a, min rows (len (dropRows ro a)), cols)
    else some (a, rows, cols)
  else some (a, rows, cols)

/-- the value of a cell (694-709) -/
def cellOf (a : Arr V) (rows cols row col : Nat) : Option (Cell V) :=
  if rows = 1 ∨ cols = 1 then
    if rows = 1 ∧ cols = 1 then item a 0
    else
      match item a (if rows = 1 then col else row) with
      | some (.vec l) => l[0]?.map .scalar
      | x => x
  else
    match item a row with
    | some (.vec l) => l[col]?.map .scalar
    | _ => none

/-- `array_to_xml` (669-711) -/
def arrayToXml (a : Arr V) (ro co rows cols : Nat) : Option (Table V) :=
  let rows := min rows maxShown
  let cols := min cols maxShown
  match squeeze a rows cols with
  | none => none
  | some a =>
    match clip a ro co rows cols with
    | none => none
    | some (a, rows, cols) => some ⟨rows, cols, cellOf a rows cols⟩

/-- `array_to_meta_xml` (735-760): the part of the array that can be shown, and its numbers of rows and columns; `isRow` is the flag
`C_CONTIGUOUS` of an array of one dimension -/
def arrayMeta (a : Arr V) (isRow : Bool) : Arr V × Nat × Nat :=
  match a with
  | .d1 l => if isRow then (.d1 (l.take maxSlice), 1, min l.length maxSlice) else (.d1 (l.take maxSlice), min l.length maxSlice, 1)
  | .d2 m =>
    (.d2 ((m.take maxSlice).map (List.take maxSlice)), min m.length maxSlice, min ((m[0]?.map List.length).getD 0) maxSlice)

/-- `table_like_struct_to_xml` (651-659) for an array; `req` is `none` for `(-1, -1)` -/
def showArray (a : Arr V) (isRow : Bool) (ro co : Nat) (req : Option (Nat × Nat)) : Option (Table V) :=
  let p := arrayMeta a isRow
  let n := req.getD p.2
  arrayToXml p.1 ro co n.1 n.2

/-! ### Data frames -/

/-- a data frame: its cells by rows, and the labels of its columns -/
structure Frame (V : Type) where
  cells : List (List V)
  labels : List (List Char)

structure FrameTable (V : Type) where
  table : Table V
  /-- for each column shown, its label and the values its bounds are of -/
  headers : List (List Char × List (Option V))

/-- `dataframe_to_xml` (783-861) -/
def showFrame (f : Frame V) (ro co : Nat) (req : Option (Nat × Nat)) : Option (FrameTable V) :=
  let numRows := min f.cells.length maxSlice
  let numCols := min f.labels.length maxSlice
  let cells := (f.cells.take numRows).map (List.take numCols)
  let n := req.getD (numRows, numCols)
  let rows := min n.1 maxShown
  let cols := min (min n.2 maxShown) numCols
  if cols > 0 ∧ co + cols > numCols then none
  else
    let block := ((cells.drop ro).take rows).map fun r => (r.drop co).take cols
    let labels := ((f.labels.take numCols).drop co).take cols
    some ⟨⟨block.length, labels.length, fun i j => (block[i]?.bind (·[j]?)).map .scalar⟩,
      labels.zipIdx.map fun l => (l.1, cells.map fun r => r[co + l.2]?)⟩

/-- the text of the header of a column (843-850), without its format and bounds -/
def colHeader (index : Nat) (label : List Char) : List Char :=
  c!"<colheader index=\"" ++ Py.natStr index ++ c!"\" label=\"" ++ label ++ c!"\""

end Tables
