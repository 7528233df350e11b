import Verif.Common.PyInt
import Verif.Common.Dict
/-!
The expression given to the client for every variable it is shown (`evaluateName` in the debug adapter
protocol): how it is put together while a frame, or the result of an evaluate request, is expanded.

Code modelled:
* `_pydevd_bundle/pydevd_suspended_frames.py`: `_AbstractVariable._group_entries` (112-150),
  `_ObjectVariable.get_children_variables` (165-200), `_FrameVariable.get_children_variables` (263-315),
  `_FramesTracker.obtain_as_variable` (354-366),
* `_pydevd_bundle/pydevd_resolver.py`: `DefaultResolver.get_contents_debug_adapter_protocol` (72-90),
  `get_names` (150-161), `_get_py_dictionary` (163-212), `_does_obj_repr_evaluate_to_obj` (223-238),
  `DictResolver.get_contents_debug_adapter_protocol` (278-327),
  `TupleResolver.get_contents_debug_adapter_protocol` (472-510),
  `SetResolver.get_contents_debug_adapter_protocol` (544-560).

Simplifications: names of rows are those without the `hex` format and without the suffix for keys of the
same representation (they play no part in the expressions); the rows are in the order of the containers
and of `dir()`, the sorting being left out; what is below a row "more" is left out here (it is in area
`Resolver`), such a row has no expression and so nothing below it has; text is ASCII or any other character a Lean
`Char` can hold (no lone surrogates).
-/

namespace EvalName

abbrev Str := List Char

/-! ### Keys of dictionaries and their representation -/

/-- A key of a dictionary.  `other` is any other object: `basic` is what
`_does_obj_repr_evaluate_to_obj` (pydevd_resolver.py 223-238) says of it (an instance, perhaps of a
subclass, of `float`, `complex`, `bytes`, `frozenset`, `int`, `str`; or a named tuple of such), `text` is its `repr`. -/
inductive Key where
  | int (n : Int)
  | str (s : Str)
  | none
  | bool (b : Bool)
  | tuple (l : List Key)
  | other (basic : Bool) (text : Str) (id : Nat)

/-- `'%0*x' % (w, n)` for `n < 16 ^ w`. -/
def hexDigit (d : Nat) : Char := if d < 10 then Char.ofNat (48 + d) else Char.ofNat (87 + d)

def hexStr : Nat → Nat → Str
  | 0, _ => []
  | w + 1, n => hexStr w (n / 16) ++ [hexDigit (n % 16)]

/-- One character of `repr` of a string quoted with `q` (CPython's `unicode_repr`); `printable` is
`str.isprintable` of the character. -/
def escape (printable : Char → Bool) (q c : Char) : Str :=
  if c = '\\' ∨ c = q then ['\\', c]
  else if c = '\n' then c!"\\n"
  else if c = '\r' then c!"\\r"
  else if c = '\t' then c!"\\t"
  else if printable c then [c]
  else if c.toNat < 256 then '\\' :: 'x' :: hexStr 2 c.toNat
  else if c.toNat < 65536 then '\\' :: 'u' :: hexStr 4 c.toNat
  else '\\' :: 'U' :: hexStr 8 c.toNat

/-- The quote `repr` chooses. -/
def quoteOf (s : Str) : Char := if '\'' ∈ s ∧ '"' ∉ s then '"' else '\''

/-- `repr(s)` of a string. -/
def reprStr (printable : Char → Bool) (s : Str) : Str :=
  quoteOf s :: (s.flatMap (escape printable (quoteOf s)) ++ [quoteOf s])

mutual
/-- `"%r" % (key,)` (`DictResolver.key_to_str`, pydevd_resolver.py 268-274, without a format). -/
def reprKey (printable : Char → Bool) : Key → Str
  | .int n => Py.intStr n
  | .str s => reprStr printable s
  | .none => c!"None"
  | .bool b => if b then c!"True" else c!"False"
  | .tuple [] => c!"()"
  | .tuple [k] => '(' :: (reprKey printable k ++ c!",)")
  | .tuple (k :: l) => '(' :: (reprKey printable k ++ reprRest printable l)
  | .other _ t _ => t
/-- The elements of a tuple after the first, and the closing bracket. -/
def reprRest (printable : Char → Bool) : List Key → Str
  | [] => c!")"
  | k :: l => ',' :: ' ' :: (reprKey printable k ++ reprRest printable l)
end

mutual
/-- `_does_obj_repr_evaluate_to_obj` (pydevd_resolver.py 223-238). -/
def Key.basic : Key → Bool
  | .tuple l => basicAll l
  | .other b _ _ => b
  | _ => true
def basicAll : List Key → Bool
  | [] => true
  | k :: l => k.basic && basicAll l
end

/-! ### Objects -/

/-- How an object is resolved (`get_type`, pydevd_xml.py 154-250): without children, by its attributes
only, or as one of the containers. -/
inductive Kind where
  | leaf
  | plain
  | dict (items : List (Key × Nat))
  | seq (items : List Nat)
  | set (items : List Nat)

structure Obj where
  kind : Kind
  /-- The names `dir(obj)` gives (none when it raises). -/
  dir : List Str
  /-- `getattr(obj, name)`; `none` is an exception. -/
  get : Str → Option Nat
  /-- The names and values in `obj.__dict__`; `none` when the object has none. -/
  vars : Option (List (Str × Nat))

/-- The objects of the program by their identity, the sum of two of them (also an object), the key that
an object is when it is used as one, and what the program's text for characters shows. -/
structure World where
  obj : Nat → Obj
  plus : Nat → Nat → Option Nat
  keyOf : Nat → Option Key
  printable : Char → Bool

structure Frame where
  locals : List (Str × Nat)
  globals : List (Str × Nat)

/-! ### Rows -/

/-- Where a row comes from: the statement of a resolver that makes it. -/
inductive Via where
  | attr (a : Str)
  | dictAttr (a : Str)
  | key (k : Key)
  | index (i : Nat)
  | len
  | nothing
  deriving Inhabited

/-- The value of a row: an object, the number in "len()", a text made up by the debugger (the traceback
of a failed `getattr`, "too large"), the row "more", or a group of attributes. -/
inductive Val where
  | obj (n : Nat)
  | num (n : Nat)
  | text
  | more
  | group (entries : List (Str × Option Nat × Via))

structure Row where
  name : Str
  val : Val
  via : Via

def cell : Option Nat → Val
  | some n => .obj n
  | none => .text

/-- The limits of pydevd_constants.py: `PYDEVD_CONTAINER_RANDOM_ACCESS_MAX_ITEMS` and
`PYDEVD_CONTAINER_INITIAL_EXPANDED_ITEMS`. -/
structure Limits where
  random : Nat
  initial : Nat

/-- The rows of the attributes (`DefaultResolver`, pydevd_resolver.py 72-90 and 150-212): `dir()`, or
`__dict__` when that gives nothing. -/
def attrRows (o : Obj) : List Row :=
  match o.dir, o.vars with
  | [], some d => d.map fun x => ⟨x.1, .obj x.2, .dictAttr x.1⟩
  | l, _ => l.map fun a => ⟨a, cell (o.get a), .attr a⟩

def tooLarge : Row := ⟨c!"Unable to handle:", .text, .nothing⟩

/-- The rows of the items of a dictionary (pydevd_resolver.py 292-314). -/
def dictRows (p : Char → Bool) (lim : Limits) (items : List (Key × Nat)) : List Row :=
  (items.take lim.random).map (fun x => ⟨reprKey p x.1, .obj x.2, if x.1.basic then .key x.1 else .nothing⟩)
    ++ (if items.length < lim.random then [] else [tooLarge])

/-- The rows of the elements of a list or tuple (pydevd_resolver.py 489-502). -/
def seqRows (lim : Limits) (items : List Nat) : List Row :=
  ((items.take lim.initial).zipIdx.map fun x => ⟨Py.natStr x.2, .obj x.1, .index x.2⟩)
    ++ (if items.length < lim.initial then [] else [⟨c!"more", .more, .nothing⟩])

/-- The rows of the elements of a set (pydevd_resolver.py 545-552). -/
def setRows (lim : Limits) (items : List Nat) : List Row :=
  ((items.take (lim.random + 1)).map fun n => ⟨Py.natStr n, .obj n, .nothing⟩)
    ++ (if items.length ≤ lim.random then [] else [tooLarge])

def lenRow (n : Nat) : Row := ⟨c!"len()", .num n, .len⟩

/-- `resolver.get_contents_debug_adapter_protocol(obj)`. -/
def objRows (w : World) (lim : Limits) (n : Nat) : List Row :=
  match (w.obj n).kind with
  | .leaf => []
  | .plain => attrRows (w.obj n)
  | .dict items => attrRows (w.obj n) ++ dictRows w.printable lim items ++ [lenRow items.length]
  | .seq items => attrRows (w.obj n) ++ seqRows lim items ++ [lenRow items.length]
  | .set items => attrRows (w.obj n) ++ setRows lim items ++ [lenRow items.length]

/-- The contents of any value: what is in a group is what was put there (`DAPGrouperResolver`,
pydevd_resolver.py 215-217); numbers and texts have none. -/
def contents (w : World) (lim : Limits) : Val → List Row
  | .obj n => objRows w lim n
  | .group l => l.map fun x => ⟨x.1, cell x.2.1, x.2.2⟩
  | _ => []

/-! ### Grouping -/

inductive Pres where
  | hide
  | inline
  | group
  deriving DecidableEq

/-- The client's choice how variables are shown and the classification of names
(`get_var_scope`, pydevd_resolver.py 796-830: the four groups are 0 to 3). -/
structure Groups where
  scope : Str → Val → Option Nat
  pres : Nat → Pres
  title : Nat → Str

/-- What is put in a group: attributes and frame variables only (see `Via` and `Val`). -/
def entryOf (r : Row) : Str × Option Nat × Via :=
  (r.name, match r.val with | .obj n => some n | _ => none, r.via)

/-- How a row is presented; a row in no group stays. -/
def presOf (g : Groups) (r : Row) : Pres :=
  match g.scope r.name r.val with
  | some s => g.pres s
  | none => .inline

/-- The rows that stay in the list (pydevd_suspended_frames.py 120-142). -/
def inlineRows (g : Groups) (l : List Row) : List Row := l.filter fun r => presOf g r = .inline

/-- The groups that are made (pydevd_suspended_frames.py 134-148). -/
def groupRows (g : Groups) (l : List Row) : List Row :=
  [0, 1, 2, 3].filterMap fun s =>
    match l.filter (fun r => g.scope r.name r.val = some s && presOf g r = .group) with
    | [] => none
    | es => some ⟨g.title s, .group (es.map entryOf), .nothing⟩

/-- `_group_entries` (112-150) and the list with the groups put first (181-183). -/
def grouped (g : Groups) (v : Val) (l : List Row) : List Row :=
  match v with
  | .group _ => l
  | _ => groupRows g l ++ inlineRows g l

/-! ### Variables -/

structure Var where
  name : Str
  val : Val
  /-- `evaluateName`. -/
  eval : Option Str

/-- The suffix, or the function, a resolver gives with a row (pydevd_resolver.py 78-88, 308-312, 325,
493, 509), applied to the expression of the parent (pydevd_suspended_frames.py 186-192). -/
def childEval (p : Char → Bool) (parent : Str) : Via → Option Str
  | .attr a => some (parent ++ '.' :: a)
  | .dictAttr a => some (parent ++ c!".__dict__[" ++ a ++ c!"]")
  | .key k => some (parent ++ '[' :: (reprKey p k ++ c!"]"))
  | .index i => some (parent ++ '[' :: (Py.natStr i ++ c!"]"))
  | .len => some (c!"len(" ++ parent ++ c!")")
  | .nothing => none

/-- The variable made for a row (pydevd_suspended_frames.py 184-199): an empty expression counts as none. -/
def childVar (w : World) (v : Var) (r : Row) : Var :=
  match v.eval with
  | some (c :: cs) => ⟨r.name, r.val, childEval w.printable (c :: cs) r.via⟩
  | _ => ⟨r.name, r.val, none⟩

/-- `_ObjectVariable.get_children_variables` (pydevd_suspended_frames.py 165-200). -/
def children (w : World) (g : Groups) (lim : Limits) (v : Var) : List Var :=
  (grouped g v.val (contents w lim v.val)).map (childVar w v)

/-- Which of the two scopes of a frame is shown. -/
inductive Scope where
  | locals
  | globals
  deriving DecidableEq

def retDict : Str := c!"__pydevd_ret_val_dict"
def stopMark : Str := c!"_pydev_stop_at_break"

def Frame.dict (f : Frame) : Scope → List (Str × Nat)
  | .locals => f.locals
  | .globals => f.globals

/-- The rows of a frame before grouping (pydevd_suspended_frames.py 276-279). -/
def frameRows (f : Frame) (s : Scope) : List Row :=
  ((f.dict s).filter fun x => x.1 ≠ stopMark).map fun x => ⟨x.1, .obj x.2, .nothing⟩

/-- The values the functions called last returned, one variable each (pydevd_suspended_frames.py
289-301). -/
def returnVars (w : World) (n : Nat) : List Var :=
  match (w.obj n).kind with
  | .dict items => items.map fun x => ⟨(match x.1 with | .str s => s | k => reprKey w.printable k), .obj x.2,
      some (retDict ++ '[' :: (reprKey w.printable x.1 ++ c!"]"))⟩
  | _ => []

/-- The variables made for one row of the frame (pydevd_suspended_frames.py 287-304). -/
def rowVars (w : World) (r : Row) : List Var :=
  if r.name = retDict then
    match r.val with
    | .obj n => returnVars w n
    | _ => []
  else [⟨r.name, r.val, some r.name⟩]

/-- `_FrameVariable.get_children_variables` (pydevd_suspended_frames.py 263-315).  The expression of a
group is its title. -/
def frameVars (w : World) (g : Groups) (f : Frame) (s : Scope) : List Var :=
  (groupRows g (frameRows f s)).map (fun r => ⟨r.name, r.val, some r.name⟩)
    ++ (inlineRows g (frameRows f s)).flatMap (rowVars w)

/-- The variable for the result of an evaluate request (`obtain_as_variable`, pydevd_suspended_frames.py
354-366, from pydevd_comm.py 1277 and 1380): its expression is the one evaluated. -/
def resultVar (expression : Str) (n : Nat) : Var := ⟨expression, .obj n, some expression⟩

end EvalName
