/-!
Model of the jump events which the debugger uses with `sys.monitoring` on Python 3.12, where no line event comes when a
loop goes round within one line.

Source: `/repo/_pydevd_sys_monitoring/_pydevd_sys_monitoring.py` `FuncCodeInfo.get_line_of_offset` (447-452),
`_jump_event` (1396-1447), the beginning of `_line_event` (1456-1482).

Simplifications: the thread is traced and the code is not filtered out; what is done with a line that is considered
(`_internal_line_event`) is modelled in `Monitor` and `MonStep`; here the lines considered are listed. Files and code
objects are numbers.
-/

namespace Jump

/-- A code object: its file and `co_lines()`; entries without a line are left out (449). -/
structure Code where
  id : Nat
  file : Nat
  lines : List (Nat × Nat × Nat)
  deriving DecidableEq, Repr

/-- `get_line_of_offset` (447-452); `none` is -1. Note `offset <= end`. -/
def lineOf (c : Code) (off : Nat) : Option Nat :=
  (c.lines.find? (fun e => e.1 ≤ off && off ≤ e.2.1)).map (·.2.2)

/-- `line_to_skip is line` (1478): two numbers made at different times are the same object only up to 256. -/
def sameObject (a b : Nat) : Bool := a = b && a ≤ 256

structure St where
  /-- `f_disable_next_line_if_match` -/
  skip : Option (Nat × Nat) := none
  /-- jumps for which the event was switched off -/
  off : List (Nat × Nat) := []
  /-- lines considered, with their files -/
  seen : List (Nat × Nat) := []
  deriving DecidableEq, Repr

inductive Ev where
  /-- `line`: `f_lineno` of the frame, which is at the jump -/
  | jump (c : Code) (start target line : Nat)
  | line (c : Code) (line : Nat)
  deriving DecidableEq, Repr

/-- `_jump_event` (1413-1447). The event is not made where it was switched off. -/
def jumpEvent (s : St) (c : Code) (start target line : Nat) : St :=
  if (c.id, start) ∈ s.off then s
  else
    let s := { s with skip := none }
    if start < target then { s with off := (c.id, start) :: s.off }
    else if lineOf c start ≠ lineOf c target then { s with off := (c.id, start) :: s.off }
    else { s with skip := some (c.file, line), seen := s.seen ++ [(c.file, line)] }

/-- `_line_event` (1474-1497). -/
def lineEvent (s : St) (c : Code) (line : Nat) : St :=
  match s.skip with
  | some (file, l) =>
      let s := { s with skip := none }
      if sameObject l line && file == c.file then s else { s with seen := s.seen ++ [(c.file, line)] }
  | none => { s with seen := s.seen ++ [(c.file, line)] }

def step (s : St) : Ev → St
  | .jump c a b l => jumpEvent s c a b l
  | .line c l => lineEvent s c l

def run (s : St) (evs : List Ev) : St := evs.foldl step s

end Jump
