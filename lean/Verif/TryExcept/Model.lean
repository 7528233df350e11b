/-!
Model of the decision whether an exception leaves a function unhandled.

Source: `/repo/_pydevd_bundle/pydevd_collect_bytecode_info.py` `TryExceptInfo` (12-35), `_Visitor` (416-467),
`collect_try_except_info_from_contents` (476-480); `/repo/pydevd.py` `collect_try_except_info` (783-802);
`/repo/_pydevd_bundle/pydevd_frame.py` `is_unhandled_exception` (78-112);
`/repo/_pydevd_bundle/pydevd_trace_dispatch_regular.py` `TopLevelThreadTracerNoBackFrame` (289-333).

Simplifications: only the path through the source (the bytecode fallback is not modelled: `none` stands for it);
Python 3.8 or later, so that handlers have `end_lineno` and `max_line` is not used. The syntax tree keeps only what the
visitor looks at.
-/

namespace TryExcept

/-! ### Syntax trees -/

mutual
/-- A node of the `ast` module. -/
inductive Tree where
  /-- any node without a `visit_` method -/
  | plain (line : Nat) (kids : Forest)
  /-- `ast.Raise`; `bare` is `exc is None` -/
  | raise_ (line : Nat) (bare : Bool) (kids : Forest)
  /-- `ast.Try`: body, handlers, then `orelse` and `finalbody` -/
  | try_ (line : Nat) (body : Forest) (handlers : Handlers) (rest : Forest)
  /-- `ast.TryStar` (`except*`): the visitor has no method for it -/
  | tryStar (line : Nat) (body : Forest) (handlers : Handlers) (rest : Forest)
inductive Forest where
  | nil
  | cons (t : Tree) (f : Forest)
/-- `ast.ExceptHandler` nodes -/
inductive Handlers where
  | nil
  | cons (line endLine : Nat) (kids : Forest) (hs : Handlers)
end

/-- `TryExceptInfo` (12-29); -1 is `none`. `ignore` is only in the visitor's stack entries. -/
structure Info where
  tryLine : Nat
  exceptLine : Option Nat := none
  exceptEnd : Option Nat := none
  raises : List Nat := []
deriving DecidableEq, Repr

/-- `is_line_in_try_block` (31-32): with `except_line == -1` nothing is below it -/
def Info.inTry (i : Info) (l : Nat) : Bool := decide (i.tryLine ≤ l) && (match i.exceptLine with | some e => decide (l < e) | none => false)
/-- `is_line_in_except_block` (34-35): with both at -1 no line is between them -/
def Info.inExcept (i : Info) (l : Nat) : Bool :=
  (match i.exceptLine with | some e => decide (e ≤ l) | none => true) && (match i.exceptEnd with | some e => decide (l ≤ e) | none => false)

/-- An object of `_stack`, with the number of times it is in `_in_except_stack`. -/
structure Open where
  info : Info
  ignore : Bool := true
  inExcept : Nat := 0
deriving DecidableEq, Repr

structure Visitor where
  /-- `try_except_infos` -/
  infos : List Info := []
  stack : List Open := []
deriving DecidableEq, Repr

/-- the loop of `visit_Raise` (456-458) -/
def addRaise (l : Nat) (o : Open) : Open := { o with info := { o.info with raises := o.info.raises ++ List.replicate o.inExcept l } }

/-- Start of `visit_ExceptHandler` (441-445); `self._stack[-1]` raises on an empty stack. -/
def enterHandler (line : Nat) (v : Visitor) : Option Visitor :=
  match v.stack with
  | [] => none
  | o :: st =>
    some { v with stack := { o with ignore := false, inExcept := o.inExcept + 1,
                                    info := { o.info with exceptLine := some (o.info.exceptLine.getD line) } } :: st }

/-- End of `visit_ExceptHandler` (447-451). `info` is the object taken at the start, which is on top again. -/
def leaveHandler (endLine : Nat) (v : Visitor) : Option Visitor :=
  match v.stack with
  | [] => none
  | o :: st =>
    some { v with stack := { o with inExcept := o.inExcept - 1, info := { o.info with exceptEnd := some endLine } } :: st }

/-- End of `visit_Try` (433-435). -/
def leaveTry (v : Visitor) : Option Visitor :=
  match v.stack with
  | [] => none
  | o :: st => some { infos := if o.ignore then v.infos else o.info :: v.infos, stack := st }

mutual
/-- `_Visitor.visit` -/
def visit : Tree → Visitor → Option Visitor
  | .plain _ kids, v => visitForest kids v
  | .raise_ l bare kids, v => visitForest kids (if bare then { v with stack := v.stack.map (addRaise l) } else v)
  | .try_ l body hs rest, v =>
    (visitForest body { v with stack := { info := { tryLine := l } } :: v.stack }).bind fun v =>
    (visitHandlers hs v).bind fun v =>
    (visitForest rest v).bind leaveTry
  | .tryStar _ body hs rest, v =>
    (visitForest body v).bind fun v =>
    (visitHandlers hs v).bind fun v =>
    visitForest rest v
def visitForest : Forest → Visitor → Option Visitor
  | .nil, v => some v
  | .cons t f, v => (visit t v).bind fun v => visitForest f v
def visitHandlers : Handlers → Visitor → Option Visitor
  | .nil, v => some v
  | .cons line endLine kids hs, v =>
    (enterHandler line v).bind fun v =>
    (visitForest kids v).bind fun v =>
    (leaveHandler endLine v).bind fun v =>
    visitHandlers hs v
end

/-- `collect_try_except_info_from_contents` (476-480); `none` is the `IndexError`. -/
def collectSource (module : Forest) : Option (List Info) := (visitForest module {}).map (·.infos)

/-- `PyDB.collect_try_except_info` (783-802) on an existing file; `lines` are the line starts of the code object,
`fallback` the answer from the bytecode. -/
def collect (module : Forest) (lines : List Nat) (fallback : List Info) : List Info :=
  match collectSource module with
  | none => fallback
  | some infos => infos.filter fun i => lines.any (· ≤ i.tryLine) && lines.any (i.tryLine ≤ ·)

/-- `is_unhandled_exception` (78-112) -/
def isUnhandled (infos : List Info) (frameLine lastRaise : Nat) (raiseLines : List Nat) : Bool :=
  if raiseLines.contains frameLine then true
  else if infos.isEmpty then true
  else if (infos.filter (·.inTry lastRaise)).isEmpty then true
  else infos.any fun i => i.inExcept frameLine && (i.exceptLine = some frameLine || i.raises.contains frameLine)

/-! ### The top-level tracer -/

inductive Ev where
  | exception (line : Nat) (exc : Nat)
  | return_ (line : Nat)
  | other
deriving DecidableEq, Repr

/-- `TopLevelThreadTracerNoBackFrame` -/
structure Tracer where
  lastExc : Option Nat := none
  raiseLines : List Nat := []
  lastRaise : Option Nat := none
deriving DecidableEq, Repr

/-- `trace_dispatch_and_unhandled_exceptions` (301-322): the exception given to `stop_on_unhandled_exception`. -/
def trace (infos : List Info) (suspendedAtUnhandled : Bool) (t : Tracer) : Ev → Tracer × Option Nat
  | .exception l e => ({ lastExc := some e, raiseLines := l :: t.raiseLines, lastRaise := some l }, none)
  | .return_ l =>
    match t.lastExc, t.lastRaise with
    | some e, some r =>
      ({ t with lastExc := none }, if !suspendedAtUnhandled && isUnhandled infos l r t.raiseLines then some e else none)
    | _, _ => (t, none)
  | .other => (t, none)

end TryExcept
