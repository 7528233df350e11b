import Verif.TryExcept.Model
import Verif.Common.Lit
/-!
Model of how the tracing debugger finds the frame in which exceptions count as uncaught, and of what it does with the
exceptions that get there.

Source: `/repo/_pydevd_bundle/pydevd_trace_dispatch_regular.py` `fix_top_level_trace_and_get_trace_func` (82-213),
`trace_dispatch` (216-223), `TopLevelThreadTracerOnlyUnhandledExceptions` (237-257), `TopLevelThreadTracerNoBackFrame`
(276-336, whose `trace_dispatch_and_unhandled_exceptions` is `TryExcept.trace`, see C25); `/repo/pydevd.py`
`PyDB.set_trace_for_frame_and_parents` (2377-2424), which is called when a thread goes on from a stop.

One thread is modelled: its stack, the tracing function of the thread (`sys.settrace`) and the tracing functions of the
frames (`f_trace`). As in CPython a call is given to the thread's function, whose result becomes the frame's; all other
events are given to the frame's own function, if it has one. An exception which goes through a frame gives that frame
an exception event when it arrives and a return event when it leaves; `raise` without an exception gives no event of
its own.

Simplifications: what the tracers of ordinary frames do (`ThreadTracer`, `PyDBFrame`) is modelled elsewhere; here they
are one tracer `other` which leaves the other frames alone. A tracer which takes itself off a frame has no effect on
what is modelled here and is left out. Exceptions are numbers.
-/

namespace TopLevel
open TryExcept (Info Tracer Ev)

/-- What the search looks at in a frame (91-126): `co_filename`, `co_name`, whether the local `self` is a
`threading.Thread`; and `plain`: whether the file is neither of the debugger nor of the libraries it never traces
(`get_file_type` is `None`). -/
structure Fn where
  file : List Char
  name : List Char
  self : Bool := false
  plain : Bool := true
  deriving DecidableEq, Repr

/-- `f_trace`. -/
inductive Tr where
  /-- `PyDB.trace_dispatch` -/
  | first
  /-- `TopLevelThreadTracerOnlyUnhandledExceptions` -/
  | only
  /-- `TopLevelThreadTracerNoBackFrame` -/
  | top (t : Tracer)
  /-- `ThreadTracer` or `PyDBFrame` -/
  | other
  deriving DecidableEq, Repr

structure Frame where
  fn : Fn
  tr : Option Tr := none
  deriving DecidableEq, Repr

/-- The tracing function of the thread: `PyDB.trace_dispatch` or a `ThreadTracer`. -/
inductive Glob where
  | first
  | thread
  deriving DecidableEq, Repr

/-- What is fixed: is the thread among `threading._active` (150-153), is it to be traced (158-160), where are the
`try` statements of a function (`collect_try_except_info`). -/
structure Cfg where
  known : Bool := true
  traced : Bool := true
  infos : Fn → List Info := fun _ => []

structure St where
  glob : Option Glob := some .first
  /-- innermost frame first -/
  stack : List Frame := []
  /-- `suspended_at_unhandled` -/
  suspended : Bool := false
  /-- exceptions given to `stop_on_unhandled_exception` -/
  reports : List Nat := []
  deriving DecidableEq, Repr

/-- The name of the file without directories and without extension (106-118). -/
def stem (file : List Char) : List Char :=
  let base := (file.reverse.takeWhile (fun c => c != '/' && c != '\\')).reverse
  if '.' ∈ base then ((base.reverse.dropWhile (· != '.')).drop 1).reverse else base

inductive Look where
  /-- `return None, False` -/
  | leave
  /-- the loop ended at the `i`-th frame; `force`: `force_only_unhandled_tracer`; `found`: the thread was found there -/
  | at (i : Nat) (force found : Bool)
  /-- no frame was found -/
  | off
  deriving DecidableEq, Repr

/-- The loop (101-148). -/
def look (force : Bool) (i : Nat) : List Fn → Look
  | [] => .off
  | f :: rest =>
      if stem f.file = c!"threading" then
        if f.name = c!"__bootstrap" ∨ f.name = c!"_bootstrap" then .leave
        else if f.name = c!"__bootstrap_inner" ∨ f.name = c!"_bootstrap_inner" then
          if f.self then .at i true true else look true (i + 1) rest
        else look force (i + 1) rest
      else if stem f.file = c!"pydev_monkey" then
        if f.name = c!"__call__" then .at i true false else look force (i + 1) rest
      else if stem f.file = c!"pydevd" then
        if f.name = c!"run" ∨ f.name = c!"main" then .leave
        else if f.name = c!"_exec" then .at i true false
        else look force (i + 1) rest
      else if stem f.file = c!"pydevd_tracing" then .leave
      else if rest = [] then .at i force false
      else look force (i + 1) rest

def setTr (stack : List Frame) (i : Nat) (tr : Option Tr) : List Frame :=
  stack.modify i (fun f => { f with tr := tr })

/-- What the caller of `fix_top_level_trace_and_get_trace_func` gets. -/
inductive Res where
  | none
  /-- the tracer of the current frame, which is the one found -/
  | own
  /-- the tracer of the thread, to be put in place -/
  | thread
  deriving DecidableEq, Repr

/-- The tracer for the frame found (180-190). -/
def tracerFor (n i : Nat) (force : Bool) : Tr := if i + 1 = n ∧ force = false then .top {} else .only

/-- `fix_top_level_trace_and_get_trace_func` (82-213). -/
def fixTop (cfg : Cfg) (s : St) : St × Res :=
  match look false 0 (s.stack.map (·.fn)) with
  | .leave => (s, .none)
  | .at i force found =>
      if !found && !cfg.known then (s, .none)
      else if !cfg.traced then ({ s with glob := none }, .none)
      else
        let s := { s with stack := setTr s.stack i (some (tracerFor s.stack.length i force)) }
        if i = 0 then (s, .own) else (s, .thread)
  | .off =>
      if !cfg.known then (s, .none)
      else if !cfg.traced then ({ s with glob := none }, .none)
      else (s, .thread)

/-- An event given to the innermost frame's tracer, which is not `first`: `trace_unhandled_exceptions` (241-253),
`trace_dispatch_and_unhandled_exceptions` (301-333). -/
def trace (cfg : Cfg) (s : St) (ev : Ev) : St :=
  match s.stack with
  | [] => s
  | f :: _ =>
      match f.tr with
      | some .only =>
          match ev with
          | .exception _ e =>
              if s.suspended then s else { s with suspended := true, reports := s.reports ++ [e] }
          | _ => s
      | some (.top t) =>
          let r := TryExcept.trace (cfg.infos f.fn) s.suspended t ev
          { s with stack := setTr s.stack 0 (some (.top r.1)), reports := s.reports ++ r.2.toList }
      | _ => s

/-- An event other than a call in the innermost frame; `trace_dispatch` (216-223) where that is its tracer. -/
def event (cfg : Cfg) (s : St) (ev : Ev) : St :=
  if s.glob = none then s
  else
    match s.stack with
    | [] => s
    | f :: _ =>
        if f.tr = some .first then
          match fixTop cfg s with
          | (s, .none) => { s with stack := setTr s.stack 0 none }
          | (s, .own) => trace cfg s ev
          | (s, .thread) => { s with glob := some .thread, stack := setTr s.stack 0 (some .other) }
        else trace cfg s ev

/-- A call: the thread's function decides on the tracer of the new frame. -/
def call (cfg : Cfg) (s : St) (fn : Fn) : St :=
  let s := { s with stack := { fn } :: s.stack }
  match s.glob with
  | none => s
  | some .thread => { s with stack := setTr s.stack 0 (some .other) }
  | some .first =>
      match fixTop cfg s with
      | (s, .none) => s
      | (s, .own) => trace cfg s .other
      | (s, .thread) => { s with glob := some .thread, stack := setTr s.stack 0 (some .other) }

/-- `set_trace_for_frame_and_parents` (2377-2424) from the innermost frame, which is in the middle of an event: its
tracer is put back at the end of the event. -/
def retrace (stack : List Frame) : List Frame :=
  match stack with
  | [] => []
  | f :: rest => f :: rest.map (fun f => if f.fn.plain then { f with tr := some .first } else f)

inductive Act where
  | call (fn : Fn)
  /-- a line event -/
  | line
  /-- an exception is raised in the innermost frame -/
  | raise (line e : Nat)
  /-- the innermost frame returns -/
  | ret (line : Nat)
  /-- exception `e` leaves the innermost frame, and arrives at line `back` of the frame below -/
  | leave (line e back : Nat)
  /-- the thread is stopped by the debugger and goes on -/
  | stop
  deriving DecidableEq, Repr

def step (cfg : Cfg) (s : St) : Act → St
  | .call fn => call cfg s fn
  | .line => event cfg s .other
  | .raise l e => event cfg s (.exception l e)
  | .ret l =>
      let s := event cfg s (.return_ l)
      { s with stack := s.stack.drop 1 }
  | .leave l e b =>
      let s := event cfg s (.return_ l)
      event cfg { s with stack := s.stack.drop 1 } (.exception b e)
  | .stop => { s with stack := retrace s.stack }

def run (cfg : Cfg) (s : St) (acts : List Act) : St := acts.foldl (step cfg) s

end TopLevel
