import Verif.Common.Lit
/-!
Model of how the functions that start threads are replaced, and of what a thread started through them does.

Source: `/repo/_pydev_bundle/pydev_monkey.py`: `_NewThreadStartupWithTrace` (1099-1143), `_NewThreadStartupWithoutTrace`
(1146-1153), `patch_thread_module` (1174-1247), `patch_thread_modules` (1250-1252), `undo_patch_thread_modules` (1255-1280),
`disable_trace_thread_modules` and `enable_trace_thread_modules` (1283-1296), `get_original_start_new_thread` (1299-1303).

Simplifications: objects of the program are numbers; what a function of the program does is a parameter (it returns or raises
something). Calls of the debugger's own functions (notifications, tracing) do not fail. The concurrency analyser
(`thread_analyser`) is off.
-/

namespace ThreadPatch

abbrev Str := List Char
/-- an object of the program -/
abbrev Obj := Nat

/-- The attributes of `_thread` and `threading` the code looks at. -/
inductive Attr where
  | _start_new_thread
  | start_new_thread
  | start_new
  | start_joinable_thread
  | _start_joinable_thread
  | _original_start_new_thread
  | _original_start_joinable_thread
deriving DecidableEq, Repr

/-- `start_thread_attrs` (1177) -/
def newAttrs : List Attr := [._start_new_thread, .start_new_thread, .start_new]
/-- `start_joinable_attrs` (1178) -/
def joinAttrs : List Attr := [.start_joinable_thread, ._start_joinable_thread]

/-- A function that starts threads. -/
inductive Fn where
  /-- a function with the interface of `start_new_thread`: Python's own, or of a library -/
  | realNew (n : Nat)
  /-- a function with the interface of `start_joinable_thread` -/
  | realJoin (n : Nat)
  /-- `pydev_start_new_thread` with the `_original_start_new_thread` of its closure -/
  | new (original : Fn)
  /-- `pydev_start_joinable_thread` with the `_original_start_joinable_thread` of its closure -/
  | join (original : Fn)
deriving DecidableEq, Repr

/-- A module: the values of these attributes, `none` if it does not have one. -/
abbrev Module := Attr → Option Fn

def Module.put (m : Module) (a : Attr) (f : Option Fn) : Module := fun b => if b = a then f else m b

/-- One round of the loop that saves the originals (1189-1199). -/
def save (m : Module) (a : Attr) : Module :=
  if a ∈ joinAttrs then
    if m ._original_start_joinable_thread = none then m.put ._original_start_joinable_thread (m a) else m
  else
    if m ._original_start_new_thread = none then m.put ._original_start_new_thread (m a) else m

/-- One round of the loop that replaces (1242-1246). -/
def replace (orig : Module) (m : Module) (a : Attr) : Module :=
  if a ∈ joinAttrs then m.put a ((orig ._original_start_joinable_thread).map .join)
  else m.put a ((orig ._original_start_new_thread).map .new)

/-- `patch_thread_module` (1174-1247). The local variables of the closures have the values saved in the module. -/
def patchModule (m : Module) : Module :=
  let attrs := (newAttrs ++ joinAttrs).filter fun a => (m a).isSome
  let saved := attrs.foldl save m
  attrs.foldl (replace saved) saved

/-- `try: t.a = t.original; except: pass` -/
def restore (original : Attr) (m : Module) (a : Attr) : Module :=
  match m original with
  | none => m
  | some f => m.put a (some f)

/-- `undo_patch_thread_modules` (1255-1280) for one module -/
def undoModule (m : Module) : Module :=
  [Attr._start_joinable_thread, .start_joinable_thread].foldl (restore ._original_start_joinable_thread)
    ([Attr.start_new_thread, .start_new, ._start_new_thread].foldl (restore ._original_start_new_thread) m)

/-! ### Starting a thread -/

/-- What `*args` or `**kwargs` of a wrapper is: an object to be unpacked, or the arguments as they were given. -/
inductive Packed (α : Type) where
  | object (o : Obj)
  | given (l : List α)
  /-- the default `()` or `{}` -/
  | empty
deriving DecidableEq, Repr

/-- What is run in a thread. -/
inductive Callable where
  /-- an object of the program -/
  | user (f : Obj)
  /-- `_NewThreadStartupWithTrace` (`traced`) or `_NewThreadStartupWithoutTrace` -/
  | startup (traced : Bool) (f : Callable) (args : Packed Obj) (kwargs : Packed (Str × Obj))
deriving DecidableEq, Repr

/-- The call of a function that starts threads: `start(function, *pos, **kw)`. -/
structure Call where
  function : Callable
  pos : List Obj := []
  kw : List (Str × Obj) := []
deriving DecidableEq, Repr

/-- What Python says about objects. -/
structure Env where
  callable : Obj → Bool
  /-- the elements of a tuple -/
  tuple : Obj → Option (List Obj)
  /-- the entries of a dict whose keys are texts -/
  dict : Obj → Option (List (Str × Obj))
  /-- what `*o` gives -/
  iter : Obj → Option (List Obj)
  /-- what `**o` gives -/
  mapping : Obj → Option (List (Str × Obj))
  /-- `None`, `True` and `()` -/
  none_ : Obj
  true_ : Obj
  unit : Obj

/-- The thread a function of Python or of a library starts: it calls `function(*args, **kw)`. -/
structure Thread where
  /-- the function that started it -/
  starter : Fn
  function : Callable
  args : List Obj := []
  kw : List (Str × Obj) := []
  /-- `handle` and `daemon` of a joinable thread -/
  handle : Option Obj := none
  daemon : Option Obj := none
deriving DecidableEq, Repr

def Callable.ok (e : Env) : Callable → Bool
  | .user f => e.callable f
  | .startup .. => true

def popKw (kw : List (Str × Obj)) (k : Str) (default : Obj) : Obj := ((kw.find? fun p => p.1 = k).map (·.2)).getD default
def dropKw (kw : List (Str × Obj)) (ks : List Str) : List (Str × Obj) := kw.filter fun p => !ks.contains p.1

/-- `_thread.start_new_thread(function, args[, kwargs])` of CPython; `none`: `TypeError` in the caller -/
def realNewCall (e : Env) (n : Nat) (c : Call) : Option Thread :=
  if c.kw ≠ [] ∨ c.function.ok e = false then none
  else match c.pos with
    | [a] => (e.tuple a).map fun args => { starter := .realNew n, function := c.function, args }
    | [a, k] => (e.tuple a).bind fun args => (e.dict k).map fun kw => { starter := .realNew n, function := c.function, args, kw }
    | _ => none

/-- `_thread.start_joinable_thread(function, handle=None, daemon=True)` of CPython (3.13) -/
def realJoinCall (e : Env) (n : Nat) (c : Call) : Option Thread :=
  if c.function.ok e = false ∨ dropKw c.kw [c!"handle", c!"daemon"] ≠ [] then none
  else match c.pos with
    | [] => some { starter := .realJoin n, function := c.function,
                   handle := some (popKw c.kw c!"handle" e.none_), daemon := some (popKw c.kw c!"daemon" e.true_) }
    | [h] => some { starter := .realJoin n, function := c.function, handle := some h, daemon := some (popKw c.kw c!"daemon" e.true_) }
    | [h, d] => some { starter := .realJoin n, function := c.function, handle := some h, daemon := some d }
    | _ => none

/-- Calling a function that starts threads; `none`: an exception in the caller. `traced`: `_UseNewThreadStartup` is the one with
trace (1156). -/
def call (e : Env) (traced : Bool) : Fn → Call → Option Thread
  | .realNew n, c => realNewCall e n c
  | .realJoin n, c => realJoinCall e n c
  -- `pydev_start_new_thread` (1202-1207)
  | .new original, c =>
    match c.pos, c.kw with
    | [], [] => call e traced original { function := .startup traced c.function .empty .empty, pos := [e.unit] }
    | [a], [] => call e traced original { function := .startup traced c.function (.object a) .empty, pos := [e.unit] }
    | [a, k], [] => call e traced original { function := .startup traced c.function (.object a) (.object k), pos := [e.unit] }
    | _, _ => none
  -- `pydev_start_joinable_thread` (1210-1220)
  | .join original, c =>
    call e traced original
      { function := .startup traced c.function (.given c.pos) (.given (dropKw c.kw [c!"handle", c!"daemon"]))
        kw := [(c!"handle", popKw c.kw c!"handle" e.none_), (c!"daemon", popKw c.kw c!"daemon" e.true_)] }

/-! ### In the thread -/

/-- How a function of the program ends. -/
inductive Outcome where
  | returns (o : Obj)
  | raises (o : Obj)
  /-- it could not be called with these arguments -/
  | typeError
deriving DecidableEq, Repr

inductive Event where
  /-- `py_db.notify_thread_created` and the tracing of the thread (1122-1123) -/
  | created
  | traceOn
  /-- the function of the program is called -/
  | ran (f : Obj) (args : List Obj) (kw : List (Str × Obj))
  /-- `py_db.disable_tracing()`, `py_db.notify_thread_not_alive` (1138-1141) -/
  | traceOff
  | notAlive
deriving DecidableEq, Repr

/-- The thread when it starts to run: whether there is a debugger, whether it is one of the debugger's own threads, and what
functions do. -/
structure World where
  debugger : Bool
  own : Bool
  does : Obj → List Obj → List (Str × Obj) → Outcome

def unpack (iter : Obj → Option (List α)) : Packed α → Option (List α)
  | .object o => iter o
  | .given l => some l
  | .empty => some []

/-- `function(*args, **kw)` in the new thread: `_NewThreadStartupWithTrace.__call__` (1105-1143) and
`_NewThreadStartupWithoutTrace.__call__` (1152-1153), which take no arguments -/
def run (e : Env) (w : World) : Callable → List Obj → List (Str × Obj) → List Event × Outcome
  | .user f, args, kw => ([.ran f args kw], w.does f args kw)
  | .startup traced f a k, args, kw =>
    if args ≠ [] ∨ kw ≠ [] then ([], .typeError)
    else
      let r := match unpack e.iter a, unpack e.mapping k with
        | some args, some kw => run e w f args kw
        | _, _ => ([], .typeError)
      if traced && w.debugger && !w.own then (.created :: .traceOn :: r.1 ++ [.traceOff, .notAlive], r.2) else r

def Thread.run (e : Env) (w : World) (t : Thread) : List Event × Outcome := ThreadPatch.run e w t.function t.args t.kw

/-! ### Histories -/

/-- `_thread` and `threading` (1159-1171) -/
inductive Mod where
  | _thread
  | threading
deriving DecidableEq, Repr

structure State where
  module : Mod → Module
  /-- `_UseNewThreadStartup` -/
  traced : Bool := true

inductive Op where
  /-- `patch_thread_modules` -/
  | patch
  /-- `undo_patch_thread_modules` -/
  | undo
  /-- `enable_trace_thread_modules`, `disable_trace_thread_modules` -/
  | enable
  | disable
  /-- a library puts another function in -/
  | assign (m : Mod) (a : Attr) (f : Fn)

def step (s : State) : Op → State
  | .patch => { s with module := fun m => patchModule (s.module m) }
  | .undo => { s with module := fun m => undoModule (s.module m) }
  | .enable => { s with traced := true }
  | .disable => { s with traced := false }
  | .assign m a f => { s with module := fun m' => if m' = m then (s.module m).put a (some f) else s.module m' }

def runOps (s : State) (ops : List Op) : State := ops.foldl step s

/-- The program calls `module.attr(function, *pos, **kw)`; `none`: there is no such attribute or an exception. -/
def start (e : Env) (s : State) (m : Mod) (a : Attr) (c : Call) : Option Thread := (s.module m a).bind fun f => call e s.traced f c

end ThreadPatch
