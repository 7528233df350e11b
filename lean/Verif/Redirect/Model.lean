/-!
# Redirecting the program's output

Models `_pydevd_bundle/pydevd_io.py` for one of `sys.stdout` and `sys.stderr`: the stack of
redirections, the one which sends output to the client, and what a write reaches.

A write holds the redirector's lock for all it does (`pydevd_io.py` 33), so it is one step here. A
write made while the same thread is inside a write of the same redirector is dropped (34-35); such
writes are left out, as are writes that raise.
-/
namespace Redirect

/-- Where a text ends up: the program's own stream, output messages to the client
(`RedirectToPyDBIoMessages`, `pydevd_io.py` 62-112), or a buffer (`IOBuf`, 115-144). -/
inductive Sink where
  | own
  | client
  | buffer (i : Nat)
deriving DecidableEq, Repr

/-- A stream object: the program's own, another one of the program, or an `IORedirector` (with its
identity) over a stream (`pydevd_io.py` 7-29). -/
inductive Stream where
  | own
  | other (n : Nat)
  | redirector (id : Nat) (original : Stream) (to : Sink)
deriving DecidableEq, Repr

/-- `_RedirectInfo` (`pydevd_io.py` 147-150). -/
structure Info where
  original : Stream
  redirectTo : Stream
deriving DecidableEq, Repr

/-- The texts each sink got. -/
structure Log where
  own : List String
  client : List String
  buffer : Nat → List String
  other : Nat → List String

/-- `sys.stdout`, the stack and `_pydevd_stdout_redirect_` (`pydevd_io.py` 153-159), the texts
written, and the next identity. -/
structure State where
  std : Stream
  stack : List Info
  holder : Option Info
  log : Log
  fresh : Nat

/-- A text reaches a sink; an empty one is not sent (`pydevd_io.py` 96-112, 132-135). -/
def Log.add (l : Log) (t : String) : Sink → Log
  | .own => { l with own := l.own ++ [t] }
  | .client => if t = "" then l else { l with client := l.client ++ [t] }
  | .buffer i => { l with buffer := fun j => if j = i then l.buffer j ++ [t] else l.buffer j }

/-- `write` of a stream: a redirector writes to its original, then to the other
(`pydevd_io.py` 30-42). -/
def Stream.write : Stream → String → Log → Log
  | .own, t, l => l.add t .own
  | .other n, t, l => { l with other := fun j => if j = n then l.other j ++ [t] else l.other j }
  | .redirector _ o s, t, l => (o.write t l).add t s

/-- `start_redirect(keep_original_redirection=True, redirect_to=...)` (`pydevd_io.py` 162-189); all
callers keep the original. -/
def start (s : State) (to : Sink) : State :=
  let r := Stream.redirector s.fresh s.std to
  { s with std := r, stack := ⟨s.std, r⟩ :: s.stack, fresh := s.fresh + 1 }

/-- `end_redirect` (`pydevd_io.py` 192-201). An empty stack raises `IndexError`: nothing changes. -/
def end_ (s : State) : State :=
  match s.stack with
  | [] => s
  | i :: r => { s with std := i.original, stack := r }

/-- `redirect_stream_to_pydb_io_messages` (`pydevd_io.py` 204-222): whether it redirected. -/
def redirect (s : State) : State × Bool :=
  match s.holder with
  | some _ => (s, false)
  | none =>
    let s' := start s .client
    ({ s' with holder := s'.stack.head? }, true)

/-- `stop_redirect_stream_to_pydb_io_messages` (`pydevd_io.py` 225-241). -/
def stop (s : State) : State :=
  match s.holder with
  | none => s
  | some i =>
    { s with
      holder := none
      stack := s.stack.tail
      std := if s.std = i.redirectTo then i.original else s.std }

/-- What runs: writes to the stream, a sequence, an evaluation in the repl with its context manager
(`redirect_stream_to_pydb_io_messages_context`, `pydevd_io.py` 244-256), output caught in a buffer
(`pydev_runfiles.py` 478-487, `pydev_runfiles_unittest.py` 36-71), or an exception. -/
inductive Prog where
  | skip
  | write (t : String)
  | seq (a b : Prog)
  | repl (p : Prog)
  | buffered (i : Nat) (p : Prog)
  | raise
deriving Repr

/-- Runs a program: the state after, and whether it raised. -/
def exec : Prog → State → State × Bool
  | .skip, s => (s, false)
  | .write t, s => ({ s with log := s.std.write t s.log }, false)
  | .seq a b, s =>
    match exec a s with
    | (s', true) => (s', true)
    | (s', false) => exec b s'
  | .repl p, s =>
    match redirect s with
    | (s', true) => ((stop (exec p s').1), (exec p s').2)
    | (s', false) => exec p s'
  | .buffered i p, s => (end_ (exec p (start s (.buffer i))).1, (exec p (start s (.buffer i))).2)
  | .raise, s => (s, true)

/-! ## `IOBuf`, shared between threads -/

/-- The lists a buffer had (`self.buflist` is the current one); the list a writer has read and not
yet appended to; the list a reader has read; what readers got (`pydevd_io.py` 127-135). -/
structure Buf where
  lists : Nat → List String
  current : Nat
  next : Nat
  writer : Option (Nat × String)
  reader : Option Nat
  got : List String
  gone : List String

/-- The steps: a writer reads `self.buflist`, then appends; a reader reads `self.buflist`, puts in a
new list, then joins the old one. -/
inductive BufAct where
  | load (t : String)
  | append
  | take
  | replace
  | join
deriving DecidableEq, Repr

def bufStep (b : Buf) : BufAct → Buf
  | .load t =>
    match b.writer with
    | none => { b with writer := some (b.current, t) }
    | some _ => b
  | .append =>
    match b.writer with
    | some (l, t) =>
      { b with
        lists := fun j => if j = l then b.lists j ++ [t] else b.lists j
        writer := none
        gone := b.gone ++ [t] }
    | none => b
  | .take => match b.reader with | none => { b with reader := some b.current } | some _ => b
  | .replace =>
    match b.reader with
    | some _ =>
      if b.reader = some b.current then { b with current := b.next, next := b.next + 1 } else b
    | none => b
  | .join =>
    match b.reader with
    | some l =>
      if l ≠ b.current then
        { b with got := b.got ++ b.lists l, reader := none,
                 lists := fun j => if j = l then [] else b.lists j }
      else b
    | none => b

def Buf.empty : Buf := ⟨fun _ => [], 0, 1, none, none, [], []⟩

end Redirect
