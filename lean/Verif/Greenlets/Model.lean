import Verif.Common.Dict
/-!
Model of showing paused greenlets (with gevent) as threads while their thread is stopped.

Source: `/repo/_pydevd_bundle/pydevd_gevent_integration.py` `greenlet_events` (31-57, with
`GEVENT_SHOW_PAUSED_GREENLETS`), `/repo/_pydevd_bundle/pydevd_custom_frames.py` `add_custom_frame` (57-89),
`update_custom_frame` (92-106), `remove_custom_frame` (109-114); `/repo/pydevd.py` `PyDB.do_wait_suspend` (2156-2177),
`PyDB._do_wait_suspend` (2352-2356); `/repo/_pydevd_bundle/pydevd_net_command_factory_json.py`
`make_custom_frame_created_message`, `make_thread_killed_message` (149-165), `make_list_threads_message` (167-187).

Threads and greenlets are numbers. A number also stands for the text `__frame__:n|thread` which identifies a shown
greenlet (the texts of different numbers differ). The name of a shown greenlet is represented by the greenlet, and so
is its frame.

Simplifications: a call of `greenlet_events` is one step (it works on the entries of greenlets of its own thread, and
each access to the shared dictionary is under its lock); stopping a thread and its resuming are one step each; only
the messages about shown greenlets are kept.
-/

namespace Greenlets

/-- `CustomFrame.thread_id`: the identity of a thread, or a text (the name of a greenlet) put there by mistake. -/
inductive Who where
  | ident (t : Nat)
  | text
  deriving DecidableEq, Repr

/-- `CustomFrame` (pydevd_custom_frames.py 42-54). -/
structure Frame where
  who : Who
  greenlet : Nat
  deriving DecidableEq, Repr

/-- Messages to the client about a shown greenlet. -/
inductive Msg where
  | started (id : Nat)
  | stopped (id : Nat)
  | exited (id : Nat)
  deriving DecidableEq, Repr

structure St where
  /-- `_saved_greenlets_to_custom_frame_thread_id` -/
  saved : List (Nat × Nat) := []
  /-- `CustomFramesContainer.custom_frames` -/
  custom : List (Nat × Frame) := []
  /-- `CustomFramesContainer._next_frame_id` -/
  next : Nat := 0
  /-- stopped threads with their `from_this_thread` -/
  stops : List (Nat × List Nat) := []
  /-- `_additional_thread_id_to_thread_name` -/
  names : List (Nat × Nat) := []
  msgs : List Msg := []
  deriving Repr

inductive Act where
  /-- greenlet `target` goes on in place of greenlet `origin` in thread `t`; `frame`: the origin is not dead and has a
  frame -/
  | switch (t origin target : Nat) (frame : Bool)
  | stop (t : Nat)
  | resume (t : Nat)
  deriving DecidableEq, Repr

/-- `add_custom_frame` (pydevd_custom_frames.py 74-89) and the entry for it (pydevd_gevent_integration.py 39-41). -/
def add (s : St) (t g : Nat) : St :=
  { s with
    next := s.next + 1
    custom := Py.Dict.set s.custom (s.next + 1) { who := .ident t, greenlet := g }
    saved := Py.Dict.set s.saved g (s.next + 1) }

/-- `update_custom_frame` as it is called (pydevd_gevent_integration.py 43): the name is passed for the thread and the
thread for the name, so the thread becomes a text; the frame is not changed (pydevd_custom_frames.py 97-101). -/
def update (s : St) (id : Nat) : St :=
  match Py.Dict.get s.custom id with
  | some f => { s with custom := Py.Dict.set s.custom id { f with who := .text } }
  | none => s

/-- `_saved_greenlets_to_custom_frame_thread_id.pop(g, None)` and `remove_custom_frame`
(pydevd_gevent_integration.py 45-47, 50-52). -/
def drop (s : St) (g : Nat) : St :=
  match Py.Dict.get s.saved g with
  | some id => { s with saved := Py.Dict.erase s.saved g, custom := Py.Dict.erase s.custom id }
  | none => s

/-- `greenlet_events` (pydevd_gevent_integration.py 32-52). -/
def switch (s : St) (t origin target : Nat) (frame : Bool) : St :=
  let s :=
    if frame then
      match Py.Dict.get s.saved origin with
      | none => add s t origin
      | some id => update s id
    else drop s origin
  drop s target

/-- The shown greenlets of a thread (pydevd.py 2159-2160). -/
def ofThread (s : St) (t : Nat) : List (Nat × Frame) := s.custom.filter (fun e => e.2.who == .ident t)

/-- The part of `do_wait_suspend` about shown greenlets (pydevd.py 2156-2177). Every entry is appended to
`from_this_thread`, not only those of the thread (2177). -/
def stop (s : St) (t : Nat) : St :=
  { s with
    msgs := s.msgs ++ (ofThread s t).flatMap (fun e => [.started e.1, .stopped e.1])
    names := (ofThread s t).foldl (fun d e => Py.Dict.set d e.1 e.2.greenlet) s.names
    stops := Py.Dict.set s.stops t (s.custom.map (·.1)) }

/-- The end of `_do_wait_suspend` (pydevd.py 2352-2356). -/
def resume (s : St) (t : Nat) : St :=
  match Py.Dict.get s.stops t with
  | some ids =>
      { s with
        msgs := s.msgs ++ ids.map .exited
        names := ids.foldl (fun d id => Py.Dict.erase d id) s.names
        stops := Py.Dict.erase s.stops t }
  | none => s

def step (s : St) : Act → St
  | .switch t o g fr => switch s t o g fr
  | .stop t => stop s t
  | .resume t => resume s t

def run (acts : List Act) : St := acts.foldl step {}

end Greenlets
