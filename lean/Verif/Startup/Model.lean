/-!
# Starting to debug: `settrace`, launching a script, `_enable_attach` and `_wait_for_attach`

Model of how a process gets a debugger and how the user's threads wait for the client.

* `pydevd.py` 889-940 (`wait_for_ready_to_run`, `on_initialize`, `on_configuration_done`, `is_attached`,
  `on_disconnect`, `block_until_configuration_done`);
* `pydevd.py` 1475-1578 (`initialize_network`, `connect`, `create_wait_for_connection_thread`,
  `_WaitForConnectionThread`);
* `pydevd.py` 2571-2683 (`run`, up to the first line of the script), 2853-2918 (`_enable_attach`,
  `_wait_for_attach`, `_is_attached`), 3002-3181 (`settrace`, `_locked_settrace`), 3184-3215 (`stoptrace`) and
  3486-3697 (`main`, the parts around `connect` and `run`);
* `_pydevd_bundle/pydevd_api.py` 112-122, 214-222 and `pydevd_process_net_command_json.py` 281-293, 521-542,
  727-755 (the requests which decide when the program may go on).

The model is an interleaving one.  Any number of user threads may be inside `settrace` and `_wait_for_attach`
at the same time, every connection has a thread reading its requests, and every waiting socket has a thread
accepting connections.  One action is one step of one of those threads; an action which is not possible in a
state leaves it as it is.  `hist` is a ghost: what happened so far, in order.

Simplifications: authentication is not modelled here (`Auth`); a `disconnect` request is one without
`terminateDebuggee`; setting the trace function and marking the thread as suspended, which come after what is
modelled and cannot block, are not modelled; `settrace` takes `_set_trace_lock` as a plain lock
(`ForkSafeLock`, no fork here); `dispose_and_kill_all_pydevd_threads` is one step that unregisters the
debugger and closes its waiting socket; a reader thread which was asked to stop may go on handling requests
(it only looks at the flag between two reads), so requests of a connection are accepted at any time.
-/
namespace Startup

/-- The requests which matter here.  `run` is `CMD_RUN` of the line protocol
(`pydevd_process_net_command.py` 91-92); `other` is any other request. -/
inductive Req
  | initialize | launch | attach | configurationDone | run | setBreakpoints | disconnect | other
  deriving DecidableEq, Repr

/-- The arguments of a call which decide how it goes on (`pydevd.py` 2920-2938): `wait_for_ready_to_run`,
`block_until_connected` and the port.  `attach`: the call is `_enable_attach` (2853-2892).  `script`: it is not
a call but `main` launching the user's script (3486). -/
structure Args where
  wait : Bool := true
  block : Bool := true
  port : Nat := 5678
  attach : Bool := false
  script : Bool := false
  deriving DecidableEq, Repr

/-- Where a thread is. -/
inductive PC
  /-- running user code (or not started) -/
  | idle
  /-- at `with _set_trace_lock` (3007) -/
  | want (a : Args)
  /-- has the lock, before `get_global_debugger()` (3065) -/
  | locked (a : Args)
  /-- has created the debugger `d`, before `connect` (3089-3094, 3686) -/
  | connecting (a : Args) (d : Nat)
  /-- after `connect`, before `if not wait_for_ready_to_run` (3114) -/
  | connected (a : Args) (d : Nat)
  /-- in `wait_for_ready_to_run` (889-894) -/
  | polling (a : Args) (d : Nat)
  /-- setting up the tracing: cannot block any more (3118-3181) -/
  | tracing (a : Args) (d : Nat)
  /-- `_enable_attach` after `settrace`, before it reads the global debugger (2890) -/
  | reread (a : Args)
  /-- `_enable_attach` in `wait_for_server_socket_ready` (2891) -/
  | socket (a : Args) (d : Nat)
  /-- `_wait_for_attach` in `block_until_configuration_done` (929-940), with the `cancel` event given -/
  | attaching (d : Nat) (cancel : Option Nat)
  deriving DecidableEq, Repr

/-- The thread which waits for connections (1530-1578): not there, not yet at `create_server_socket`,
accepting, between accepting a connection and `initialize_network`, or ended. -/
inductive Listener
  | none | starting | up | swapping | dead
  deriving DecidableEq, Repr

/-- A `PyDB`: `ready_to_run`, `_on_configuration_done_event`, its `reader` (a connection) and the thread that
waits for connections. -/
structure Dbg where
  ready : Bool := false
  configured : Bool := false
  reader : Option Nat := none
  listener : Listener := .none
  deriving DecidableEq, Repr

/-- A connection: its debugger and the `_launch_or_attach_request_done` of its command processor
(`pydevd_process_net_command_json.py` 148). -/
structure Conn where
  dbg : Nat := 0
  launched : Bool := false
  deriving DecidableEq, Repr

/-- What happened. -/
inductive Ev
  /-- a debugger was created (and registered) on behalf of the call -/
  | made (t d : Nat) (a : Args)
  /-- the debugger tried to connect to the client -/
  | attempt (d : Nat) (ok : Bool)
  /-- the debugger's waiting socket was bound -/
  | listening (d : Nat)
  /-- a client's new connection replaced a connection which was still there -/
  | dropped (d : Nat)
  /-- a request of the connection was handled; `ok`: it was not refused -/
  | handled (d c : Nat) (r : Req) (ok : Bool)
  /-- the call returned; for a script: its first line is about to run -/
  | returned (t d : Nat) (a : Args)
  /-- the call raised an exception -/
  | raised (t : Nat) (a : Args)
  /-- the process ended before the script started -/
  | exited
  /-- `stoptrace` -/
  | disposed (d : Nat)
  /-- an event given as `cancel` was set by the user -/
  | cancelled (e : Nat)
  /-- `_wait_for_attach` returned -/
  | attached (t d : Nat) (cancel : Option Nat)
  deriving DecidableEq, Repr

/-- The whole process. -/
structure St where
  /-- user code runs (a script has started, or pydevd is used from a running program) -/
  user : Bool
  /-- who has `_set_trace_lock` -/
  lock : Option Nat := none
  /-- `GlobalDebuggerHolder.global_dbg` -/
  glob : Option Nat := none
  /-- the port in `SetupHolder.setup` -/
  setup : Option Nat := none
  pc : Nat → PC := fun _ => .idle
  dbg : Nat → Dbg := fun _ => {}
  /-- the identity of the next `PyDB` -/
  next : Nat := 0
  conn : Nat → Conn := fun _ => {}
  /-- the identity of the next connection -/
  nextC : Nat := 0
  /-- the events given as `cancel` -/
  cancel : Nat → Bool := fun _ => false
  hist : List Ev := []

/-- A function changed at one point. -/
def upd {α : Type} (f : Nat → α) (k : Nat) (v : α) : Nat → α := fun n => if n = k then v else f n

/-- One step of one thread. -/
inductive Act
  /-- thread `t` calls `settrace` or `_enable_attach` -/
  | call (t : Nat) (a : Args)
  | acquire (t : Nat)
  | enter (t : Nat)
  /-- `py_db.connect` succeeds or raises (or the waiting thread is created) -/
  | connect (t : Nat) (ok : Bool)
  | setReady (t : Nat)
  | poll (t : Nat)
  | finish (t : Nat)
  | reread (t : Nat)
  | socketReady (t : Nat)
  /-- `create_server_socket` in the waiting thread -/
  | listen (d : Nat) (ok : Bool)
  /-- a connection is accepted -/
  | accept (d : Nat)
  /-- `initialize_network` for the accepted connection -/
  | network (d : Nat)
  /-- the reader of a connection handles a request -/
  | handle (c : Nat) (r : Req)
  | stop (t : Nat)
  | waitAttach (t : Nat) (cancel : Option Nat)
  | cancelWait (e : Nat)
  | pollAttach (t : Nat)
  deriving DecidableEq, Repr

/-- Another port is in use (`pydevd.py` 2873-2875). -/
def otherPort (setup : Option Nat) (port : Nat) : Bool :=
  match setup with
  | some p => p != port
  | none => false

/-- `settrace` and `_enable_attach` up to the lock (`pydevd.py` 2870-2876, 3007): `_enable_attach` raises an
`AssertionError` if another port is in use. -/
def call (s : St) (t : Nat) (a : Args) : St :=
  if s.user && s.pc t = .idle && !a.script then
    if a.attach && otherPort s.setup a.port then
      { s with hist := s.hist ++ [.raised t a] }
    else { s with pc := upd s.pc t (.want a) }
  else s

/-- Taking `_set_trace_lock` (`pydevd.py` 3007). -/
def acquire (s : St) (t : Nat) : St :=
  match s.pc t with
  | .want a => if s.lock = none then { s with lock := some t, pc := upd s.pc t (.locked a) } else s
  | _ => s

/-- `py_db = get_global_debugger()` and, if there is none, `PyDB()` — whose constructor registers it as the
global debugger (777) — and the setup (`pydevd.py` 3065-3079). -/
def enter (s : St) (t : Nat) : St :=
  match s.pc t with
  | .locked a =>
    match s.glob with
    | some d => { s with pc := upd s.pc t (.tracing a d) }
    | none =>
      { s with
        glob := some s.next, dbg := upd s.dbg s.next {}, next := s.next + 1
        setup := some (s.setup.getD a.port)
        pc := upd s.pc t (.connecting a s.next)
        hist := s.hist ++ [.made t s.next a] }
  | _ => s

/-- `initialize_network` (`pydevd.py` 1475-1499): a new reader, with a new command processor. -/
def network (s : St) (d : Nat) : St :=
  { s with
    dbg := upd s.dbg d { s.dbg d with reader := some s.nextC }
    conn := upd s.conn s.nextC { dbg := d, launched := false }
    nextC := s.nextC + 1 }

/-- `if block_until_connected` (`pydevd.py` 3089-3094): connect, or let a thread wait for the connection.  If
`connect` raises, the exception leaves `settrace` (releasing the lock); `main` ends the process (3685-3690). -/
def connect (s : St) (t : Nat) (ok : Bool) : St :=
  match s.pc t with
  | .connecting a d =>
    if a.block then
      if ok then
        let s' := network s d
        { s' with pc := upd s.pc t (.connected a d), hist := s.hist ++ [.attempt d true] }
      else if a.script then
        { s with pc := upd s.pc t .idle, hist := s.hist ++ [.attempt d false, .exited] }
      else
        { s with lock := none, pc := upd s.pc t .idle, hist := s.hist ++ [.attempt d false, .raised t a] }
    else
      { s with
        dbg := upd s.dbg d { s.dbg d with listener := .starting }
        pc := upd s.pc t (.connected a d) }
  | _ => s

/-- `if not wait_for_ready_to_run: py_db.ready_to_run = True` (`pydevd.py` 3114-3115). -/
def setReady (s : St) (t : Nat) : St :=
  match s.pc t with
  | .connected a d =>
    { s with
      dbg := if a.wait then s.dbg else upd s.dbg d { s.dbg d with ready := true }
      pc := upd s.pc t (.polling a d) }
  | _ => s

/-- One round of `wait_for_ready_to_run` (`pydevd.py` 889-894). -/
def poll (s : St) (t : Nat) : St :=
  match s.pc t with
  | .polling a d => if (s.dbg d).ready then { s with pc := upd s.pc t (.tracing a d) } else s
  | _ => s

/-- The rest of `settrace`, releasing the lock (`pydevd.py` 3118-3181), and of `run` (2651-2683): user code goes
on.  `_enable_attach` still waits for the socket (2891). -/
def finish (s : St) (t : Nat) : St :=
  match s.pc t with
  | .tracing a d =>
    if a.script then { s with user := true, pc := upd s.pc t .idle, hist := s.hist ++ [.returned t d a] }
    else if a.attach then { s with lock := none, pc := upd s.pc t (.reread a) }
    else { s with lock := none, pc := upd s.pc t .idle, hist := s.hist ++ [.returned t d a] }
  | _ => s

/-- `py_db = get_global_debugger()` in `_enable_attach` (`pydevd.py` 2890); with no debugger (any more) the next
line raises an `AttributeError`. -/
def reread (s : St) (t : Nat) : St :=
  match s.pc t with
  | .reread a =>
    match s.glob with
    | some d => { s with pc := upd s.pc t (.socket a d) }
    | none => { s with pc := upd s.pc t .idle, hist := s.hist ++ [.raised t a] }
  | _ => s

/-- `wait_for_server_socket_ready` returns (`pydevd.py` 1520-1521, 2891-2892): the event is set when the socket
was bound, and never cleared after that. -/
def socketReady (s : St) (t : Nat) : St :=
  match s.pc t with
  | .socket a d =>
    if Ev.listening d ∈ s.hist then
      { s with pc := upd s.pc t .idle, hist := s.hist ++ [.returned t d a] }
    else s
  | _ => s

/-- `create_server_socket` and `set_server_socket_ready` in the waiting thread (`pydevd.py` 1535-1541); if it
raises, the thread ends. -/
def listen (s : St) (d : Nat) (ok : Bool) : St :=
  if (s.dbg d).listener = .starting then
    if ok then
      { s with dbg := upd s.dbg d { s.dbg d with listener := .up }, hist := s.hist ++ [.listening d] }
    else { s with dbg := upd s.dbg d { s.dbg d with listener := .dead } }
  else s

/-- A connection is accepted (`pydevd.py` 1549-1561): if there is a reader already, everything the previous
client configured is dropped (`request_disconnect`, `pydevd_api.py` 214-222). -/
def accept (s : St) (d : Nat) : St :=
  if (s.dbg d).listener = .up then
    if (s.dbg d).reader.isSome then
      { s with
        dbg := upd s.dbg d { s.dbg d with listener := .swapping, configured := false }
        hist := s.hist ++ [.dropped d] }
    else { s with dbg := upd s.dbg d { s.dbg d with listener := .swapping } }
  else s

/-- The accepted connection gets its reader and writer (`pydevd.py` 1563). -/
def swap (s : St) (d : Nat) : St :=
  if (s.dbg d).listener = .swapping then
    let s' := network s d
    { s' with dbg := upd s'.dbg d { s'.dbg d with listener := .up } }
  else s

/-- What a request does to the debugger: `run` and `configurationDone` let the program run
(`pydevd_api.py` 112-113, json 281-293), and the event of `is_attached` is set and cleared
(`pydevd.py` 896-917). -/
def onDbg (r : Req) (d : Dbg) : Dbg :=
  match r with
  | .initialize => { d with configured := false }
  | .run => { d with ready := true }
  | .configurationDone => { d with ready := true, configured := true }
  | .disconnect => { d with configured := false }
  | _ => d

/-- What a request does to its connection's command processor (json 521-523, 727-737). -/
def onConn (r : Req) (c : Conn) : Conn :=
  match r with
  | .launch => { c with launched := true }
  | .attach => { c with launched := true }
  | .disconnect => { c with launched := false }
  | _ => c

/-- Whether the request is accepted: breakpoints may only be set after launch or attach
(`_verify_launch_or_attach_done`, json 743-755). -/
def accepts (r : Req) (c : Conn) : Bool :=
  match r with
  | .setBreakpoints => c.launched
  | _ => true

/-- A request is handled, under `_main_lock` (json 203-218). -/
def handle (s : St) (c : Nat) (r : Req) : St :=
  if c < s.nextC then
    let d := (s.conn c).dbg
    { s with
      dbg := upd s.dbg d (onDbg r (s.dbg d))
      conn := upd s.conn c (onConn r (s.conn c))
      hist := s.hist ++ [.handled d c r (accepts r (s.conn c))] }
  else s

/-- `stoptrace` (`pydevd.py` 3184-3215): the global debugger is unregistered and its threads end. -/
def stop (s : St) (t : Nat) : St :=
  if s.user && s.pc t = .idle then
    match s.glob with
    | some d =>
      { s with
        glob := none
        dbg := upd s.dbg d { s.dbg d with listener := .dead }
        hist := s.hist ++ [.disposed d] }
    | none => s
  else s

/-- `_wait_for_attach` (`pydevd.py` 2895-2905). -/
def waitAttach (s : St) (t : Nat) (cancel : Option Nat) : St :=
  if s.user && s.pc t = .idle then
    match s.glob with
    | some d => { s with pc := upd s.pc t (.attaching d cancel) }
    | none => { s with hist := s.hist ++ [.raised t { attach := true }] }
  else s

/-- `cancel.is_set()`, for the event given (or none). -/
def isSet (s : St) (cancel : Option Nat) : Bool :=
  match cancel with
  | some e => s.cancel e
  | none => false

/-- `cancel.set()`, for the event given (or none). -/
def setCancel (k : Nat → Bool) (cancel : Option Nat) : Nat → Bool :=
  match cancel with
  | some e => upd k e true
  | none => k

/-- One round of `block_until_configuration_done` (`pydevd.py` 929-940). -/
def pollAttach (s : St) (t : Nat) : St :=
  match s.pc t with
  | .attaching d cancel =>
    if isSet s cancel then
      { s with pc := upd s.pc t .idle, hist := s.hist ++ [.attached t d cancel] }
    else if (s.dbg d).configured then
      { s with
        cancel := setCancel s.cancel cancel
        pc := upd s.pc t .idle
        hist := s.hist ++ [.attached t d cancel] }
    else s
  | _ => s

/-- One step. -/
def step (s : St) : Act → St
  | .call t a => call s t a
  | .acquire t => acquire s t
  | .enter t => enter s t
  | .connect t ok => connect s t ok
  | .setReady t => setReady s t
  | .poll t => poll s t
  | .finish t => finish s t
  | .reread t => reread s t
  | .socketReady t => socketReady s t
  | .listen d ok => listen s d ok
  | .accept d => accept s d
  | .network d => swap s d
  | .handle c r => handle s c r
  | .stop t => stop s t
  | .waitAttach t cancel => waitAttach s t cancel
  | .cancelWait e => { s with cancel := upd s.cancel e true, hist := s.hist ++ [.cancelled e] }
  | .pollAttach t => pollAttach s t

/-- A program which uses pydevd itself, before its first call. -/
def program : St := { user := true }

/-- The arguments of `main` (`pydevd.py` 3486-3697): it connects, and waits for the client. -/
def mainArgs (port : Nat) : Args := { wait := true, block := true, port := port, script := true }

/-- A script launched by the debugger, when `main` has created the debugger (`pydevd.py` 3543-3545). -/
def script (port : Nat) : St :=
  { user := false, glob := some 0, setup := some port, next := 1
    pc := upd (fun _ => .idle) 0 (.connecting (mainArgs port) 0)
    hist := [.made 0 0 (mainArgs port)] }

/-- The state after some steps. -/
def exec (s : St) (acts : List Act) : St := acts.foldl step s

/-- `_is_attached` (`pydevd.py` 2908-2914). -/
def isAttached (s : St) : Bool :=
  match s.glob with
  | some d => (s.dbg d).configured
  | none => false

end Startup
