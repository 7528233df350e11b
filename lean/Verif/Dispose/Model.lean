/-!
Model of the end of a debug session: the disposal of the debugger by any number of threads, the thread that
notices the end of the program, the thread that writes to the client, and the end of the process.

Source: `/repo/pydevd.py` `PyDB.dispose_and_kill_all_pydevd_threads` (2481-2550),
`PyDB.__wait_for_threads_to_finish` (2446-2479), `CheckAliveThread` (301-345), `PyDB.has_user_threads_alive`
(1464-1473); `/repo/_pydevd_bundle/pydevd_daemon_thread.py` `PyDBDaemonThread.run`, `do_kill_pydev_thread` (39-71);
`/repo/_pydevd_bundle/pydevd_comm.py` `WriterThread` (363-448).

An execution is any list of actions; an action is one access to shared state (or one region under a lock) of one
thread. An action that is not possible in a state does nothing. Threads are numbers: 0 is the writer, 1 is the
thread that checks for the end of the program (`CheckAliveThread`), all others are either other helper threads of
the debugger or threads of the program.

Simplifications: one debugger (number 0) with one writer and one check-alive thread; nothing raises except `send`
(an exception while helper threads are asked to end would end the call there); a timeout may pass at any moment (a
flag records that one did); `time.sleep` and logging are left out; `check_output_redirect` is left out; `os._exit`
(the termination asked for by the client) and `CheckAliveThread.join` are left out.
-/

namespace Dispose

/-- A message to the client: the exit command (`make_exit_command`) or any other. -/
inductive Msg where
  | exit
  | other (n : Nat)
  deriving DecidableEq, Repr

/-- The life of a helper thread. `started`: `start()` was called but `run` has not registered it yet;
`running`: registered in `created_pydb_daemon_threads` (pydevd_daemon_thread.py 40-41); `ended`: taken out again
(60). -/
inductive Life where
  | fresh | started | running | ended
  deriving DecidableEq, Repr

/-- Where the writer is (pydevd_comm.py 387-436). -/
inductive Writer where
  /-- about to call `get` (390) -/
  | waiting
  /-- has taken a message from the queue, has not sent it yet (417-422) -/
  | sending (m : Msg)
  /-- `Empty` was raised, `_kill_received` not read yet (391-392) -/
  | sawEmpty
  /-- the loop is over (408, 426, 430) -/
  | stopped
  deriving DecidableEq, Repr

/-- Where a call of `dispose_and_kill_all_pydevd_threads(wait)` is. -/
inductive Call where
  | none
  /-- about to take `_disposed_lock` (2503) -/
  | begun (wait : Bool)
  /-- first call: waits for a time when no command is processed; about to look at the time (2519) -/
  | quiet (wait : Bool)
  /-- about to take `_main_lock` (2520) -/
  | locking (wait : Bool)
  /-- about to take the set of helper threads (2528) -/
  | snapshot (wait : Bool)
  /-- asks the helper threads to end, the given ones are left (2529-2532) -/
  | ask (wait : Bool) (rest : List Nat)
  /-- asks the writer: its flag was not set, the exit command is about to be put (pydevd_comm.py 443-446) -/
  | putExit (wait : Bool) (rest : List Nat)
  /-- asks the writer: the flag is about to be set (pydevd_comm.py 448) -/
  | setFlag (wait : Bool) (rest : List Nat)
  /-- about to take `_wait_for_threads_to_finish_called_lock` (2448); is it the first call? -/
  | enterWait (first : Bool)
  /-- waits for the helper threads (2468-2475) -/
  | waiter (first : Bool)
  /-- waits for the thread which waits for the helper threads (2454) -/
  | onEvent (first : Bool)
  /-- about to read the global debugger (2539) -/
  | readGlobal (wait : Bool)
  /-- has read the global debugger; is it this one? (2540-2541) -/
  | writeGlobal (wait mine : Bool)
  /-- the call has returned -/
  | done (wait first : Bool)
  deriving DecidableEq, Repr

/-- Where the check-alive thread is (pydevd.py 308-334). -/
inductive Checker where
  /-- at the head of the loop (321) -/
  | head
  /-- waits (322) -/
  | wait
  /-- in the first `can_exit` (323): about to look at the writer, then at the threads -/
  | first | firstThreads (empty : Bool)
  /-- in the second `can_exit` (328) -/
  | second | secondThreads (empty : Bool)
  /-- in `dispose_and_kill_all_pydevd_threads` (330) -/
  | disposing
  /-- `_on_run` is over -/
  | leaving
  deriving DecidableEq, Repr

structure St where
  life : Nat → Life
  /-- the keys of `created_pydb_daemon_threads` -/
  reg : List Nat
  /-- `_kill_received` of each helper thread -/
  asked : Nat → Bool
  queue : List Msg
  /-- messages between the test of `add_command` and its `put` (pydevd_comm.py 379-380) -/
  pend : List Nat
  /-- all messages ever put in the queue, in order -/
  puts : List Msg
  /-- the messages sent to the client, in order -/
  sent : List Msg
  writer : Writer
  call : Nat → Call
  /-- `pydb_disposed` -/
  disposed : Bool
  /-- `_wait_for_threads_to_finish_called` -/
  waitCalled : Bool
  /-- `_wait_for_threads_to_finish_called_event` is set -/
  waitDone : Bool
  /-- the holder of `_main_lock` -/
  main : Option Nat
  /-- the living threads of the program that count: not daemon, or the main thread -/
  users : List Nat
  checker : Checker
  /-- the global debugger -/
  global : Option Nat
  /-- the process has ended -/
  over : Bool
  /-- some timeout of a disposal has passed -/
  timedOut : Bool
  /-- `send` has raised -/
  failed : Bool

/-- Before the helper threads are started; the main thread (2) runs. -/
def St.init : St :=
  { life := fun _ => .fresh, reg := [], asked := fun _ => false, queue := [], pend := [], puts := [], sent := [],
    writer := .waiting, call := fun _ => .none, disposed := false, waitCalled := false, waitDone := false,
    main := none, users := [2], checker := .head, global := none, over := false, timedOut := false,
    failed := false }

def upd {α : Type} (f : Nat → α) (k : Nat) (v : α) : Nat → α := fun x => if x = k then v else f x

inductive Act where
  /-- `Thread.start` of a helper thread, its registration (pydevd_daemon_thread.py 41), its end (60) -/
  | start (h : Nat) | register (h : Nat) | helperEnd (h : Nat)
  /-- `add_command` (pydevd_comm.py 377-380): the test of the flag, the `put` -/
  | check (n : Nat) | put (n : Nat)
  /-- the writer's loop -/
  | get | send | sendFails | getEmpty | readFlag | writerEnd
  /-- `_main_lock` taken and released by whoever processes a command -/
  | lock (t : Nat) | unlock (t : Nat)
  /-- threads of the program -/
  | userStart (u : Nat) | userEnd (u : Nat)
  /-- `set_global_debugger` by somebody else -/
  | setGlobal (d : Option Nat)
  /-- `dispose_and_kill_all_pydevd_threads` is called -/
  | call (t : Nat) (wait : Bool)
  /-- a step of the call made by `t`; `timeout` is used only where there is one, `snap` only where the set of
  helper threads is taken -/
  | dispose (t : Nat) (timeout : Bool) (snap : List Nat)
  /-- a step of the check-alive thread -/
  | checker
  /-- the process ends -/
  | exit
  deriving DecidableEq, Repr

/-- The call of `t` goes on at `c`. -/
def St.goto (s : St) (t : Nat) (c : Call) : St := { s with call := upd s.call t c }

/-- No call is running. -/
def Call.free : Call → Bool
  | .none | .done .. => true
  | _ => false

/-- No call of `t` is running. -/
def St.free (s : St) (t : Nat) : Prop := (s.call t).free = true

instance (s : St) (t : Nat) : Decidable (s.free t) := by unfold St.free; infer_instance

/-- `writer is None or writer.empty()` (pydevd.py 2521-2522). The writer exists from its start on. -/
def St.nothingToSend (s : St) : Prop := s.life 0 = .fresh ∨ s.queue = []

instance (s : St) : Decidable s.nothingToSend := by unfold St.nothingToSend; infer_instance

/-- `get_pydb_daemon_threads_to_wait()` is empty (pydevd.py 2458-2462): only the check-alive thread and the
caller are left. -/
def St.allEnded (s : St) (t : Nat) : Prop := ∀ h ∈ s.reg, h = 1 ∨ h = t

instance (s : St) (t : Nat) : Decidable (s.allEnded t) := by unfold St.allEnded; infer_instance

/-- Where a first call goes after asking (pydevd.py 2534-2537). -/
def afterAsk (wait : Bool) : Call := if wait then .enterWait true else .readGlobal false

/-- Where a call goes after waiting (pydevd.py 2510-2513, 2539). -/
def afterWait (first : Bool) : Call := if first then .readGlobal true else .done true false

/-- One step of the call made by `t` (pydevd.py 2481-2550, 2446-2479). -/
def disposeStep (s : St) (t : Nat) (timeout : Bool) (snap : List Nat) : St :=
  match s.call t with
  | .begun w =>
      -- 2503-2513
      if s.disposed then s.goto t (if w then .enterWait false else .done false false)
      else { s.goto t (.quiet w) with disposed := true }
  | .quiet w =>
      -- 2518-2519, 2525
      if timeout then { s.goto t (.snapshot w) with timedOut := true } else s.goto t (.locking w)
  | .locking w =>
      -- 2520-2524
      if s.main = none then s.goto t (if s.nothingToSend then .snapshot w else .quiet w) else s
  | .snapshot w =>
      -- 2528; a set has no order
      if snap.Perm s.reg then s.goto t (.ask w snap) else s
  | .ask w [] => s.goto t (afterAsk w)
  | .ask w (h :: rest) =>
      -- 2529-2532; the writer is asked in three steps
      if h = 0 then (if s.asked 0 then s.goto t (.ask w rest) else s.goto t (.putExit w rest))
      else { s.goto t (.ask w rest) with asked := upd s.asked h true }
  | .putExit w rest => { s.goto t (.setFlag w rest) with queue := s.queue ++ [.exit], puts := s.puts ++ [.exit] }
  | .setFlag w rest => { s.goto t (.ask w rest) with asked := upd s.asked 0 true }
  | .enterWait f =>
      -- 2448-2454
      if s.waitCalled then s.goto t (.onEvent f) else { s.goto t (.waiter f) with waitCalled := true }
  | .waiter f =>
      -- 2468-2477
      if timeout then { s.goto t (afterWait f) with waitDone := true, timedOut := true }
      else if s.allEnded t then { s.goto t (afterWait f) with waitDone := true } else s
  | .onEvent f =>
      -- 2454
      if timeout then { s.goto t (afterWait f) with timedOut := true }
      else if s.waitDone then s.goto t (afterWait f) else s
  | .readGlobal w => s.goto t (.writeGlobal w (s.global == some 0))
  | .writeGlobal w mine => { s.goto t (.done w true) with global := if mine then none else s.global }
  | .none => s
  | .done .. => s

/-- One step of the check-alive thread (pydevd.py 308-334). It looks at the writer under `_main_lock` (312-316),
then at the threads (318). -/
def checkerStep (s : St) : St :=
  match s.checker with
  | .head => { s with checker := if s.asked 1 then .second else .wait }
  | .wait => { s with checker := .first }
  | .first =>
      if s.main = none then { s with checker := .firstThreads (s.life 0 != .fresh && s.queue.isEmpty) } else s
  | .firstThreads e => { s with checker := if s.users.isEmpty && e then .second else .head }
  | .second =>
      if s.main = none then { s with checker := .secondThreads (s.life 0 != .fresh && s.queue.isEmpty) } else s
  | .secondThreads e =>
      if s.users.isEmpty && e then { s.goto 1 (.begun true) with checker := .disposing }
      else { s with checker := .leaving }
  | .disposing => if s.free 1 then { s with checker := .leaving } else s
  | .leaving => { s with life := upd s.life 1 .ended, reg := s.reg.filter (· ≠ 1) }

/-- One action. -/
def step (s : St) (a : Act) : St :=
  if s.over then s else
  match a with
  | .start h => if s.life h = .fresh then { s with life := upd s.life h .started } else s
  | .register h =>
      if s.life h = .started then { s with life := upd s.life h .running, reg := s.reg ++ [h] } else s
  | .helperEnd h =>
      if 2 ≤ h ∧ s.life h = .running ∧ s.free h then
        { s with life := upd s.life h .ended, reg := s.reg.filter (· ≠ h) }
      else s
  | .check n => if s.asked 0 then s else { s with pend := s.pend ++ [n] }
  | .put n =>
      if n ∈ s.pend then
        { s with pend := s.pend.erase n, queue := s.queue ++ [.other n], puts := s.puts ++ [.other n] }
      else s
  | .get =>
      match s.queue with
      | m :: q =>
          if s.life 0 = .running ∧ s.writer = .waiting then { s with queue := q, writer := .sending m } else s
      | [] => s
  | .send =>
      match s.writer with
      | .sending m =>
          { s with sent := s.sent ++ [m], writer := if m = .exit then .stopped else .waiting }
      | _ => s
  | .sendFails =>
      match s.writer with
      | .sending _ => { s with writer := .stopped, failed := true }
      | _ => s
  | .getEmpty =>
      if s.life 0 = .running ∧ s.writer = .waiting ∧ s.queue = [] then { s with writer := .sawEmpty } else s
  | .readFlag =>
      if s.writer = .sawEmpty then { s with writer := if s.asked 0 then .stopped else .waiting } else s
  | .writerEnd =>
      if s.life 0 = .running ∧ s.writer = .stopped ∧ s.free 0 then
        { s with life := upd s.life 0 .ended, reg := s.reg.filter (· ≠ 0) }
      else s
  | .lock t => if s.main = none then { s with main := some t } else s
  | .unlock t => if s.main = some t then { s with main := none } else s
  | .userStart u => { s with users := s.users ++ [u] }
  | .userEnd u => { s with users := s.users.erase u }
  | .setGlobal d => { s with global := d }
  | .call t w =>
      -- the check-alive thread calls in `checkerStep`, the writer only after `send` has raised (430-432)
      if s.free t ∧ t ≠ 1 ∧ (t = 0 → s.failed ∧ s.writer = .stopped ∧ s.life 0 = .running) then
        s.goto t (.begun w)
      else s
  | .dispose t timeout snap => disposeStep s t timeout snap
  | .checker => if s.life 1 = .running then checkerStep s else s
  | .exit =>
      if s.users = [] ∧ (s.life 1 = .fresh ∨ s.life 1 = .ended) then { s with over := true } else s

/-- The state after a list of actions. -/
def run (acts : List Act) : St := acts.foldl step .init

end Dispose
