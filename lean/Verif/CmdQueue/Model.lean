import Verif.Common.Lit
/-!
Model of the queues of commands that must run on particular threads.

Source: `/repo/pydevd.py` `get_internal_queue_and_event` (1580-1585), `post_method_as_internal_command` /
`post_internal_command` (1587-1601), `process_internal_commands` (1761-1860, the part that drains the
queues, 1808-1860); `/repo/_pydevd_bundle/pydevd_comm.py` `can_be_executed_by` (558-560, 587-588).

Other threads may post between any two queue operations of a drain; two drains never overlap because
the drain holds `_main_lock` (1772). The notification of thread starts/ends done by the same function is
modelled elsewhere. Running the commands (1850-1860) happens after the lock is released; the model logs
the list handed to the current thread at that point.
-/

namespace CmdQueue

abbrev Tid := List Char

/-- An internal command; `uid` distinguishes commands, `tid` is the thread id it was created with. -/
structure Cmd where
  uid : Nat
  tid : Tid
deriving DecidableEq, Repr

/-- `thread_id[thread_id.rfind("|") + 1:]` -/
def afterLastBar (t : Tid) : Tid := (t.reverse.takeWhile (· ≠ '|')).reverse

/-- The queue a thread id refers to (1583-1585). -/
def queueKey (t : Tid) : Tid :=
  if c!"__frame__".isPrefixOf t then afterLastBar t else t

/-- `can_be_executed_by(curr)`: commands created for `"*"` can be run by any thread (587-588), others by
the thread with the same id or with an id following a `|` at the end (560). -/
def canExec (c : Cmd) (curr : Tid) : Bool :=
  c.tid == c!"*" || c.tid == curr || ('|' :: curr).isSuffixOf c.tid

structure Drain where
  curr : Tid
  /-- thread ids still to be drained (the first one is being drained) -/
  ids : List Tid
  /-- false: taking commands (1826-1838); true: adding back (1842-1843) -/
  putting : Bool
  /-- `cmds_to_execute` -/
  exec : List Cmd
  /-- `cmds_to_add_back` -/
  back : List Cmd
deriving DecidableEq, Repr

structure State where
  /-- `_cmd_queue` -/
  queues : Tid → List Cmd := fun _ => []
  drain : Option Drain := none
  /-- ghost: everything posted, in order -/
  posted : List Cmd := []
  /-- everything handed to a thread for execution, in order, with the thread -/
  handed : List (Tid × Cmd) := []

inductive Action where
  /-- `post_internal_command(c, c.tid)` (1594-1597) -/
  | post (c : Cmd)
  /-- a thread enters the drain: `curr_thread_id`, `process_thread_ids` (1806-1816) -/
  | begin (curr : Tid) (ids : List Tid)
  /-- the draining thread performs its next queue operation -/
  | next
deriving DecidableEq, Repr

def setQ (q : Tid → List Cmd) (k : Tid) (v : List Cmd) : Tid → List Cmd :=
  fun x => if x = k then v else q x

def step (s : State) : Action → State
  | .post c =>
    { s with queues := setQ s.queues (queueKey c.tid) (s.queues (queueKey c.tid) ++ [c]),
             posted := s.posted ++ [c] }
  | .begin curr ids =>
    match s.drain with
    | some _ => s                                       -- `_main_lock` is held
    | none => { s with drain := some { curr, ids, putting := false, exec := [], back := [] } }
  | .next =>
    match s.drain with
    | none => s
    | some d =>
      match d.ids with
      | [] =>                                           -- lock released, commands run (1850-1860)
        { s with drain := none, handed := s.handed ++ d.exec.map (fun c => (d.curr, c)) }
      | id :: ids =>
        if d.putting then
          match d.back with
          | [] => { s with drain := some { d with ids := ids, putting := false } }
          | c :: back =>
            { s with queues := setQ s.queues (queueKey id) (s.queues (queueKey id) ++ [c]),
                     drain := some { d with back := back } }
        else
          match s.queues (queueKey id) with
          | [] => { s with drain := some { d with putting := true } }       -- `Empty`, 1840
          | c :: q =>
            { s with queues := setQ s.queues (queueKey id) q,
                     drain := some (if canExec c d.curr then { d with exec := d.exec ++ [c] }
                                    else { d with back := d.back ++ [c] }) }

def run (s : State) (as : List Action) : State := as.foldl step s

def start : State := {}

end CmdQueue
