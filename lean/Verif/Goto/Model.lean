import Verif.Common.Lit

/-!
# Setting the next statement

Models what a "goto" (JSON protocol), "set next statement" or "run to line" (line protocol) request
does: `on_goto_request` of `_pydevd_bundle/pydevd_process_net_command_json.py`, `_cmd_set_next` of
`_pydevd_bundle/pydevd_process_net_command.py`, `request_set_next` of
`_pydevd_bundle/pydevd_api.py`, `InternalSetNextStatementThread` of `_pydevd_bundle/pydevd_comm.py`,
and `set_next_statement`, `do_wait_suspend` and `_do_wait_suspend` of `pydevd.py`, together with the
other things which change the state of a stopped thread: steps, continue, pause, suspending all
threads, and the end of the session.

The model is of one thread of the program, whose steps (`Act.go`) interleave with what other threads
do to it. The frame is named by its function's name; whether the interpreter lets `f_lineno` be set
is a parameter. The commands of the line protocol `CMD_RUN_TO_LINE` and `CMD_SET_NEXT_STATEMENT` are
treated alike by the code, and are both `Step.jump`. Answers are those of the JSON protocol.
-/
namespace Goto

/-- The events at which a thread stops. -/
inductive Event where
  | line
  | exception
  | call
  | return_
deriving DecidableEq, Repr

/-- Where a thread is stopped: the bottom frame's function (`f_code.co_name`) and line (`f_lineno`),
and the event which was being handled. -/
structure Place where
  func : List Char
  line : Int
  event : Event
deriving DecidableEq, Repr

/-- What is asked of `InternalSetNextStatementThread` (`pydevd_comm.py` 743-758). `line` is `none` when
`int(self.line)` raises, which only the line protocol's text can make it do. -/
structure Target where
  seq : Nat
  line : Option Int
  func : List Char
deriving DecidableEq, Repr

/-- `pydev_step_cmd`: `-1`, a step (into, over, return, smart: by its number), a jump, or
`CMD_THREAD_SUSPEND`. -/
inductive Step where
  | none
  | step (kind : Nat)
  | jump
  | suspend
deriving DecidableEq, Repr

/-- `thread.stop_reason`. -/
inductive Reason where
  | pause
  | goto
  | hit (reason : Nat)
deriving DecidableEq, Repr

/-- An internal command in the thread's queue. -/
inductive Cmd where
  /-- `InternalSetNextStatementThread` (`pydevd_comm.py` 743-772). -/
  | jump (t : Target)
  /-- `internal_step_in_thread`, `internal_smart_step_into` (`pydevd_comm.py` 714-741). -/
  | step (kind : Nat)
  /-- Any command which does not change how the thread goes on, such as an evaluation. -/
  | other
deriving DecidableEq, Repr

/-- What the client gets. -/
inductive Out where
  /-- `make_set_next_stmnt_status_message` (`pydevd_net_command_factory_json.py` 440-445). -/
  | answer (seq : Nat) (success : Bool) (message : List Char)
  /-- `make_thread_suspend_message`; the place is where the stack then asked for is. -/
  | stopped (reason : Reason) (place : Place)
  /-- `make_thread_run_message`. -/
  | continued
  /-- Not a message: an exception of the debugger is raised in the program
  (`pydevd_frame.py` 1038-1054). -/
  | raised
deriving DecidableEq, Repr

/-- Where the thread is. -/
inductive Pc where
  /-- It runs the program. -/
  | running
  /-- `do_wait_suspend`, before it tells of the stop (`pydevd.py` 2083-2154). -/
  | announce
  /-- At the check of the state in the loop of `_do_wait_suspend` (`pydevd.py` 2221-2224). -/
  | check
  /-- At `queue.get` in the loop (`pydevd.py` 2233-2247). -/
  | get
  /-- After the loop, at the reading of the step command (`pydevd.py` 2259-2275). -/
  | left
  /-- At the call of `set_next_statement` (`pydevd.py` 2276-2288). -/
  | jumping
  /-- After the answer was sent (`pydevd.py` 2290-2307). -/
  | answered (success : Bool)
  /-- At the message sent at the end; `keep` is `keep_suspended` (`pydevd.py` 2348-2358). -/
  | leaving (keep : Bool)
deriving DecidableEq, Repr

/-- The thread and its `additional_info`. `message` is `pydev_message`: `some seq` after
`str(self.seq)` was put there, `none` when it is empty or holds the text of a stop. -/
structure St where
  pc : Pc
  place : Place
  suspended : Bool
  step : Step
  nextLine : Int
  func : List Char
  message : Option Nat
  reason : Reason
  disposed : Bool
  queue : List Cmd
  out : List Out
deriving DecidableEq, Repr

/-- `internal_cmd.do_it` (`pydevd_comm.py` 714-741, 759-772): an error in `int(self.line)` comes after
the step command was set, and is logged by the loop (`pydevd.py` 2238-2241). -/
def doIt (s : St) : Cmd → St
  | .jump t =>
    match t.line with
    | none => { s with step := .jump }
    | some l =>
      { s with
        step := .jump
        nextLine := l
        func := t.func
        message := some t.seq
        suspended := false }
  | .step k => { s with step := .step k, suspended := false }
  | .other => s

/-- `curr_func_name` of `set_next_statement` (`pydevd.py` 2054-2058). -/
def currName (name : List Char) : List Char :=
  if name = c!"?" ∨ name = c!"<module>" then [] else name

/-- The text of `set_next_statement`'s refusal (`pydevd.py` 2066). -/
def onlyBottom : List Char := c!"jump is available only within the bottom frame"

/-- `set_next_statement` with the handling of its `ValueError` (`pydevd.py` 2045-2067, 2278-2283):
whether it jumped, and the message. `refuses p l` is the text of the `ValueError` the interpreter
raises at `frame.f_lineno = l`, if it does. -/
def setNext (refuses : Place → Int → Option (List Char)) (p : Place) (func : List Char) (l : Int) :
    Bool × List Char :=
  if p.event = .line ∨ p.event = .exception then
    if func = c!"*" ∨ currName p.func = func then
      match refuses p l with
      | none => (true, [])
      | some text => (false, text)
    else (false, onlyBottom)
  else (false, [])

/-- One step of the thread in `do_wait_suspend` and `_do_wait_suspend` (`pydevd.py` 2083-2358). When
the message is not a number, `make_set_next_stmnt_status_message` raises at `int(seq)`, after the
jump was made: the exception goes up to the trace function, which raises it in the program. -/
def go (refuses : Place → Int → Option (List Char)) (s : St) : St :=
  match s.pc with
  | .running => s
  | .announce => { s with out := s.out ++ [.stopped s.reason s.place], pc := .check }
  | .check => if s.suspended = false ∨ s.disposed = true then { s with pc := .left } else { s with pc := .get }
  | .get =>
    match s.queue with
    | [] => { s with pc := .check }
    | c :: q => { doIt { s with queue := q } c with pc := .check }
  | .left => if s.step = .jump then { s with pc := .jumping } else { s with pc := .leaving false }
  | .jumping =>
    let r := setNext refuses s.place s.func s.nextLine
    let place := if r.1 = true then { s.place with line := s.nextLine } else s.place
    match s.message with
    | none => { s with place := place, out := s.out ++ [.raised], pc := .running }
    | some seq =>
      { s with
        place := place
        out := s.out ++ [.answer seq r.1 r.2]
        message := none
        pc := .answered r.1 }
  | .answered true =>
    { s with out := s.out ++ [.continued], suspended := true, reason := .goto, pc := .leaving true }
  | .answered false => { s with step := .none, suspended := true, reason := .pause, pc := .check }
  | .leaving keep => { s with out := s.out ++ [.continued], pc := if keep = true then .announce else .running }

/-- What happens to the thread. -/
inductive Act where
  /-- The thread itself does its next step. -/
  | go
  /-- A command is put in the thread's queue (`post_internal_command`). -/
  | post (c : Cmd)
  /-- `internal_run_thread` (`pydevd_thread_lifecycle.py` 57-63): a continue, or another thread's step
  or evaluation which resumes all threads. -/
  | resume
  /-- `mark_thread_suspended` by a pause request (`pydevd_thread_lifecycle.py` 28-54,
  `pydevd_api.py` 177-201). -/
  | pause
  /-- `suspend_all_threads` by another thread (`pydevd_thread_lifecycle.py` 88-103). -/
  | suspendAll
  /-- `pydb_disposed = True`, with no termination requested (`pydevd.py` 2504-2505). -/
  | dispose
  /-- The running program reaches a place where the thread stops (`mark_thread_suspended` with the
  reason of the stop); the text of a stop may be put in `pydev_message`. -/
  | hit (p : Place) (reason : Nat) (text : Bool)
deriving DecidableEq, Repr

/-- One action. -/
def step (refuses : Place → Int → Option (List Char)) (s : St) : Act → St
  | .go => go refuses s
  | .post c => { s with queue := s.queue ++ [c] }
  | .resume => { s with step := .none, suspended := false }
  | .pause =>
    { s with reason := .pause, step := if s.step = .none then .step 0 else s.step, suspended := true }
  | .suspendAll => { s with reason := .pause, step := .suspend, suspended := true }
  | .dispose => { s with disposed := true }
  | .hit p r text =>
    match s.pc with
    | .running =>
      { s with
        place := p
        reason := .hit r
        step := if s.step = .none then .step 0 else s.step
        suspended := true
        message := if text = true then none else s.message
        pc := .announce }
    | _ => s

/-- A history. -/
def run (refuses : Place → Int → Option (List Char)) (s : St) (acts : List Act) : St :=
  acts.foldl (step refuses) s

/-- The thread runs, before any request. -/
def init : St :=
  { pc := .running, place := ⟨[], 0, .line⟩, suspended := false, step := .none, nextLine := -1,
    func := [], message := none, reason := .pause, disposed := false, queue := [], out := [] }

/-! ## The request -/

/-- What a request makes happen. -/
inductive Effect where
  | answer (seq : Nat) (success : Bool) (message : List Char)
  | post (c : Cmd)
  | nothing
deriving DecidableEq, Repr

/-- `on_goto_request` and `request_set_next` (`pydevd_process_net_command_json.py` 1233-1251,
`pydevd_api.py` 279-314). `targets` are the pairs kept for the ids told to the client; `mapped path
line` is the line of the source mapping, if one applies; `unknown` is the text of the failure. -/
def gotoRequest (targets : List (Int × (List Char × Int))) (mapped : List Char → Int → Option Int)
    (unknown : Int → List Char) (threadFound : Bool) (seq : Nat) (targetId : Int) : Effect :=
  match targets.lookup targetId with
  | none => .answer seq false (unknown targetId)
  | some (path, line) =>
    if threadFound = true then
      .post (.jump ⟨seq, some ((mapped path line).getD line), c!"*"⟩)
    else .nothing

end Goto
