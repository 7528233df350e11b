import Verif.Common.Lit
/-!
Model of the interactive console: what is typed, and what the main thread runs.

Source: `/repo/_pydev_bundle/pydev_console_utils.py` `CodeFragment` (149-158),
`BaseInterpreterInterface.need_more_for_code` (189-221), `need_more` (223-229), `add_exec` (235-304),
`do_exec_code` (359-371), `execLine` (373-374), `execMultipleLines` (376-383), `interrupt` (385-397),
`start_exec` (402-403), `finish_exec` (418-426); `/repo/pydevconsole.py` `process_exec_queue` (258-302),
`Command` (28-55).

Two threads interleave: the one of the server, which handles the client's requests one after the other, and
the main thread, which takes what is to be run from a queue. They share `buffer`, the queue and
`interruptable`; each access to one of these is one action. A `KeyboardInterrupt` reaches the main thread at
any moment after it was asked for.

Simplifications: CPython (on Jython lines are added one by one); the queue's callables (used by GUIs), the
hooks for input and the redirection of `stdin` are not modelled; whether a text is complete is a function of
the text (the compiler also remembers `__future__` imports); the answer to the client is a log entry.
-/

namespace Interp

abbrev Text := List Char

/-- `CodeFragment` -/
structure Frag where
  text : Text
  single : Bool
deriving DecidableEq, Repr

/-- `CodeFragment.append` (154-157) -/
def Frag.append (a b : Frag) : Frag :=
  { text := a.text ++ '\n' :: b.text, single := if b.single then a.single else false }

/-- What `interpreter.compile(source, "<input>", "single")` does. -/
inductive Compiled where
  /-- raises `OverflowError`, `SyntaxError` or `ValueError` -/
  | error
  /-- raises something else -/
  | raises
  /-- returns `None` -/
  | incomplete
  | code
deriving DecidableEq, Repr

/-- The interpreter: the standard one, or one with `is_complete` (IPython). -/
inductive Interpreter where
  | standard (compile : Text → Compiled)
  | withIsComplete (isComplete : Text → Bool)

/-- `need_more_for_code` (189-221); `none` when it raises. -/
def needMoreForCode (i : Interpreter) (source : Text) : Option Bool :=
  if source.getLast? = some '\\' then some true
  else
    match i with
    | .withIsComplete f => some (!f source)
    | .standard compile =>
      match compile source with
      | .error => some false
      | .raises => none
      | .incomplete => some true
      | .code => some false

/-- Requests of the client. -/
inductive Req where
  | line (t : Text)
  | lines (t : Text)
  | interrupt
deriving DecidableEq, Repr

/-- Where the thread of the server is. -/
inductive Srv where
  | idle
  /-- before `if self.buffer is None` (224) -/
  | test (f : Frag)
  /-- before `self.buffer = code_fragment` (225) -/
  | assign (f : Frag)
  /-- before `self.buffer.append(code_fragment)` (227) -/
  | append (f : Frag)
  /-- before `need_more_for_code(self.buffer.text)` (229) -/
  | ask
  /-- before `code_fragment = self.buffer` (364) -/
  | take
  /-- before `self.buffer = None` (365) -/
  | clear (g : Option Frag)
  /-- before `self.exec_queue.put(code_fragment)` (366) -/
  | put (g : Option Frag)
  /-- before `self.buffer = None` of `interrupt` (386) -/
  | intClear
  /-- before `if self.interruptable` (388) -/
  | intSignal
  /-- before `self.finish_exec(False)` (392) -/
  | intFinish
deriving DecidableEq, Repr

/-- Where the main thread is. -/
inductive Main where
  /-- in `process_exec_queue`, waiting for a fragment -/
  | idle
  /-- a fragment was taken; before `start_exec` (276) -/
  | got (g : Option Frag)
  /-- in `do_add_exec` (279) -/
  | running (g : Option Frag)
  /-- before `finish_exec(more)` (284) -/
  | ran (more : Bool)
  /-- `process_exec_queue` ended -/
  | ended
deriving DecidableEq, Repr

inductive Ev where
  /-- the answer to a request to run code: whether more is needed -/
  | answer (more : Bool)
  /-- a fragment begins to run -/
  | runs (f : Frag)
  /-- `NotifyFinished(more)` after a fragment -/
  | finished (more : Bool)
  /-- `NotifyFinished(False)` of an interrupt -/
  | interrupted
deriving DecidableEq, Repr

structure St where
  buffer : Option Frag := none
  queue : List (Option Frag) := []
  interruptable : Bool := false
  srv : Srv := .idle
  main : Main := .idle
  /-- an interrupt of the main thread was asked for and did not reach it -/
  kbd : Bool := false
  log : List Ev := []
deriving DecidableEq, Repr

inductive Act where
  /-- a request arrives (when the server is idle) -/
  | req (r : Req)
  /-- the next step of the server's thread -/
  | srv
  /-- the next step of the main thread; `more` is what the fragment's run returns -/
  | main (more : Bool)
  /-- the fragment asks for the end (`SystemExit`) -/
  | exit
  /-- the `KeyboardInterrupt` reaches the main thread where it is caught -/
  | kbd
  /-- the `KeyboardInterrupt` reaches what runs, which catches it and goes on -/
  | kbdCaught
  /-- the `KeyboardInterrupt` reaches the main thread in the loop, outside of the `try` -/
  | kbdOutside
deriving DecidableEq, Repr

/-- The end of a request to run code. -/
def answer (s : St) (more : Bool) : St := { s with srv := .idle, log := s.log ++ [.answer more] }

def act (i : Interpreter) (s : St) : Act → St
  | .req r =>
    if s.srv = .idle then
      match r with
      | .line t => { s with srv := .test ⟨t, true⟩ }
      | .lines t => { s with srv := .test ⟨t, false⟩ }
      | .interrupt => { s with srv := .intClear }
    else s
  | .srv =>
    match s.srv with
    | .idle => s
    | .test f => if s.buffer = none then { s with srv := .assign f } else { s with srv := .append f }
    | .assign f => { s with buffer := some f, srv := .ask }
    | .append f =>
      match s.buffer with
      | some b => { s with buffer := some (b.append f), srv := .ask }
      | none => answer s false              -- AttributeError, printed (369-371)
    | .ask =>
      match s.buffer with
      | none => answer s false              -- AttributeError, printed
      | some b =>
        match needMoreForCode i b.text with
        | none => answer s false            -- printed
        | some true => answer s true
        | some false => { s with srv := .take }
    | .take => { s with srv := .clear s.buffer }
    | .clear g => { s with buffer := none, srv := .put g }
    | .put g => answer { s with queue := s.queue ++ [g] } false
    | .intClear => { s with buffer := none, srv := .intSignal }
    | .intSignal => { s with kbd := s.kbd || s.interruptable, srv := .intFinish }
    | .intFinish => { s with interruptable := false, srv := .idle, log := s.log ++ [.interrupted] }
  | .main more =>
    match s.main with
    | .idle =>
      match s.queue with
      | [] => s
      | g :: queue => { s with queue, main := .got g }
    | .got g => { s with
        interruptable := true, main := .running g,
        log := s.log ++ match g with | some f => [.runs f] | none => [] }
    | .running (some _) => { s with main := .ran more }
    | .running none => { s with main := .idle }     -- AttributeError, printed (300-301)
    | .ran more => { s with interruptable := false, main := .idle, log := s.log ++ [.finished more] }
    | .ended => s
  | .exit =>
    match s.main with
    | .running (some _) => { s with main := .ended }
    | _ => s
  | .kbd =>
    if s.kbd then
      match s.main with
      | .idle => { s with kbd := false, buffer := none }
      | .got _ => { s with kbd := false, main := .idle, buffer := none }
      | .running (some _) => { s with kbd := false, main := .ran false }   -- shown by `runcode`
      | .running none => { s with kbd := false, main := .idle }
      | .ran _ => { s with kbd := false, main := .idle }                   -- printed (300-301)
      | .ended => s
    else s
  | .kbdCaught =>
    match s.main with
    | .running (some _) => { s with kbd := false }
    | _ => s
  | .kbdOutside => if s.kbd ∧ s.main = .idle then { s with kbd := false, main := .ended } else s

def run (i : Interpreter) (acts : List Act) : St := acts.foldl (act i) {}

/-- `symbol_for_fragment` (39-47): how the text is compiled when it is run; `true` for "single". -/
def symbolSingle (f : Frag) : Bool := if f.single then true else false

end Interp
