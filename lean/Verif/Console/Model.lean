import Verif.Common.Split
/-!
# The console of a stopped frame

Models `_pydevd_bundle/pydevd_console.py` with the parts of `_pydevd_bundle/pydevconsole_code.py` and
`_pydev_bundle/pydev_console_utils.py` it is made of: lines are collected until they make a command,
the command is run in the frame with its output caught, and the reply says what was written.

Simplified: compiling, and what running code does to everything else, are parameters; what is written
back to the frame (by `update_globals_and_locals`, also if the code raises) is in the model of
`Evaluate` and here part of what running does. Of output only its texts matter. `pydoc.help` is left
out. Streams and hooks are numbers.
-/
namespace Console

abbrev Text := List Char

/-- What of `sys` the console changes. -/
structure Sys where
  stdout : Nat
  stderr : Nat
  stdin : Nat
  hook : Nat
  defaultHook : Nat
deriving DecidableEq, Repr

/-- What compiling a source gives (`pydevconsole_code.py` 86-120, 267-304): it is not complete, it is
wrong (with the text of the error), or it is code. -/
inductive Compiled where
  | more
  | wrong (message : Text)
  | code
deriving DecidableEq, Repr

/-- How running code ends. -/
inductive Outcome where
  | normal
  | raised (traceback : Text)
  | exit
deriving DecidableEq, Repr

/-- Running a command: what becomes of the program and of `sys`, what was written to which stream, and
how it ended. -/
structure Ran (W : Type) where
  world : W
  sys : Sys
  writes : List (Nat × Text)
  outcome : Outcome

/-- The parameters: compiling, running in a frame, the text on where a frame is, and white space. -/
structure Env (W : Type) where
  compile : Text → Compiled
  exec : Text → Nat → W → Sys → Ran W
  place : Nat → Text
  space : Char → Bool

/-- Whose console it is. -/
structure Key where
  thread : Nat
  frame : Nat
deriving DecidableEq, Repr

/-- `InteractiveConsoleCache` (`pydevd_console.py` 194-197) with the buffer of the console; `sys`; the
program; the next stream to be made; and, only to speak about it, what was run. -/
structure State (W : Type) where
  cache : Option (Key × List Text)
  sys : Sys
  world : W
  fresh : Nat
  ran : List (Key × Text)

/-- A message of the reply: whether it is an error, and its text. -/
abbrev Msg := Bool × Text

/-- The reply; or that there was an error (`pydevd_comm.py` 1739-1741). -/
inductive Reply where
  | messages (more : Bool) (ms : List Msg)
  | error
deriving DecidableEq, Repr

/-- `add_console_message` (`pydevd_console.py` 32-36). -/
def addMessage (sp : Char → Bool) (err : Bool) (t : Text) : List Msg :=
  ((Py.split1 '\n' t).filter fun m => !m.all sp).map fun m => (err, m)

/-- What was written to a stream. -/
def to (i : Nat) (ws : List (Nat × Text)) : List Text := (ws.filter fun w => w.1 == i).map (·.2)

/-- `runcode` (`pydevd_console.py` 141-182): an exception is shown with the default hook put in place;
an exit goes on. -/
def runcode {W} (env : Env W) (src : Text) (frame : Nat) (w : W) (sys : Sys) : Ran W :=
  let r := env.exec src frame w sys
  match r.outcome with
  | .raised tb =>
    { r with
      sys := { r.sys with hook := r.sys.defaultHook }
      writes := r.writes ++ [(r.sys.stderr, tb)] }
  | _ => r

/-- `InteractiveConsole.push` (`pydevconsole_code.py` 482-501) with `runsource` (267-304): the lines kept,
whether more is needed, and what was run, if anything was. After an exit the lines are still kept. -/
def pushLine {W} (env : Env W) (buffer : List Text) (line : Text) (frame : Nat) (w : W) (sys : Sys) :
    List Text × Bool × Ran W × Option Text :=
  let lines := buffer ++ [line]
  let src := Py.join1 '\n' lines
  match env.compile src with
  | .more => (lines, true, ⟨w, sys, [], .normal⟩, none)
  | .wrong m => ([], false, ⟨w, sys, [(sys.stderr, m)], .normal⟩, none)
  | .code =>
    let r := runcode env src frame w sys
    (if r.outcome = .exit then lines else [], false, r, some src)

/-- `get_interactive_console` (`pydevd_console.py` 201-221): the lines kept for the frame, and the message
for a new console. -/
def console {W} (env : Env W) (s : State W) (k : Key) : List Text × List Msg :=
  match s.cache with
  | some (k', buffer) => if k' = k then (buffer, []) else ([], addMessage env.space false (env.place k.frame))
  | none => ([], addMessage env.space false (env.place k.frame))

/-- `execute_console_command` (`pydevd_console.py` 230-249) with `push` (91-135) and `add_exec`
(`pydev_console_utils.py` 228-299). With buffering, output goes to new streams, and so does input; at
the end, whatever happened, the old ones are put back. -/
def command {W} (env : Env W) (s : State W) (k : Key) (line : Text) (buffered : Bool) : State W × Reply :=
  let (buffer, hello) := console env s k
  let sys1 : Sys := if buffered then { s.sys with stdout := s.fresh, stderr := s.fresh + 1, stdin := s.fresh + 2 } else s.sys
  let sys2 := { sys1 with hook := sys1.defaultHook }
  let (buffer', more, r, src) := pushLine env buffer line k.frame s.world sys2
  let sys3 := { r.sys with stdin := s.sys.stdin, defaultHook := r.sys.hook }
  let sys4 := if buffered then { sys3 with stdout := s.sys.stdout, stderr := s.sys.stderr } else sys3
  ({ cache := some (k, buffer'), sys := sys4, world := r.world, fresh := s.fresh + 3,
     ran := s.ran ++ (src.toList.map fun t => (k, t)) },
   if r.outcome = .exit then .error
   else if buffered then
     .messages more (hello ++ (to s.fresh r.writes).flatMap (addMessage env.space false)
       ++ (to (s.fresh + 1) r.writes).flatMap (addMessage env.space true))
   else .messages more hello)

/-- A command as it comes. -/
structure Cmd where
  key : Key
  line : Text
  buffered : Bool

def run {W} (env : Env W) (s : State W) : List Cmd → State W
  | [] => s
  | c :: cs => run env (command env s c.key c.line c.buffered).1 cs

end Console
