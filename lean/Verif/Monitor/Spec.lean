import Verif.Monitor.Model
/-!
What C47, C56 and C57 speak about.
-/

namespace Monitor

/-- the client has set a breakpoint at line `l` of the file of `c`, and `l` is a line of `c` -/
def Breaks (s : State) (c : Code) (l : Nat) : Prop := l ∈ c.lines ∧ (Py.Dict.get (fileBps s c.file) l).isSome

/-- the client has set a breakpoint for functions of the name of `c` -/
def BreaksFn (s : State) (c : Code) : Prop := (Py.Dict.get s.fnBreaks c.name).isSome

/-- neither a file of the debugger or a library to be skipped, nor excluded by the filters -/
def Visible (E : Env) (c : Code) : Prop := E.skip c = false ∧ E.filtered c = false

/-- no two functions of the program are equal but for the file -/
def Distinct (E : Env) : Prop := ∀ c ∈ E.prog, ∀ d ∈ E.prog, c.key = d.key → c = d

/-- a handler running for `c` has not read the breakpoints yet, or what it has read is current -/
def UpToDate (E : Env) (s : State) (c : Code) (t : Nat) : Prop :=
  match s.pc t with
  | .breaks _ _ bs => bs = fileBps s c.file
  | .fns _ _ bs fn => bs = fileBps s c.file ∧ fn = Py.Dict.get s.fnBreaks c.name
  | .ready _ i => i = build E c i.mtime (fileBps s c.file) (Py.Dict.get s.fnBreaks c.name)
  | _ => True

/-- whenever events are restarted in this history, no handler for `c` is running that has read outdated breakpoints -/
def Calm (E : Env) (c : Code) : State → List Action → Prop
  | _, [] => True
  | s, a :: as =>
    (a = .work → s.queue.head? = some .restart → ∀ t rest, s.stack t = c :: rest → UpToDate E s c t) ∧
      ∀ s', step E s a = some s' → Calm E c s' as

/-- what a history may not do to `c`: resume a suspended generator, or call it in a thread that is not in `threading._active` -/
def Plain (E : Env) (c : Code) : Action → Prop
  | .resume _ d => d ≠ c
  | .call t d => d = c → E.known t = true
  | _ => True

end Monitor
