import Verif.Bytecode.Model

/-!
Specification for C60 and C61: what a program read from a code object looks
like, what a program can see of its own run, and when a line counts as
announced to the debugger.
-/
namespace Bytecode

/-- An item of a program that was read and has not been touched: labels are the
program's own, every instruction has its place and a line, and mentions neither
the debugger's functions nor the debugger's labels.  (`POP_TOP` has no argument:
instr.py 178-180.) -/
def Item.Original : Item → Prop
  | .label l => ∃ n, l = .orig n
  | .instr i => i.offset.isSome ∧ i.lineno.isSome ∧ i.arg ≠ .const .needsStop ∧
      i.arg ≠ .const .stopAt ∧ (∀ k, i.arg ≠ .lab (.added k)) ∧ (i.name = "POP_TOP" → i.arg = .unset)

/-- A program as it was read. -/
def Original (prog : List Item) : Prop := ∀ it ∈ prog, it.Original

/-- The debugger's functions are not on the stack. -/
def Clean {U} (stack : List (Val U)) : Prop := ∀ v ∈ stack, v ≠ .needsStop ∧ v ≠ .stopAt

/-- The program does not get hold of the debugger's functions, and jumps to its
own labels only. -/
structure Unaware {U E D} (w : World U E D) : Prop where
  const : ∀ n, w.const n ≠ .needsStop ∧ w.const n ≠ .stopAt
  fall : ∀ {name arg st e st' e'}, w.sem name arg st e = .fall st' e' → Clean st → Clean st'
  goto : ∀ {name arg st e l st' e'}, w.sem name arg st e = .goto l st' e' →
    (∃ n, l = .orig n) ∧ (Clean st → Clean st')
  leave : ∀ {name arg st e st' e'}, w.sem name arg st e = .leave st' e' → Clean st → Clean st'

/-- What the program can see of an event: which of its own instructions ran, and
the values and the world that instruction met.  Instructions of the debugger
and line numbers are not seen. -/
def Ev.seen {U E} : Ev U E → Option (Nat × String × Arg × List (Val U) × E)
  | .ran i st e => i.offset.map fun o => (o, i.name, i.arg, st, e)
  | _ => none

/-- What the program can see of a run. -/
def seen {U E} (tr : List (Ev U E)) : List (Nat × String × Arg × List (Val U) × E) :=
  tr.filterMap Ev.seen

/-- Whether an item is the program's (and not the debugger's). -/
def Item.own : Item → Bool
  | .label (.orig _) => true
  | .label (.added _) => false
  | .instr i => i.offset.isSome

/-- The lines of a program on 3.10 and later: an instruction which the
interpreter predicts from the one right before it has the line of that one. -/
def predictedLines : Option Instr → List Item → List Item
  | _, [] => []
  | _, .label l :: rest => .label l :: predictedLines none rest
  | before, .instr i :: rest =>
    let i' := match before with
      | some j => if (predictTargets j.name).contains i.name then { i with lineno := j.lineno } else i
      | none => i
    .instr i' :: predictedLines (some i') rest

/-- No instruction of the program ran. -/
def Quiet {U E} (tr : List (Ev U E)) : Prop := seen tr = []

/-- The debugger was asked about the line. -/
def Asked {U E} (L : Int) (tr : List (Ev U E)) : Prop := ∃ answer, Ev.check L answer ∈ tr

/-- In the events `tr`, the debugger is asked about a line of `lines` whenever
the program enters it: for each instruction `i` of the program that ran and
has such a line `L`, one of these holds.
* Since the last instruction of the program the debugger was asked about `L`.
* `i` is a `POP_TOP` right after a label, and the debugger is asked about `L`
  before the next instruction of the program.
* The line was not entered here: the last instruction of the program that ran
  is the one right before `i` in the code, without a label between them, and is
  on `L` too.
(`stack ≠ []` says that a `POP_TOP` has something to pop.) -/
def EntriesAsked {U E} (prog : List Item) (lines : List Int) (tr : List (Ev U E)) : Prop :=
  ∀ before i stack env rest L, tr = before ++ .ran i stack env :: rest →
    i.offset.isSome → stack ≠ [] → i.lineno = some L → L ∈ lines →
    (∃ a b, before = a ++ b ∧ Quiet b ∧ Asked L b) ∨
    (i.name = "POP_TOP" ∧ (∃ p l s, prog = p ++ .label l :: .instr i :: s) ∧
      (Quiet rest ∨ ∃ a b, rest = a ++ b ∧ Quiet a ∧ Asked L a)) ∨
    (∃ a j stack' env', before = a ++ [.ran j stack' env'] ∧ j.offset.isSome ∧
      j.lineno = some L ∧ ∃ p s, prog = p ++ .instr j :: .instr i :: s)

/-- Only instructions of the debugger ran, and the debugger was not called. -/
def Bare {U E} (tr : List (Ev U E)) : Prop := ∀ ev ∈ tr, ∃ i st e, ev = .ran i st e ∧ i.offset = none

/-- When the debugger says it needs to stop at a line it is told to, before
anything else happens (unless the run is cut off in between). -/
def ChecksObeyed {U E} (tr : List (Ev U E)) : Prop :=
  ∀ before L rest, tr = before ++ .check L true :: rest →
    Bare rest ∨ ∃ a b, rest = a ++ .stopped L :: b ∧ Bare a

/-- The debugger is told to stop at a line only when it has just said it needs
to, and then the next two instructions that run are on another line and on
that line, so that the interpreter announces the line to the debugger. -/
def StopsAnnounced {U E} (lines : List Int) (tr : List (Ev U E)) : Prop :=
  ∀ before L rest, tr = before ++ .stopped L :: rest →
    L ∈ lines ∧
    (∃ a b, before = a ++ .check L true :: b ∧ Bare b) ∧
    (∀ x y rest', rest = x :: y :: rest' →
      ∃ i st e j st' e', x = .ran i st e ∧ y = .ran j st' e' ∧ i.offset = none ∧ j.offset = none ∧
        i.lineno ≠ some L ∧ j.lineno = some L)

/-- Where an item was in the code that was read. -/
def Item.place : Item → Option Nat
  | .label _ => none
  | .instr i => i.offset

/-- No two instructions of a program are at the same place. -/
def Placed (prog : List Item) : Prop := (prog.filterMap Item.place).Nodup

/-- The instruction is the first one of its line, in the order of the code. -/
def FirstOnLine (prog : List Item) (i : Instr) : Prop :=
  ∃ a b, prog = a ++ .instr i :: b ∧ ∀ j, .instr j ∈ a → j.lineno ≠ i.lineno

/-- As `EntriesAsked`, for the first instruction of a line in the order of the
code only. -/
def FirstEntriesAsked {U E} (orig prog : List Item) (lines : List Int) (tr : List (Ev U E)) : Prop :=
  ∀ before i stack env rest L, tr = before ++ .ran i stack env :: rest →
    i.offset.isSome → stack ≠ [] → i.lineno = some L → L ∈ lines → FirstOnLine orig i →
    (∃ a b, before = a ++ b ∧ Quiet b ∧ Asked L b) ∨
    (i.name = "POP_TOP" ∧ (∃ p l s, prog = p ++ .label l :: .instr i :: s) ∧
      (Quiet rest ∨ ∃ a b, rest = a ++ b ∧ Quiet a ∧ Asked L a))

end Bytecode
