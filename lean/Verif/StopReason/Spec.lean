import Verif.StopReason.Model

/-! The reasons a client should be told, from what was asked of the thread and what happened to it,
without commands. -/

namespace StopReason.Spec

/-- How the thread was last told to go on. -/
inductive Wish where
  /-- To run. -/
  | free
  /-- To run to the first line of the program. -/
  | entry
  /-- To run to the frame `settrace` was given. -/
  | toFrame
  /-- To step. -/
  | step (out : Bool)
deriving DecidableEq, Repr

/-- Why the thread stops, or is to stop. -/
inductive Why where
  | stepEnded
  | because (r : Reason)
deriving DecidableEq, Repr

structure World where
  pc : Pc
  /-- The thread is to stop as soon as it can, or has. -/
  held : Bool
  wish : Wish
  why : Why
  told : List Reason
deriving DecidableEq, Repr

/-- Whoever stops the thread last gives the reason. -/
def stop (w : World) (r : Reason) : World := { w with held := true, why := .because r }

/-- What a step which ended is told as. -/
def ended : Wish → Why
  | .toFrame => .because .breakpoint
  | _ => .stepEnded

/-- A step under way ends here. -/
def finish (w : World) : World :=
  if w.held = true then { w with pc := .stopping }
  else if w.wish = .free then w
  else { w with pc := .stopping, held := true, why := ended w.wish }

def act (w : World) : Act → World
  | .stopOnEntry => if w.pc = .running ∧ w.held = false then { w with wish := .entry } else w
  | .settrace atFrame =>
    if w.pc = .running then
      if atFrame = true then { w with wish := .toFrame, held := false } else { stop w .breakpoint with wish := .toFrame }
    else w
  | .pause | .suspendAll => stop w .pause
  | .resume => { w with held := false, wish := .free }
  | .breakpoint => if w.pc = .running then { stop w .breakpoint with pc := .stopping } else w
  | .functionBreakpoint => if w.pc = .running then { stop w .functionBreakpoint with pc := .stopping } else w
  | .exception _ => if w.pc = .running then { stop w .exception with pc := .stopping } else w
  | .line | .ret => if w.pc = .running then finish w else w
  | .outOfFrame => w
  | .tell =>
    if w.pc = .stopping then
      match w.why with
      | .because r => { w with pc := .waiting, told := w.told ++ [r] }
      | .stepEnded =>
        if w.wish = .entry then { w with pc := .waiting, told := w.told ++ [.entry], wish := .free }
        else { w with pc := .waiting, told := w.told ++ [.step] }
    else w
  | .step k => if w.pc = .waiting then { w with held := false, wish := .step (k = .ret ∨ k = .retMyCode) } else w
  | .goto ok =>
    if w.pc = .waiting then
      if ok = true then { stop w .goto with pc := .stopping, wish := .free } else { stop w .pause with wish := .free }
    else w
  | .leave _ noBack =>
    if w.pc = .waiting ∧ w.held = false then
      { w with pc := .running, wish := if w.wish = .step true ∧ noBack = true then .free else w.wish }
    else w

def run (w : World) (acts : List Act) : World := acts.foldl act w

def init : World := { pc := .running, held := false, wish := .free, why := .stepEnded, told := [] }

/-- With monitoring, no return ends a step while the thread is to stop for another reason. -/
def Clean (mon : Bool) (w : World) : List Act → Prop
  | [] => True
  | a :: as => (mon = true → a = .ret → w.held = false) ∧ Clean mon (act w a) as

end StopReason.Spec
