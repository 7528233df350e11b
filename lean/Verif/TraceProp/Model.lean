import Verif.Common.Split
import Verif.Common.Lit
/-!
Properties of classes while the debugger can leave their code out of tracing: the type put in the place of
`property`, its accessors, and the command that sets what is left out.

pydevd_traceproperty.py (all), pydevd_process_net_command.py `cmd_set_property_trace` (553-577), pydevd.py
`enable_tracing` (1122-1164) and `disable_tracing` (1166-1170) as far as the current thread goes.

Simplifications: the frames of `__get__`, `__set__` and `__delete__` themselves are files of the debugger and are not
traced; functions are names (`F`); what the code of an accessor does is a tree of lines and calls.
-/

namespace TraceProp

abbrev Str := List Char

/-! ## Declaring properties -/

/-- The three functions of a property. -/
structure P3 (F : Type) where
  fget : Option F
  fset : Option F
  fdel : Option F
deriving DecidableEq, Repr

/-- The functions of a property by kind. -/
inductive Kind where
  | get
  | set
  | del
deriving DecidableEq, Repr

/-- `self.fget = fget` and so on (76-89). -/
def P3.put {F : Type} (p : P3 F) (k : Kind) (f : F) : P3 F :=
  match k with
  | .get => { p with fget := some f }
  | .set => { p with fset := some f }
  | .del => { p with fdel := some f }

/-- A step of the bodies of classes: variables are attributes of classes. -/
inductive Decl (V F : Type) where
  /-- `x = property(g, s, d)` -/
  | new (x : V) (p : P3 F)
  /-- `y = x.getter(f)`, and the like -/
  | put (y x : V) (k : Kind) (f : F)
  /-- `y = x` -/
  | alias (y x : V)

/-- Variables name objects, which hold functions. -/
structure State (V F : Type) where
  env : V → Option Nat
  heap : Nat → P3 F
  next : Nat

def State.bind {V F : Type} [DecidableEq V] (s : State V F) (y : V) (o : Nat) : State V F :=
  { s with env := fun z => if z = y then some o else s.env z }

/-- A step with `DebugProperty` (26-36, 76-89): `getter` and the others change the object and give it back. A name that
is not there ends the program (`none`). -/
def declare {V F : Type} [DecidableEq V] (s : State V F) : Decl V F → Option (State V F)
  | .new x p =>
    some (State.bind { s with heap := fun o => if o = s.next then p else s.heap o, next := s.next + 1 } x s.next)
  | .put y x k f =>
    match s.env x with
    | none => none
    | some o => some (State.bind { s with heap := fun o' => if o' = o then (s.heap o).put k f else s.heap o' } y o)
  | .alias y x =>
    match s.env x with
    | none => none
    | some o => some (s.bind y o)

def declareAll {V F : Type} [DecidableEq V] (s : State V F) : List (Decl V F) → Option (State V F)
  | [] => some s
  | d :: ds =>
    match declare s d with
    | none => none
    | some s' => declareAll s' ds

/-- What an attribute is. -/
def State.look {V F : Type} (s : State V F) (x : V) : Option (P3 F) := (s.env x).map s.heap

/-! ## Using properties -/

/-- What a function does: a line, or a call. `k`: a call of a function (`none`) or a use of a property; `present`:
the property has such a function; `body` and `raises`: what the called code does, and whether it raises at its end;
`caught`: whether the caller goes on after an exception. -/
inductive Item where
  | line (n : Nat)
  | sub (k : Option Kind) (present : Bool) (body : List Item) (raises : Bool) (caught : Bool)

/-- What was run, which lines of it were traced, whether tracing is on after it, and whether it raised. -/
structure Out where
  ran : List Nat
  traced : List Nat
  tracing : Bool
  raised : Bool
deriving DecidableEq, Repr

/-- The settings: is there a debugger, and which kinds it leaves out. -/
structure Cfg where
  debugger : Bool
  off : Kind → Bool

/-- `disable_tracing` at the start of an accessor (43-44, 55-56, 67-68). -/
def Cfg.enter (c : Cfg) (k : Kind) (tracing : Bool) : Bool := if c.debugger && c.off k then false else tracing

/-- `enable_tracing` at its end (48-50, 60-62, 72-74). -/
def Cfg.leave (c : Cfg) (tracing : Bool) : Bool := if c.debugger then true else tracing

mutual
/-- One item of a frame which was entered with tracing on (`here`) or off; a line is traced if tracing was on when its
frame was entered and is on now. -/
def runItem (c : Cfg) (here tracing : Bool) : Item → Out
  | .line n => ⟨[n], if here && tracing then [n] else [], tracing, false⟩
  | .sub none _ body raises caught =>
    let o := runItems c tracing tracing body
    ⟨o.ran, o.traced, o.tracing, (o.raised || raises) && !caught⟩
  | .sub (some k) present body raises caught =>
    let t := c.enter k tracing
    if present then
      let o := runItems c t t body
      ⟨o.ran, o.traced, c.leave o.tracing, (o.raised || raises) && !caught⟩
    else ⟨[], [], c.leave t, !caught⟩
/-- The items of a frame, up to one that raises. -/
def runItems (c : Cfg) (here tracing : Bool) : List Item → Out
  | [] => ⟨[], [], tracing, false⟩
  | i :: is =>
    let o := runItem c here tracing i
    if o.raised then o
    else
      let o' := runItems c here o.tracing is
      ⟨o.ran ++ o'.ran, o.traced ++ o'.traced, o'.tracing, o'.raised⟩
end

/-! ## The command -/

/-- `disable_property_trace`, `disable_property_getter_trace`, `..._setter_...` and `..._deleter_...`. -/
structure Flags where
  replaced : Bool := false
  getter : Bool := false
  setter : Bool := false
  deleter : Bool := false
deriving DecidableEq, Repr

/-- `cmd_set_property_trace` (553-577), and whether it raises (the fourth part is used, though three are enough to get
there). -/
def setTrace (fl : Flags) (text : Str) : Flags × Bool :=
  if text = [] then (fl, false)
  else
    match Py.split1 ';' text with
    | a :: b :: c :: rest =>
      let fl := { fl with replaced := fl.replaced || a == c!"true", getter := b == c!"true", setter := c == c!"true" }
      match rest with
      | d :: _ => ({ fl with deleter := d == c!"true" }, false)
      | [] => (fl, true)
    | _ => (fl, false)

/-- The settings of accessors with these flags. -/
def Flags.cfg (fl : Flags) : Cfg :=
  ⟨true, fun k => match k with
    | .get => fl.getter
    | .set => fl.setter
    | .del => fl.deleter⟩

end TraceProp
