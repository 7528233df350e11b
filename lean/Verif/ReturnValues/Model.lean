import Verif.Dispatch.Model
import Verif.MonStep.Model
import Verif.Common.Dict
/-!
Model of the option to show return values: which returned values are recorded for the client while stepping.

Source: `/repo/_pydevd_bundle/pydevd_frame.py` `_show_return_values` (235-252) and its use (736-750) - the latter in `Dispatch.dispatch`,
effect `showReturn`; `/repo/_pydevd_sys_monitoring/_pydevd_sys_monitoring.py` `_show_return_values` (1039-1055), `_return_event`
(1088-1220), `_enable_step_tracing` (846-866, in `MonStep.stepTracing`).
-/

namespace ReturnValues

/-! ### What is recorded -/

/-- a call whose value is recorded: the frame that made it, the name of the function (`get_func_name`), the value -/
structure Recorded (V : Type) where
  caller : Nat
  name : List Char
  value : V

/-- the dictionary `__pydevd_ret_val_dict` in the locals of each frame -/
abbrev Store (V : Type) := Nat → List (List Char × V)

/-- `_show_return_values` (pydevd_frame.py 235-252, _pydevd_sys_monitoring.py 1039-1055) -/
def record {V : Type} (s : Store V) (r : Recorded V) : Store V :=
  fun f => if f = r.caller then Py.Dict.set (s f) r.name r.value else s f

def recordAll {V : Type} (rs : List (Recorded V)) : Store V := rs.foldl record (fun _ => [])

/-! ### `sys.monitoring` -/

open MonStep

/-- whether `_return_event` (1088-1220) calls `_show_return_values`, for the frame `f` with the callers `back`. In the condition for step
return (1193) a tuple is written, which is true, where the frame was to be compared. -/
def retShows (cfg : Cfg) (st : St) (f : Frame) (back : Stack) : Bool :=
  cfg.showRet && !f.code.skip &&
    match st.cmd with
    | .none => false
    | .into => true
    | .intoMy =>
      match back with
      | b :: _ => (visible cfg true b.code && st.initial != some (b.id, b.line)) || !b.code.filterForce
      | [] => false
    | .ret | .retMy => true
    | .over | .overMy => same st f || (match back with | b :: _ => same st b | [] => false)

/-- the call (frame and caller) whose value is recorded at an event, if the interpreter reports it; nothing is recorded without a caller -/
def shown (cfg : Cfg) (st : St) (m : Mon) (e : Event) : List (Frame × Frame) :=
  match e.ev, st.stack with
  | .ret, f :: b :: rest =>
    if m.on && m.retOn f.code && !m.disabled f.code .ret && retShows cfg st f (b :: rest) then [(f, b)] else []
  | _, _ => []

end ReturnValues
