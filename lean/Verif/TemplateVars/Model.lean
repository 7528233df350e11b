import Verif.Common.Dict
import Verif.Common.Str
import Verif.Common.Split
import Verif.Common.Lit
/-!
The variables shown for a frame of a template, and changing one.

Code modelled: `pydevd_plugins/jinja2_debug.py` `Jinja2TemplateFrame._get_real_var_name` (203-208), `collect_context` (210-220),
`_change_variable` (222-237) as called by `change_variable` (252-257); `pydevd_plugins/django_debug.py` `DjangoTemplateFrame._collect_context`
(401-409) and `_change_variable` (411-415) as called by `change_variable` (430-435).

Simplifications: values are opaque, with their truth and whether they are Jinja2's `missing`. Digits are those of ASCII. The items of a Jinja2
context are given as a dictionary (its `items()` are those of its variables over those of its parent).
-/

namespace TemplateVars

abbrev Name := List Char

/-- `str.isdigit` -/
def isDigit (s : Name) : Bool := !s.isEmpty && s.all fun c => decide ('0' ≤ c) && decide (c ≤ '9')

/-- `_get_real_var_name` (203-208) -/
def realName (n : Name) : Name :=
  match Py.split1 '_' n with
  | d :: x :: _ => if isDigit d then x else n
  | _ => n

variable {α : Type}

/-- The first loop of `collect_context` (212-216); `truthy v` and `missing v` are `v` as a condition and `_is_missing(v)` -/
def collectLocals (truthy missing : α → Bool) (res : List (Name × α)) : List (Name × α) → List (Name × α)
  | [] => res
  | (k, v) :: rest =>
    let res :=
      if !Py.startsWith k c!"l_" then Py.Dict.set res k v
      else if truthy v && !missing v then Py.Dict.set res (realName (k.drop 2)) v
      else res
    collectLocals truthy missing res rest

/-- `for k, v in items: res[k] = v` (217-219) -/
def update (res : List (Name × α)) : List (Name × α) → List (Name × α)
  | [] => res
  | (k, v) :: rest => update (Py.Dict.set res k v) rest

/-- `collect_context` of Jinja2 (210-220) -/
def jinja (truthy missing : α → Bool) (locals : List (Name × α)) (context : Option (List (Name × α))) : List (Name × α) :=
  let res := collectLocals truthy missing [] locals
  match context with
  | none => res
  | some c => update res c

/-- `_collect_context` of Django (401-409) -/
def django (dicts : List (List (Name × α))) : List (Name × α) := dicts.foldl update []

/-- Does a call with this many positional arguments and these keywords fit a function with these parameters (no defaults, no stars)? -/
def binds (params : List Name) (positional : Nat) (keywords : List Name) : Bool :=
  decide (positional ≤ params.length) && keywords.all (fun k => (params.drop positional).contains k) &&
    (params.drop positional).all fun p => keywords.contains p

/-- The parameters of `_change_variable` of Jinja2's frame (222), without `self` -/
def jinjaParams : List Name := [c!"frame", c!"name", c!"value"]

/-- Does `change_variable` of the Jinja2 plugin get through (255: three arguments and `scope`)? -/
def jinjaChange : Bool := binds jinjaParams 3 [c!"scope"]

/-- The parameters of `_change_variable` of Django's frame (411), without `self` -/
def djangoParams : List Name := [c!"name", c!"value"]

/-- Does `change_variable` of the Django plugin get through (433: two arguments and `scope`)? -/
def djangoChange : Bool := binds djangoParams 2 [c!"scope"]

end TemplateVars
