import Verif.Common.Dict
import Verif.Common.Lit
/-!
How it is decided which resolver expands a value and which text is shown for it, with the two caches by type.

Code modelled:
* `_pydevd_bundle/pydevd_xml.py`: `TypeResolveHandler.get_type` (154-177), `_get_type` (179-207),
  `_get_str_from_provider` (221-227), `str_from_providers` (229-250), `get_variable_details` (320-385).

Simplifications: what the program's objects, the extensions and the table of types
(`_create_default_type_map`, 39-133) answer is a parameter (`World`) and the same whenever it is asked;
`_initialize` is part of making the handler; the texts made when no extension provides one (360-379) are
one function of the value; the debugger's own `ExceptionOnEvaluate` is taken out before; Jython is left out.
-/

namespace TypeCache

abbrev Str := List Char
abbrev Obj := Nat
abbrev Ty := Nat
abbrev Prov := Nat

/-- A resolver: an extension, one of the table, or the default one. -/
inductive Resolver where
  | extension (p : Prov)
  | table (i : Nat)
  | default
  deriving DecidableEq, Repr

/-- What the program and the extensions answer; `none` is an exception. -/
structure World where
  /-- `o.__class__` -/
  cls : Obj → Option Ty
  /-- `type(o)` -/
  real : Obj → Ty
  /-- `t.__name__` -/
  name : Ty → Option Str
  /-- whether the type can be a key of a dictionary -/
  hashable : Ty → Bool
  /-- the extensions which are `TypeResolveProvider`s, and `can_provide` -/
  resolvers : List Prov
  claims : Prov → Ty → Option Bool
  /-- the table of types; a resolver `None` is for values without children -/
  table : List (Ty × Option Resolver)
  /-- `isinstance_checked(o, t)` -/
  isinst : Obj → Ty → Bool
  /-- the extensions which are `StrPresentationProvider`s, `can_provide`, and `get_str` or
  `get_str_in_context` (which may return `None`) -/
  strs : List Prov
  strClaims : Prov → Ty → Option Bool
  strOf : Prov → Obj → Option Str → Option (Option Str)
  /-- the text when no extension provides one (pydevd_xml.py 350-379) -/
  plain : Obj → Option Str
  /-- `repr(o)`, or the message that there is none (381-385) -/
  repr : Obj → Str

/-- What is kept for a type: a provider of texts, or that there is none (`NO_PROVIDER`). -/
inductive Kept where
  | provider (p : Prov)
  | noProvider
  deriving DecidableEq, Repr

structure Handler where
  types : List (Ty × Option Resolver)
  texts : List (Ty × Kept)
  deriving Repr

/-- A new `TypeResolveHandler` (pydevd_xml.py 139-152). -/
def Handler.new : Handler := ⟨[], []⟩

/-- The loop over the extensions (189-193): the first that claims the type; `none` is an exception. -/
def firstClaim (claims : Prov → Option Bool) : List Prov → Option (Option Prov)
  | [] => some none
  | p :: ps =>
    match claims p with
    | none => none
    | some true => some (some p)
    | some false => firstClaim claims ps

/-- The resolver found without the cache (188-205). -/
def find (w : World) (o : Obj) (t : Ty) : Option Resolver :=
  match firstClaim (fun p => w.claims p t) w.resolvers with
  | none => some .default
  | some (some p) => some (.extension p)
  | some none =>
    match w.table.find? (fun e => w.isinst o e.1) with
    | some e => e.2
    | none => some .default

/-- `_get_type` (179-207): `none` is the exception for a type that cannot be a key. -/
def getTypeFor (w : World) (h : Handler) (o : Obj) (t : Ty) : Option (Option Resolver × Handler) :=
  if w.hashable t = false then none
  else match Py.Dict.get h.types t with
    | some (some r) => some (some r, h)
    | _ => some (find w o t, { h with types := Py.Dict.set h.types t (find w o t) })

/-- The result of `get_type`: a type with its name and resolver, or "Unable to get Type". -/
inductive Answer where
  | type (t : Ty) (name : Str) (r : Option Resolver)
  | unable
  deriving DecidableEq, Repr

/-- The second attempt, with `type(o)` (164-177). -/
def getTypeReal (w : World) (h : Handler) (o : Obj) : Answer × Handler :=
  match w.name (w.real o) with
  | none => (.unable, h)
  | some n =>
    match getTypeFor w h o (w.real o) with
    | some (r, h') => (.type (w.real o) n r, h')
    | none => (.type (w.real o) n (some .default), h)

/-- The first attempt, with `o.__class__` (156-160): `none` is an exception in it. -/
def getTypeClass (w : World) (h : Handler) (o : Obj) : Option (Answer × Handler) :=
  match w.cls o with
  | none => none
  | some t =>
    match w.name t with
    | none => none
    | some n =>
      match getTypeFor w h o t with
      | some (r, h') => some (.type t n r, h')
      | none => none

/-- `get_type` (154-177). -/
def getType (w : World) (h : Handler) (o : Obj) : Answer × Handler :=
  match getTypeClass w h o with
  | some x => x
  | none => getTypeReal w h o

/-- What `str_from_providers` does: an exception, or a text or `None`. -/
inductive Text where
  | raises
  | is (s : Option Str)
  deriving DecidableEq, Repr

def ofStr : Option (Option Str) → Text
  | none => .raises
  | some s => .is s

/-- The loop over the providers of texts (241-250): each that claims the type is kept and tried; the
first that does not raise is used. -/
def textLoop (w : World) (o : Obj) (t : Ty) (ctx : Option Str) (h : Handler) : List Prov → Text × Handler
  | [] => (.is none, { h with texts := Py.Dict.set h.texts t .noProvider })
  | p :: ps =>
    match w.strClaims p t with
    | none => (.raises, h)
    | some false => textLoop w o t ctx h ps
    | some true =>
      match w.strOf p o ctx with
      | some s => (.is s, { h with texts := Py.Dict.set h.texts t (.provider p) })
      | none => textLoop w o t ctx { h with texts := Py.Dict.set h.texts t (.provider p) } ps

/-- `str_from_providers` (229-250). -/
def strFromProviders (w : World) (h : Handler) (o : Obj) (t : Ty) (ctx : Option Str) : Text × Handler :=
  if w.hashable t = false then (.raises, h)
  else match Py.Dict.get h.texts t with
    | some .noProvider => (.is none, h)
    | some (.provider p) => (ofStr (w.strOf p o ctx), h)
    | none => textLoop w o t ctx h w.strs

/-- The text of a value whose provider did what `x` says (345-385). -/
def valueOf (w : World) (o : Obj) : Text → Str
  | .raises => w.repr o
  | .is (some s) => s
  | .is none => (w.plain o).getD (w.repr o)

/-- `get_variable_details` (320-385): the type and resolver, and the text.  When no type could be got the
text "Unable to get Type" is the key of the cache of providers; it is claimed by none of them and so left out. -/
def details (w : World) (h : Handler) (o : Obj) (ctx : Option Str) : (Answer × Str) × Handler :=
  match (getType w h o).1 with
  | .unable => ((.unable, valueOf w o (.is none)), (getType w h o).2)
  | .type t n r =>
    ((.type t n r, valueOf w o (strFromProviders w (getType w h o).2 o t ctx).1),
      (strFromProviders w (getType w h o).2 o t ctx).2)

/-- Showing values one after the other. -/
def after (w : World) (h : Handler) : List (Obj × Option Str) → Handler
  | [] => h
  | x :: xs => after w (details w h x.1 x.2).2 xs

end TypeCache
