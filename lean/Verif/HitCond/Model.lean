import Verif.Common.PyInt
import Verif.Common.Str
/-!
Model of hit conditions.

Source: `/repo/_pydevd_bundle/pydevd_process_net_command_json.py` `_get_hit_condition_expression` (700-725);
`/repo/_pydevd_bundle/pydevd_breakpoints.py` `LineBreakpoint.handle_hit_condition` (64-76), the same as
`FunctionBreakpoint.handle_hit_condition` (93-105).

`eval` is modelled for the expressions this produces from the documented forms: integer literals, unary sign,
`%`, and comparisons (chained as in Python). Any other text is "outside the fragment"; in the model it
counts as raising, that is, as false. White space is ASCII.
-/

namespace HitCond

/-- `_get_hit_condition_expression` (700-725); `none` is `None`. -/
def hitExpr (h : List Char) : Option (List Char) :=
  if h = [] then none
  else
    let expr := Py.strip h
    if (Py.parseInt expr).isSome then some (c!"@HIT@ == " ++ expr)
    else if Py.startsWith expr c!"%" then some (c!"@HIT@ " ++ expr ++ c!" == 0")
    else if Py.startsWith expr c!"==" || Py.startsWith expr c!">" || Py.startsWith expr c!"<" then
      some (c!"@HIT@ " ++ expr)
    else some h

/-! ### Python's `eval` on the fragment -/

inductive Cmp where
  | eq | ne | ge | le | gt | lt
deriving DecidableEq, Repr

inductive Tok where
  | int (n : Nat)
  | cmp (c : Cmp)
  | mod
  | plus
  | minus
deriving DecidableEq, Repr

/-- A decimal literal: digits with single underscores; no leading zero unless the value is zero. -/
def literal (ds : List Char) : Option Nat :=
  match Py.parseDigits ds 0 false with
  | none => none
  | some n => if ds.head? = some '0' ∧ n ≠ 0 then none else some n

/-- The literal read so far, as tokens. -/
def flush : Option (List Char) → Option (List Tok)
  | none => some []
  | some ds => (literal ds).map (fun n => [.int n])

def isLitChar (c : Char) (started : Bool) : Bool := Py.isDigit c || (c == '_' && started)

/-- Tokenizer; the second argument is the literal being read. -/
def lex : List Char → Option (List Char) → Option (List Tok)
  | [], cur => flush cur
  | c :: cs, cur =>
    if isLitChar c cur.isSome then lex cs (some (cur.getD [] ++ [c]))
    else
      match flush cur with
      | none => none
      | some pre =>
        if c = ' ' || c = '\t' then (lex cs none).map (pre ++ ·)
        else if c = '%' then (lex cs none).map (pre ++ .mod :: ·)
        else if c = '+' then (lex cs none).map (pre ++ .plus :: ·)
        else if c = '-' then (lex cs none).map (pre ++ .minus :: ·)
        else
          match c, cs with
          | '=', '=' :: r => (lex r none).map (pre ++ .cmp .eq :: ·)
          | '!', '=' :: r => (lex r none).map (pre ++ .cmp .ne :: ·)
          | '>', '=' :: r => (lex r none).map (pre ++ .cmp .ge :: ·)
          | '<', '=' :: r => (lex r none).map (pre ++ .cmp .le :: ·)
          | '>', r => (lex r none).map (pre ++ .cmp .gt :: ·)
          | '<', r => (lex r none).map (pre ++ .cmp .lt :: ·)
          | _, _ => none

/-- `u_expr` -/
def unary : List Tok → Option (Int × List Tok)
  | .int n :: r => some (n, r)
  | .minus :: r => (unary r).map (fun x => (-x.1, x.2))
  | .plus :: r => unary r
  | _ => none

/-- The rest of an `m_expr`: `% u_expr` repeated; `none` also for a zero divisor. -/
def modRest : Nat → Int → List Tok → Option (Int × List Tok)
  | 0, _, _ => none
  | fuel + 1, a, .mod :: r =>
    match unary r with
    | none => none
    | some (b, r) => if b = 0 then none else modRest fuel (a.fmod b) r
  | _ + 1, a, r => some (a, r)

def arith (fuel : Nat) (ts : List Tok) : Option (Int × List Tok) :=
  match unary ts with
  | none => none
  | some (a, r) => modRest fuel a r

def compare (a b : Int) : Cmp → Bool
  | .eq => a = b
  | .ne => a ≠ b
  | .ge => a ≥ b
  | .le => a ≤ b
  | .gt => a > b
  | .lt => a < b

/-- A chain of comparisons; all of them must hold. -/
def cmpRest : Nat → Int → List Tok → Option Bool
  | 0, _, _ => none
  | _ + 1, _, [] => some true
  | fuel + 1, a, .cmp c :: r =>
    match arith fuel r with
    | none => none
    | some (b, r) => (cmpRest fuel b r).map (fun rest => compare a b c && rest)
  | _ + 1, _, _ => none

/-- `bool(eval(expr))`; `none` when it raises (or is outside the fragment). -/
def evalExpr (e : List Char) : Option Bool :=
  match lex e none with
  | none => none
  | some ts =>
    match arith (ts.length + 1) ts with
    | none => none
    | some (a, []) => some (a ≠ 0)
    | some (a, r) => cmpRest (ts.length + 1) a r

/-- The value computed under the lock for hit number `count` (68-75). -/
def evalHit (cond : List Char) (count : Nat) : Bool :=
  (evalExpr (Py.replaceAll c!"@HIT@" (Py.natStr count) cond)).getD false

/-- `handle_hit_condition` (64-76): new `_hit_count` and result. An empty condition counts nothing. -/
def handleHit (cond : Option (List Char)) (count : Nat) : Nat × Bool :=
  match cond with
  | none => (count, false)
  | some [] => (count, false)
  | some c => (count + 1, evalHit c (count + 1))

/-! ### Several threads: the lock -/

inductive Phase where
  /-- before `with self._hit_condition_lock` -/
  | idle
  /-- holds the lock, has not incremented -/
  | locked
  /-- holds the lock, has incremented `_hit_count` to `n` -/
  | counted (n : Nat)
deriving DecidableEq, Repr

structure State where
  count : Nat := 0
  /-- holder of the lock -/
  owner : Option Nat := none
  phase : Nat → Phase := fun _ => .idle
  /-- results returned so far: thread and value, in order of return -/
  results : List (Nat × Bool) := []
  /-- ghost: the ordinals with which `eval` was called -/
  ordinals : List Nat := []

inductive Action where
  /-- acquires the lock if it is free (otherwise the thread stays blocked) -/
  | acquire (t : Nat)
  /-- `self._hit_count += 1` -/
  | count (t : Nat)
  /-- evaluate, release the lock and return -/
  | finish (t : Nat)

def setPhase (p : Nat → Phase) (t : Nat) (x : Phase) : Nat → Phase := fun u => if u = t then x else p u

def step (cond : List Char) (s : State) : Action → State
  | .acquire t =>
    if s.phase t = .idle ∧ s.owner = none then { s with owner := some t, phase := setPhase s.phase t .locked } else s
  | .count t =>
    if s.phase t = .locked then
      { s with count := s.count + 1, phase := setPhase s.phase t (.counted (s.count + 1)) }
    else s
  | .finish t =>
    match s.phase t with
    | .counted _ =>
      -- the code reads `self._hit_count` again to build the expression
      { s with owner := none, phase := setPhase s.phase t .idle,
               results := s.results ++ [(t, evalHit cond s.count)], ordinals := s.ordinals ++ [s.count] }
    | _ => s

def run (cond : List Char) (as : List Action) : State := as.foldl (step cond) {}

end HitCond
