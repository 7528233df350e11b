import Verif.StepCalls.Model
/-!
# Lines, their calls and their bytecode

The expressions and statements a line may consist of, the calls they make, and the bytecode Python compiles them to.
Which of the calls can be offered is said in terms of the expressions.
-/
namespace StepCalls.Spec
open StepCalls

/-- The line and the offset of the instruction of an expression. -/
structure At where
  line : Nat
  offset : Nat
  deriving DecidableEq, Repr

/-- The kinds of comprehensions. -/
inductive Kind where
  | list | set | dict | gen
  deriving DecidableEq, Repr

/-- An expression; `p` says where it is. -/
inductive Expr where
  | name (p : At) (n : Name)
  /-- a constant; a string, or anything else -/
  | const (p : At) (s : Option Name)
  | attr (p : At) (o : Expr) (n : Name)
  /-- a call with positional and keyword arguments -/
  | call (p : At) (f : Expr) (args kws : List Expr)
  /-- `f(a, b, *c)` -/
  | callStar (p : At) (f : Expr) (args : List Expr) (star : Expr)
  | binary (p : At) (b : BinOp) (l r : Expr)
  | subscr (p : At) (o i : Expr)
  | compare (p : At) (c : CmpOp) (l r : Expr)
  /-- an unary operator; or a part of an f-string, without a format -/
  | unary (p : At) (e : Expr)
  /-- a tuple, list or set, a slice, or an f-string -/
  | display (p : At) (es : List Expr)
  /-- a dictionary: keys and values in turn -/
  | dict (p : At) (es : List Expr)
  /-- a function without a name, in the function with the qualified name `outer` -/
  | lam (p : At) (outer : Option Name)
  /-- a comprehension with one loop over `iter`, conditions, and elements (for a dictionary: key and value); it uses
  `free` variables of the function -/
  | comp (p : At) (k : Kind) (outer : Option Name) (free : Nat) (iter : Expr) (conds elts : List Expr)
  /-- `a and b and c`, or with `or` -/
  | bool (p : At) (e : Expr) (rest : List Expr)
  /-- `a if c else b` -/
  | ifExp (p : At) (c a b : Expr)

/-- Where an expression is. -/
def Expr.pos : Expr → At
  | .name p _ | .const p _ | .attr p _ _ | .call p _ _ _ | .callStar p _ _ _ | .binary p _ _ _ | .subscr p _ _
  | .compare p _ _ _ | .unary p _ | .display p _ | .dict p _ | .lam p _ | .comp p _ _ _ _ _ _ | .bool p _ _
  | .ifExp p _ _ _ => p

/-- The method of an operator. -/
def method : BinOp → Name
  | .pow => c!"__pow__" | .mul => c!"__mul__" | .matmul => c!"__matmul__" | .floordiv => c!"__floordiv__"
  | .truediv => c!"__truediv__" | .mod => c!"__mod__" | .add => c!"__add__" | .sub => c!"__sub__"
  | .lshift => c!"__lshift__" | .rshift => c!"__rshift__" | .and => c!"__and__" | .or => c!"__or__"
  | .xor => c!"__xor__"

/-- The method of a comparison. -/
def cmpMethod : CmpOp → Name
  | .lt => c!"__lt__" | .le => c!"__le__" | .eq => c!"__eq__" | .ne => c!"__ne__" | .gt => c!"__gt__"
  | .ge => c!"__ge__"

def Kind.text : Kind → Name
  | .list => c!"<listcomp>" | .set => c!"<setcomp>" | .dict => c!"<dictcomp>" | .gen => c!"<genexpr>"

/-- What a called function is named: by its name, or the attribute; what is got by a subscription, and a function
without a name, have names of their own.  The results of calls and other values have none. -/
def nameOf : Expr → Option Name
  | .name _ n => some n
  | .attr _ _ n => some n
  | .subscr _ _ _ => some c!"__getitem__().__call__"
  | .lam _ _ => some c!"<lambda>"
  | _ => none

/-- A call of `f`, at `p`. -/
def named (f : Expr) (p : At) : List Target :=
  match nameOf f with
  | some n => [.mk n f.pos.line p.offset []]
  | none => []

/-- A comprehension with calls inside. -/
def around (k : Kind) (p : At) (inner : List Target) : List Target :=
  if inner.isEmpty then [] else [.mk k.text p.line p.offset inner]

mutual
/-- All calls of an expression, in the order in which they are made (those of a comprehension as one). -/
def calls : Expr → List Target
  | .name _ _ => []
  | .const _ _ => []
  | .attr _ o _ => calls o
  | .call p f args kws => calls f ++ callsAll args ++ callsAll kws ++ named f p
  | .callStar p f args star => calls f ++ callsAll args ++ calls star ++ named f p
  | .binary p b l r => calls l ++ calls r ++ [.mk (method b) p.line p.offset []]
  | .subscr p o i => calls o ++ calls i ++ [.mk c!"__getitem__" p.line p.offset []]
  | .compare p c l r => calls l ++ calls r ++ [.mk (cmpMethod c) p.line p.offset []]
  | .unary _ e => calls e
  | .display _ es => callsAll es
  | .dict _ es => callsAll es
  | .lam _ _ => []
  | .comp p k _ _ iter conds elts => calls iter ++ around k p (callsAll conds ++ callsAll elts)
  | .bool _ e rest => calls e ++ callsAll rest
  | .ifExp _ c a b => calls c ++ calls a ++ calls b
def callsAll : List Expr → List Target
  | [] => []
  | e :: r => calls e ++ callsAll r
end

mutual
/-- The evaluation of the expression branches (outside of comprehensions, which are code of their own). -/
def branches : Expr → Bool
  | .name _ _ => false
  | .const _ _ => false
  | .attr _ o _ => branches o
  | .call _ f args kws => branches f || branchesAny args || branchesAny kws
  | .callStar _ f args star => branches f || branchesAny args || branches star
  | .binary _ _ l r => branches l || branches r
  | .subscr _ o i => branches o || branches i
  | .compare _ _ l r => branches l || branches r
  | .unary _ e => branches e
  | .display _ es => branchesAny es
  | .dict _ es => branchesAny es
  | .lam _ _ => false
  | .comp _ _ _ _ iter _ _ => branches iter
  | .bool _ _ _ => true
  | .ifExp _ _ _ _ => true
def branchesAny : List Expr → Bool
  | [] => false
  | e :: r => branches e || branchesAny r
end

mutual
/-- Whether the debugger knows which instruction made the value of the expression. -/
def known : Expr → Bool
  | .name _ _ => true
  | .const _ _ => true
  | .attr _ _ _ => true
  | .call _ f args kws => known f && !branchesAny args && !branchesAny kws
  | .callStar _ f args star => known f && !branchesAny args && !branches star
  | .binary _ _ l r => known l && !branches r
  | .subscr _ o i => known o && !branches i
  | .compare _ _ l r => known l && !branches r
  | .unary _ e => known e
  | .display _ _ => true
  | .dict _ es => knownAll es
  | .lam _ _ => true
  | .comp _ _ _ _ iter _ _ => !branches iter
  | .bool _ _ _ => false
  | .ifExp _ _ _ _ => false
/-- Whether the debugger knows all the values, when they are evaluated one after the other. -/
def knownAll : List Expr → Bool
  | [] => true
  | e :: r => known e && !branchesAny r
end

/-- `x`, if `b`. -/
def onlyIf (b : Bool) (x : List Target) : List Target := if b then x else []

mutual
/-- The calls offered: those for which the called function, and all arguments, are known. -/
def offered : Expr → List Target
  | .name _ _ => []
  | .const _ _ => []
  | .attr _ o _ => offered o
  | .call p f args kws =>
    offered f ++ offeredAll args ++ offeredAll kws ++
      onlyIf (known f && !branchesAny args && !branchesAny kws) (named f p)
  | .callStar p f args star =>
    offered f ++ offeredAll args ++ offered star ++ onlyIf (known f && !branchesAny args && !branches star) (named f p)
  | .binary p b l r => offered l ++ offered r ++ onlyIf (known l && !branches r) [.mk (method b) p.line p.offset []]
  | .subscr p o i =>
    offered o ++ offered i ++ onlyIf (known o && !branches i) [.mk c!"__getitem__" p.line p.offset []]
  | .compare p c l r =>
    offered l ++ offered r ++ onlyIf (known l && !branches r) [.mk (cmpMethod c) p.line p.offset []]
  | .unary _ e => offered e
  | .display _ es => offeredAll es
  | .dict _ es => offeredAll es
  | .lam _ _ => []
  | .comp p k _ _ iter conds elts =>
    offered iter ++ onlyIf (!branches iter) (around k p (offeredAll conds ++ offeredAll elts))
  | .bool _ e rest => offered e ++ offeredAll rest
  | .ifExp _ c a b => offered c ++ offered a ++ offered b
def offeredAll : List Expr → List Target
  | [] => []
  | e :: r => offered e ++ offeredAll r
end

/-- A name in a program. -/
def isName (n : Name) : Bool := !n.isEmpty && !n.contains '>'

/-- The called thing is not one for which a wrong name would be given: a string, a comparison, or what an unary
operator made. -/
def callee : Expr → Bool
  | .const _ (some _) => false
  | .compare _ _ _ _ => false
  | .unary _ _ => false
  | _ => true

mutual
/-- The expression is of the form dealt with: names are names, fewer than 256 arguments, no true division, and
`callee`. -/
def ok : Expr → Bool
  | .name _ n => isName n
  | .const _ _ => true
  | .attr _ o n => ok o && isName n
  | .call _ f args kws =>
    ok f && callee f && okAll args && okAll kws && decide (args.length + kws.length < 256)
  | .callStar _ f args star => ok f && callee f && okAll args && ok star
  | .binary _ b l r => decide (b ≠ .truediv) && ok l && ok r
  | .subscr _ o i => ok o && ok i
  | .compare _ _ l r => ok l && ok r
  | .unary _ e => ok e
  | .display _ es => okAll es
  | .dict _ es => okAll es && decide (es.length % 2 = 0)
  | .lam _ _ => true
  | .comp _ _ _ _ iter conds elts => ok iter && okAll conds && okAll elts
  | .bool _ e rest => ok e && okAll rest
  | .ifExp _ c a b => ok c && ok a && ok b
def okAll : List Expr → Bool
  | [] => true
  | e :: r => ok e && okAll r
end

/-! ### Bytecode -/

/-- An instruction at `p`. -/
def ins (o : Op) (a : Arg) (p : At) : Instr := .mk o a p.line p.offset

/-- The qualified name of what is in the function `outer` (none: in the module). -/
def qual (outer : Option Name) (n : Name) : Name :=
  match outer with
  | none => n
  | some o => o ++ '.' :: n

/-- The instruction for a call: `CALL_METHOD` after `LOAD_METHOD` (which the interpreter treats as `LOAD_ATTR`),
`CALL_FUNCTION`, or `CALL_FUNCTION_KW` after the names of the keyword arguments. -/
def callIns (p : At) (f : Expr) (n k : Nat) : List Instr :=
  if k = 0 then
    match f with
    | .attr _ _ _ => [ins .callMethod (.num n) p]
    | _ => [ins .callFunction (.num n) p]
  else [ins .load .none p, ins .callKw (.num (n + k)) p]

/-- `LOAD_CLOSURE`s and `BUILD_TUPLE`. -/
def closure (p : At) (free : Nat) : List Instr :=
  if free = 0 then [] else List.replicate free (ins .load (.str c!"x") p) ++ [ins .build (.num free) p]

mutual
/-- The bytecode of an expression (Python 3.9 and 3.10; a `cut` where a block begins). -/
def compile : Expr → List Instr
  | .name p n => [ins .load (.str n) p]
  | .const p s => [ins .load (match s with | some t => .str t | none => .none) p]
  | .attr p o n => compile o ++ [ins .loadAttr (.str n) p]
  | .call p f args kws =>
    compile f ++ compileAll args ++ compileAll kws ++ callIns p f args.length kws.length
  | .callStar p f args star =>
    compile f ++ compileAll args ++ [ins .build (.num args.length) p] ++ compile star ++
      [ins .pop .none p, ins .nop .none p, ins .callEx (.num 0) p]
  | .binary p b l r => compile l ++ compile r ++ [ins (.binary b) .none p]
  | .subscr p o i => compile o ++ compile i ++ [ins .subscr .none p]
  | .compare p c l r => compile l ++ compile r ++ [ins (.compare c) .none p]
  | .unary p e => compile e ++ [ins .nop .none p]
  | .display p es => compileAll es ++ [ins .build (.num es.length) p]
  | .dict p es => compileAll es ++ [ins .buildMap (.num (es.length / 2)) p]
  | .lam p outer =>
    [ins .load (.code []) p, ins .load (.str (qual outer c!"<lambda>")) p, ins .makeFunction (.num 0) p]
  | .comp p k outer free iter conds elts =>
    closure p free ++
    [ins .load
       (.code ([ins .build (.num 0) p, ins .load .none p, ins .cut .none p, ins .nop .none p, ins .cut .none p,
           ins .pop .none p] ++
         compileTests p conds ++ compileAll elts ++ List.replicate elts.length (ins .pop .none p) ++
         [ins .nop .none p, ins .cut .none p, ins .pop .none p, ins .cut .none p])) p,
     ins .load (.str (qual outer k.text)) p, ins .makeFunction (.num (if free = 0 then 0 else 8)) p] ++
    compile iter ++ [ins .nop .none p, ins .callFunction (.num 1) p]
  | .bool p e rest => compile e ++ compileRest p rest ++ [ins .cut .none p]
  | .ifExp p c a b =>
    compile c ++ [ins .pop .none p, ins .cut .none p] ++ compile a ++ [ins .nop .none p, ins .cut .none p] ++
      compile b ++ [ins .cut .none p]
def compileAll : List Expr → List Instr
  | [] => []
  | e :: r => compile e ++ compileAll r
/-- Each is preceded by a jump. -/
def compileRest (p : At) : List Expr → List Instr
  | [] => []
  | e :: r => [ins .pop .none p, ins .cut .none p] ++ compile e ++ compileRest p r
/-- Each is followed by a jump. -/
def compileTests (p : At) : List Expr → List Instr
  | [] => []
  | e :: r => compile e ++ [ins .pop .none p, ins .cut .none p] ++ compileTests p r
end

/-- A statement (or the head of one); `p` is where its own instructions are. -/
inductive Stmt where
  | expr (p : At) (e : Expr)
  /-- `x = e` -/
  | assign (p : At) (e : Expr)
  /-- `o.n = e` -/
  | setAttr (p : At) (o e : Expr)
  /-- `o[i] = e` -/
  | setItem (p : At) (o i e : Expr)
  /-- `x += e`, or with another operator -/
  | augment (p : At) (n : Name) (e : Expr)
  | ret (p : At) (e : Expr)
  /-- the head of an `if` or `while` -/
  | test (p : At) (e : Expr)
  /-- the head of a `for` -/
  | loop (p : At) (e : Expr)
  /-- `break`, `continue`, or the end of a branch -/
  | jump (p : At)
  /-- a place that is jumped to -/
  | label (p : At)

/-- The bytecode of a statement. -/
def compileStmt : Stmt → List Instr
  | .expr p e => compile e ++ [ins .pop .none p]
  | .assign p e => compile e ++ [ins .pop .none p]
  | .setAttr p o e => compile e ++ compile o ++ [ins .pop .none p]
  | .setItem p o i e => compile e ++ compile o ++ compile i ++ [ins .storeSubscr .none p]
  | .augment p n e => [ins .load (.str n) p] ++ compile e ++ [ins .pop .none p, ins .pop .none p]
  | .ret p e => compile e ++ [ins .pop .none p, ins .cut .none p]
  | .test p e => compile e ++ [ins .pop .none p, ins .cut .none p]
  | .loop p e =>
    compile e ++ [ins .nop .none p, ins .cut .none p, ins .nop .none p, ins .cut .none p, ins .pop .none p]
  | .jump p => [ins .nop .none p, ins .cut .none p]
  | .label p => [ins .cut .none p]

/-- The expressions of a statement, in the order in which they are evaluated. -/
def Stmt.exprs : Stmt → List Expr
  | .expr _ e | .assign _ e | .augment _ _ e | .ret _ e | .test _ e | .loop _ e => [e]
  | .setAttr _ o e => [e, o]
  | .setItem _ o i e => [e, o, i]
  | .jump _ => []
  | .label _ => []

/-- The bytecode of a function. -/
def compileBody (b : List Stmt) : List Instr := b.flatMap compileStmt

mutual
/-- A target and those inside of it, in one list: names, lines and offsets. -/
def flat : Target → List (Name × Nat × Nat)
  | .mk n l o cs => (n, l, o) :: flatAll cs
def flatAll : List Target → List (Name × Nat × Nat)
  | [] => []
  | t :: r => flat t ++ flatAll r
end

mutual
/-- No evaluation branches, not even in comprehensions. -/
def straight : Expr → Bool
  | .name _ _ => true
  | .const _ _ => true
  | .attr _ o _ => straight o
  | .call _ f args kws => straight f && straightAll args && straightAll kws
  | .callStar _ f args star => straight f && straightAll args && straight star
  | .binary _ _ l r => straight l && straight r
  | .subscr _ o i => straight o && straight i
  | .compare _ _ l r => straight l && straight r
  | .unary _ e => straight e
  | .display _ es => straightAll es
  | .dict _ es => straightAll es
  | .lam _ _ => true
  | .comp _ _ _ _ iter conds elts => straight iter && straightAll conds && straightAll elts
  | .bool _ _ _ => false
  | .ifExp _ _ _ _ => false
def straightAll : List Expr → Bool
  | [] => true
  | e :: r => straight e && straightAll r
end

end StepCalls.Spec
