/-!
Literal notations used by the model files.

* `b!"text"` is the list of the byte values of an ASCII text (`List UInt8`).
* `c!"text"` is the list of its characters (`List Char`).

Both expand at parse time to plain list literals, so the kernel sees only lists of numerals.
-/

open Lean in
macro:max "b!" s:str : term => do
  let elems ← s.getString.toList.toArray.mapM fun c => `(($(quote c.toNat) : UInt8))
  `(([$elems,*] : List UInt8))

open Lean in
macro:max "c!" s:str : term => do
  let elems := s.getString.toList.toArray.map fun c => (Syntax.mkCharLit c)
  `(([$elems,*] : List Char))
