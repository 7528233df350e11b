import Verif.Common.Lit
import Verif.Common.PyInt
import Verif.Common.Str
/-!
How the shell, gdb and Python read the text they are given, as far as it is needed here. What is not described is `none`.
-/

namespace AttachPid.Spec

abbrev Str := List Char

/-! ### The shell -/

/-- characters with a meaning for the shell outside quotes -/
def metaChars : List Char := c!"\n\t$`\"\\;&|<>()*?[]#~!{}"

/-- the words of a command: `cur` is the word that is being read, `q` tells whether it is within single quotes -/
def words : Option Str → Bool → Str → Option (List Str)
  | none, _, [] => some []
  | some w, false, [] => some [w]
  | some _, true, [] => none
  | cur, true, c :: s => if c = '\'' then words (some (cur.getD [])) false s else words (some (cur.getD [] ++ [c])) true s
  | cur, false, c :: s =>
    if c = '\'' then words (some (cur.getD [])) true s
    else if c = ' ' then
      match cur with
      | none => words none false s
      | some w => (words none false s).map (w :: ·)
    else if c ∈ metaChars then none
    else words (some (cur.getD [] ++ [c])) false s

/-- the words the shell makes of a text -/
def shell (s : Str) : Option (List Str) := words none false s

/-! ### Texts in double quotes -/

/-- the text in double quotes after the first quote, and what follows; gdb and Python agree on these -/
def quoted : Str → Option (Str × Str)
  | [] => none
  | '"' :: s => some ([], s)
  | '\\' :: c :: s =>
    if c = '"' ∨ c = '\\' ∨ c = '\'' then (quoted s).map fun r => (c :: r.1, r.2)
    else if c = 'n' then (quoted s).map fun r => ('\n' :: r.1, r.2)
    else none
  | c :: s => if c = '\n' ∨ c = '\r' ∨ c = '\\' then none else (quoted s).map fun r => (c :: r.1, r.2)

/-- what follows a text -/
def strip (p s : Str) : Option Str := if Py.startsWith s p then some (s.drop p.length) else none

/-! ### gdb -/

/-- the code that an argument of gdb makes the process run -/
def gdbRuns (arg : Str) : Option Str :=
  (strip c!"--eval-command=call (int)DoAttach(0, \"" arg).bind fun s =>
  (quoted s).bind fun r => if r.2 = c!", 0)" then some r.1 else none

/-! ### Python -/

inductive Stmt
  | importModule (name : Str)
  | appendPath (p : Str)
  | attach (port : Int) (host protocol mode : Str)
deriving DecidableEq

/-- a string, and what follows -/
def pyString (s : Str) : Option (Str × Str) := (strip c!"\"" s).bind quoted

/-- one statement, up to its semicolon -/
def stmt (s : Str) : Option (Stmt × Str) :=
  if Py.startsWith s c!"import " then
    let rest := s.drop 7
    some (.importModule (rest.takeWhile (· ≠ ';')), (rest.dropWhile (· ≠ ';')).drop 1)
  else if Py.startsWith s c!"sys.path.append(" then
    (pyString (s.drop 16)).bind fun p => (strip c!");" p.2).map fun rest => (.appendPath p.1, rest)
  else
    (strip c!"attach_script.attach(port=" s).bind fun s =>
    (Py.parseInt (s.takeWhile (· ≠ ','))).bind fun port =>
    (strip c!", host=" (s.dropWhile (· ≠ ','))).bind fun s => (pyString s).bind fun host =>
    (strip c!", protocol=" host.2).bind fun s => (pyString s).bind fun protocol =>
    (strip c!", debug_mode=" protocol.2).bind fun s => (pyString s).bind fun mode =>
    (strip c!");" mode.2).map fun rest => (.attach port host.1 protocol.1 mode.1, rest)

/-- the program is these statements -/
inductive Program : Str → List Stmt → Prop
  | nil : Program [] []
  | cons {s rest st sts} : stmt s = some (st, rest) → Program rest sts → Program s (st :: sts)

end AttachPid.Spec
