import Verif.Common.Str
/-!
Model of the quoting and the splitting of Windows command lines.

Source: `/repo/_pydev_bundle/pydev_monkey.py`, `quote_arg_win32` (326-356), `quote_args` (359-363, on Windows),
`str_to_args_windows` (592-672), `patch_arg_str_win` (680, the joining of the arguments).

Simplifications: an argument is a list of characters (the code also takes `bytes`, with the same steps). The two calls
of `re.sub` are given as the scans they perform: leftmost matches, the run of backslashes greedy.
-/

namespace WinQuote

abbrev Str := List Char

def slashes (n : Nat) : Str := List.replicate n '\\'

/-- `re.sub(r'(\\*)\"', r'\1\1\\"', arg)` (354): `n` backslashes have been read and not written -/
def subQuote (n : Nat) : Str → Str
  | [] => slashes n
  | c :: cs =>
    if c = '\\' then subQuote (n + 1) cs
    else if c = '"' then slashes n ++ slashes n ++ ['\\', '"'] ++ subQuote 0 cs
    else slashes n ++ c :: subQuote 0 cs

/-- `re.sub(r'(\\*)$', r'\1\1', arg)` (355); `$` matches at the end and before a newline at the end -/
def subEnd (n : Nat) : Str → Str
  | [] => slashes n ++ slashes n
  | c :: cs =>
    if c = '\\' then subEnd (n + 1) cs
    else if c = '\n' ∧ cs = [] then slashes n ++ slashes n ++ ['\n']
    else slashes n ++ c :: subEnd 0 cs

/-- `set(arg).intersection(' "\t\n\v')` is not empty (331) -/
def hasSpecial (arg : Str) : Bool := arg.any fun c => c == ' ' || c == '"' || c == '\t' || c == '\n' || c == '\x0b'

/-- `quote_arg_win32` (326-356) -/
def quoteArg (arg : Str) : Str :=
  if arg ≠ [] ∧ hasSpecial arg = false then arg
  else '"' :: (subEnd 0 (subQuote 0 arg) ++ ['"'])

/-- `' '.join(args)` (680) -/
def join : List Str → Str
  | [] => []
  | [a] => a
  | a :: as => a ++ ' ' :: join as

/-- `' '.join(quote_args(args))` (359-363, 680) -/
def commandLine (args : List Str) : Str := join (args.map quoteArg)

/-- the states of `str_to_args_windows` (600-602) -/
inductive St
  | dflt
  | arg
  | quoted
deriving DecidableEq

def isBlank (c : Char) : Bool := c == ' ' || c == '\t'

/-- `if state == DEFAULT: state = ARG` (620-621, 629-630) -/
def St.start : St → St
  | .dflt => .arg
  | s => s

/-- the second half of the loop body (636-667): the arguments completed, the state and the buffer after a character.
`i += 1` (660) has no effect on the `for` loop. `next` is the following character. -/
def switch (st : St) (buf : Str) (ch : Char) (next : Option Char) : List Str × St × Str :=
  if isBlank ch = true ∧ st = .dflt then ([], st, buf)
  else if isBlank ch = true ∧ st = .arg then ([buf], .dflt, [])
  else match st with
    | .quoted =>
      if ch = '"' then
        if next = some '"' then ([], .quoted, buf ++ ['"']) else ([], .arg, buf)
      else ([], .quoted, buf ++ [ch])
    | _ => if ch = '"' then ([], .quoted, buf) else ([], .arg, buf ++ [ch])

/-- the loop of `str_to_args_windows` (609-672); `n` is `backslashes`. The backslashes pending at the end are not
written. -/
def loop (st : St) (n : Nat) (buf : Str) : Str → List Str
  | [] => if buf ≠ [] ∨ st ≠ .dflt then [buf] else []
  | ch :: rest =>
    if ch = '\\' then loop st (n + 1) buf rest
    else if n ≠ 0 ∧ ch = '"' ∧ n % 2 = 1 then loop st.start 0 (buf ++ slashes (n / 2) ++ ['"']) rest
    else
      let buf1 := if n ≠ 0 then buf ++ (if ch = '"' then slashes (n / 2) else slashes n) else buf
      let st1 := if n ≠ 0 ∧ ch ≠ '"' then st.start else st
      let r := switch st1 buf1 ch rest.head?
      r.1 ++ loop r.2.1 0 r.2.2 rest

/-- `str_to_args_windows` (592-672) -/
def strToArgs (line : Str) : List Str := loop .dflt 0 [] line

end WinQuote
