import Verif.Common.Bytes
/-!
Model of the thread that reads commands from the client.

Source: `/repo/_pydevd_bundle/pydevd_comm.py`, class `ReaderThread` (153-327).

Simplifications
* The socket is the list of results that successive `recv` calls return; an empty result, or the
  end of the list, is end-of-file (an `OSError` in `recv` takes the same branch, 211-212/228-229).
  The `recv` size argument only bounds the size of a result and is not modelled: the theorems hold
  for every list of results, in particular those that respect the bound.
* `_kill_received` is set by other threads: its successive readings are an arbitrary oracle
  `kill : Nat → Bool` (n-th reading).
* After `line.decode("utf-8")` the code works on `str`; the model keeps the bytes, which is the same
  for splitting at tabs and parsing ASCII integers.
* Whether the JSON handler raises is a parameter (`process_net_command_json` is called inside the
  `try` whose `except` ends the session, 275/288-292).
-/

namespace Reader

/-- What the reader hands over or logs, in order. -/
inductive Ev where
  /-- `process_net_command_json(py_db, body)`, line 275 -/
  | json (body : Bytes)
  /-- `process_command(cmd_id, seq, text)`, line 308 -/
  | cmd (id seq : Int) (text : Bytes)
  /-- a line that is not a command: "Can't process net command", line 311 -/
  | bad (line : Bytes)
  /-- ghost event (nothing observable happens): a length header was read, line 256 -/
  | header (k : Int)
deriving DecidableEq, Repr

/-- How the reader loop ended. -/
inductive End where
  /-- `len(line) == 0`, 247-250 -/
  | closed
  /-- `len(json_contents) == 0`, 266-269 -/
  | emptyBody
  /-- exception inside the reading `try` (bad length or handler error), 288-292 -/
  | readError
  /-- `line.decode` raised: outer `except`, 297-298 and 313-318 -/
  | decodeError
deriving DecidableEq, Repr

/-- `self._buffer.find(b"\n")` and the two slices of 219-223: the first line with its newline, and
the rest. -/
def splitLine : Bytes → Option (Bytes × Bytes)
  | [] => none
  | x :: xs =>
    if x = 10 then some ([x], xs)
    else (splitLine xs).map (fun p => (x :: p.1, p.2))

/-- `_read_line` (217-232): result, new buffer, remaining `recv` results. -/
def readLine (buf : Bytes) : List Bytes → Bytes × Bytes × List Bytes
  | [] =>
    match splitLine buf with
    | some (l, rest) => (l, rest, [])
    | none => ([], buf, [])
  | r :: rs =>
    match splitLine buf with
    | some (l, rest) => (l, rest, r :: rs)
    | none => if r.isEmpty then ([], buf, rs) else readLine (buf ++ r) rs

/-- Python `b[:k]`. -/
def sliceTo (b : Bytes) (k : Int) : Bytes :=
  if 0 ≤ k then b.take k.toNat else b.take (b.length - (-k).toNat)

/-- Python `b[k:]`. -/
def sliceFrom (b : Bytes) (k : Int) : Bytes :=
  if 0 ≤ k then b.drop k.toNat else b.drop (b.length - (-k).toNat)

/-- `_read(size)` (196-215): result, new buffer, remaining `recv` results. `size` may be negative. -/
def read (size : Int) (buf : Bytes) : List Bytes → Bytes × Bytes × List Bytes
  | [] =>
    if (buf.length : Int) = size then (buf, [], [])
    else if (buf.length : Int) > size then (sliceTo buf size, sliceFrom buf size, [])
    else ([], buf, [])
  | r :: rs =>
    if (buf.length : Int) = size then (buf, [], r :: rs)
    else if (buf.length : Int) > size then (sliceTo buf size, sliceFrom buf size, r :: rs)
    else if r.isEmpty then ([], buf, rs)
    else read size (buf ++ r) rs

/-- `b"Content-Length:"` (255). -/
def header : Bytes := b!"Content-Length:"

/-- `int(line.strip().split(b":", 1)[1])` (256) for a line starting with the header: what follows
the first colon. `none` is `ValueError`. Stripping the line first only removes white space that
`int` ignores as well. -/
def contentLen (line : Bytes) : Option Int :=
  Py.parseInt (Py.asChars (line.drop header.length))

/-- Removal of the trailing newline, 280-287. -/
def chomp (line : Bytes) : Bytes :=
  if b!"\n\n".isSuffixOf line then line.take (line.length - 2)
  else if b!"\n".isSuffixOf line then line.take (line.length - 1)
  else if b!"\r".isSuffixOf line then line.take (line.length - 1)
  else line

/-- First tab splits the list (helper for `split("\t", 2)`). -/
def cutTab : Bytes → Option (Bytes × Bytes)
  | [] => none
  | x :: xs => if x = 9 then some ([], xs) else (cutTab xs).map (fun p => (x :: p.1, p.2))

/-- `args = line.split("\t", 2)`, `int(args[0])`, `int(args[1])`, `args[2]` (303-308); a missing
argument (`IndexError`) or a bad integer (`ValueError`) goes to the log (309-311). -/
def parseCommand (line : Bytes) : Ev :=
  match cutTab line with
  | none => .bad line
  | some (a0, rest) =>
    match cutTab rest with
    | none => .bad line
    | some (a1, a2) =>
      match Py.parseInt (Py.asChars a0), Py.parseInt (Py.asChars a1) with
      | some id, some seq => .cmd id seq a2
      | _, _ => .bad line

/-- Bytes not yet handed over. -/
def todo (buf : Bytes) (rs : List Bytes) : Nat := buf.length + rs.flatten.length

theorem splitLine_append {b l rest : Bytes} (h : splitLine b = some (l, rest)) :
    b = l ++ rest ∧ l ≠ [] := by
  induction b generalizing l rest with
  | nil => simp [splitLine] at h
  | cons x xs ih =>
    unfold splitLine at h
    split at h
    · simp only [Option.some.injEq, Prod.mk.injEq] at h; obtain ⟨rfl, rfl⟩ := h; simp
    · cases hs : splitLine xs with
      | none => simp [hs] at h
      | some p =>
        simp only [hs, Option.map_some, Option.some.injEq, Prod.mk.injEq] at h
        obtain ⟨rfl, rfl⟩ := h
        have := ih (l := p.1) (rest := p.2) hs
        exact ⟨by simp [this.1], by simp⟩

theorem readLine_todo (buf : Bytes) (rs : List Bytes) (h : (readLine buf rs).1 ≠ []) :
    todo (readLine buf rs).2.1 (readLine buf rs).2.2 < todo buf rs := by
  induction rs generalizing buf with
  | nil =>
    unfold readLine at h ⊢
    split
    · rename_i l rest hs
      have := splitLine_append hs
      have h2 : 0 < l.length := List.length_pos_iff.2 this.2
      simp only [todo, this.1, List.length_append]; omega
    · rename_i hs; simp [hs] at h
  | cons r rs ih =>
    unfold readLine at h ⊢
    split
    · rename_i l rest hs
      have := splitLine_append hs
      have h2 : 0 < l.length := List.length_pos_iff.2 this.2
      simp only [todo, this.1, List.length_append]; omega
    · rename_i hs
      simp only [hs] at h
      split
      · rename_i he; simp [he] at h
      · rename_i he
        simp only [he] at h
        have := ih (buf ++ r) h
        simp only [todo, List.length_append, List.flatten_cons] at this ⊢
        omega

theorem sliceFrom_len (b : Bytes) (k : Int) : (sliceFrom b k).length ≤ b.length := by
  unfold sliceFrom; split <;> simp

theorem read_todo (size : Int) (buf : Bytes) (rs : List Bytes) :
    todo (read size buf rs).2.1 (read size buf rs).2.2 ≤ todo buf rs := by
  induction rs generalizing buf with
  | nil =>
    unfold read
    split
    · simp [todo]
    · split
      · have := sliceFrom_len buf size
        simp only [todo]; omega
      · simp [todo]
  | cons r rs ih =>
    unfold read
    split
    · simp [todo]
    · split
      · have := sliceFrom_len buf size
        simp only [todo]; omega
      · split
        · simp [todo]
        · have := ih (buf ++ r)
          simp only [todo, List.length_append, List.flatten_cons] at this ⊢
          omega

/-- The loop of `_on_run` (239-311). `kill` gives the successive readings of `_kill_received`, `n` is
the number of readings so far, `raises` says for which bodies the JSON handler raises. Returns the
events in order and how the loop ended. -/
def loop (kill : Nat → Bool) (raises : Bytes → Bool) (n : Nat) (clen : Int)
    (buf : Bytes) (rs : List Bytes) : List Ev × End :=
  match h : readLine buf rs with
  | (line, buf1, rs1) =>
    if hl : line = [] then ([], .closed)                            -- 247-250
    else
      have hdec : todo buf1 rs1 < todo buf rs := by
        have hr := readLine_todo buf rs (by rw [h]; exact hl)
        rwa [h] at hr
      if kill n then loop kill raises (n + 1) clen buf1 rs1         -- 252-253
      else if header.isPrefixOf line then                           -- 255-257
        match contentLen line with
        | none => ([], .readError)
        | some k =>
          let rest := loop kill raises (n + 1) k buf1 rs1
          (.header k :: rest.1, rest.2)
      else if clen ≠ -1 then
        if line = b!"\r\n" then                                     -- 261
          match h2 : read clen buf1 rs1 with
          | (body, buf2, rs2) =>
            have hdec2 : todo buf2 rs2 < todo buf rs := by
              have h3 := read_todo clen buf1 rs1
              rw [h2] at h3
              exact Nat.lt_of_le_of_lt h3 hdec
            if body = [] then ([], .emptyBody)                      -- 266-269
            else if kill (n + 1) then
              loop kill raises (n + 2) (-1) buf2 rs2                -- 271-272
            else if raises body then ([.json body], .readError)     -- 275, 288-292
            else
              let rest := loop kill raises (n + 2) (-1) buf2 rs2
              (.json body :: rest.1, rest.2)
        else loop kill raises (n + 1) clen buf1 rs1                 -- 277
      else
        if Py.utf8Valid (chomp line) then                           -- 280-298
          let rest := loop kill raises (n + 1) clen buf1 rs1
          (parseCommand (chomp line) :: rest.1, rest.2)
        else ([], .decodeError)
termination_by todo buf rs

/-- The whole session: `_on_run` started with an empty buffer (162, 237). -/
def session (kill : Nat → Bool) (raises : Bytes → Bool) (rs : List Bytes) : List Ev × End :=
  loop kill raises 0 (-1) [] rs

end Reader
