import Verif.Common.Lit
import Verif.Common.PyInt
/-!
Model of the answer to the question which lines a frame can be moved to ("set next statement").

Source: `/repo/_pydevd_bundle/pydevd_comm.py` `internal_get_next_statement_targets` (1129-1153).

Simplifications: a frame is its line and what `dis.findlinestarts` gives for its code; making and sending the messages does not fail.
-/

namespace NextTargets

abbrev Str := List Char

/-- what the iteration over `dis.findlinestarts(code)` gives: a line, an instruction without one, or an exception -/
inductive Item
  | line (n : Int)
  | noLine
  | raises
deriving DecidableEq

structure Frame where
  /-- `f_lineno` -/
  lineno : Int
  /-- `none`: calling `dis.findlinestarts` raises (1136-1140) -/
  starts : Option (List Item)

/-- `"<line>%d</line>"` (1140, 1144) -/
def lineXml (n : Int) : Str := c!"<line>" ++ Py.intStr n ++ c!"</line>"

/-- the loop over the lines (1142-1144); `none`: an exception -/
def linesLoop (xml : Str) : List Item → Option Str
  | [] => some xml
  | .line n :: is => linesLoop (xml ++ lineXml n) is
  | .noLine :: is => linesLoop xml is
  | .raises :: _ => none

inductive Reply
  | targets (xml : Str)
  | error (msg : Str)
deriving DecidableEq

/-- what `find_frame` does: it returns a frame, it returns `None`, or it raises -/
inductive Found
  | frame (f : Frame)
  | missing
  | raises

/-- `internal_get_next_statement_targets` (1129-1153) -/
def nextTargets (found : Found) (threadId frameId : Str) : Reply :=
  let failed := Reply.error (c!"Error resolving frame: " ++ frameId ++ c!" from thread: " ++ threadId)
  match found with
  | .raises => failed
  | .missing => .error (c!"Frame not found: " ++ frameId ++ c!" from thread: " ++ threadId)
  | .frame f =>
    match f.starts with
    | none => .targets (c!"<xml>" ++ lineXml f.lineno ++ c!"</xml>")
    | some is =>
      match linesLoop c!"<xml>" is with
      | none => failed
      | some xml => .targets (xml ++ c!"</xml>")

end NextTargets
