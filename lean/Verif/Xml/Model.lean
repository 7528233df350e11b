import Verif.Common.Str
import Verif.Common.Utf8
import Verif.Common.PyInt
/-!
Model of the XML messages: escaping, quoting and the messages for variables, threads, frames and output.

Source: `/repo/_pydevd_bundle/pydevd_xml.py` `make_valid_xml_value` (26-28), `var_to_xml` (395-434);
`/repo/_pydevd_bundle/pydevd_net_command_factory_xml.py` `_thread_to_xml` (71-75),
`make_custom_frame_created_message` (103-106), `make_io_message` (167-182), `make_thread_stack_str` (249-277).

Simplifications: text has no surrogates (`quote` raises on them); the details of a value (`get_variable_details`,
`get_var_scope`) are inputs.
-/

namespace Xml

abbrev Str := List Char

/-- `make_valid_xml_value` (26-28) -/
def escape (s : Str) : Str :=
  Py.replaceAll ['"'] c!"&quot;" (Py.replaceAll ['>'] c!"&gt;" (Py.replaceAll ['<'] c!"&lt;" (Py.replaceAll ['&'] c!"&amp;" s)))

def hexDigit (n : Nat) : Char := (c!"0123456789ABCDEF").getD n '0'

/-- characters `urllib.parse.quote` never quotes -/
def alwaysSafe (n : Nat) : Bool :=
  (65 ≤ n && n ≤ 90) || (97 ≤ n && n ≤ 122) || (48 ≤ n && n ≤ 57) || n == 95 || n == 46 || n == 45 || n == 126

/-- `urllib.parse.quote(text, safe)` on the UTF-8 bytes of the text (standard library) -/
def quoteBytes (safe : Str) (bs : List Nat) : Str :=
  bs.flatMap fun b => if alwaysSafe b || safe.any (fun c => c.toNat == b) then [Char.ofNat b] else ['%', hexDigit (b / 16), hexDigit (b % 16)]

def quote (safe : Str) (s : Str) : Str := quoteBytes safe (Py.utf8 s)

/-- the characters left alone in names and values -/
def safeChars : Str := c!"/>_= "

/-- what is known about a variable -/
structure Var where
  name : Str
  type : Str
  qualifier : Str := []
  value : Str := []
  isError : Bool := false
  isContainer : Bool := false
  /-- `additional_in_xml`: `isRetVal` or `isIPythonHidden` -/
  extra : Option Str := none
  scope : Str := []

/-- trimming of a value (413-417) with `trim_if_too_big` -/
def trim (max : Nat) (v : Str) : Str := if v.length > max then v.take max ++ c!"..." else v

/-- `var_to_xml` (406-434) -/
def varToXml (max : Nat) (v : Var) : Str :=
  let xml := c!"<var name=\"" ++ escape (quote safeChars v.name) ++ c!"\" type=\"" ++ escape v.type ++ c!"\" "
  let xmlQualifier := if v.qualifier ≠ [] then c!"qualifier=\"" ++ escape v.qualifier ++ c!"\"" else []
  let xmlValue := if v.value ≠ [] then c!" value=\"" ++ escape (quote safeChars (trim max v.value)) ++ c!"\"" else []
  let xmlContainer := if v.isError then c!" isErrorOnEval=\"True\"" else if v.isContainer then c!" isContainer=\"True\"" else []
  let extra := match v.extra with | some n => c!" " ++ n ++ c!"=\"True\"" | none => []
  let xmlScope := if v.scope ≠ [] then c!" scope=\"" ++ v.scope ++ c!"\"" else []
  xml ++ xmlQualifier ++ xmlValue ++ xmlContainer ++ extra ++ xmlScope ++ c!" />\n"

/-- `_thread_to_xml` (71-75): escaped first, quoted afterwards -/
def threadToXml (name id : Str) : Str :=
  c!"<thread name=\"" ++ quote c!"/" (escape name) ++ c!"\" id=\"" ++ id ++ c!"\" />"

/-- `make_custom_frame_created_message` (103-106): escaped, not quoted -/
def customFrameToXml (name id : Str) : Str :=
  c!"<thread name=\"" ++ escape name ++ c!"\" id=\"" ++ id ++ c!"\"/>"

/-- one frame of `make_thread_stack_str` (271-272): the file is escaped first, quoted afterwards -/
def frameToXml (id : Str) (name file : Str) (line : Nat) : Str :=
  c!"<frame id=\"" ++ id ++ c!"\" name=\"" ++ escape name ++ c!"\" file=\"" ++ quote c!"/>_= \t" (escape file) ++ c!"\" line=\"" ++ Py.natStr line ++ c!"\">"

/-- the element of `make_io_message` (175-180) -/
def ioToXml (max : Nat) (msg ctx : Str) : Str :=
  c!"<io s=\"" ++ escape (quote safeChars (trim max msg)) ++ c!"\" ctx=\"" ++ ctx ++ c!"\"/>"

end Xml
