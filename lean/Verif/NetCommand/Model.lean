import Verif.Common.Bytes
/-!
Model of the wire format of outgoing messages.

Source: `/repo/_pydevd_bundle/pydevd_net_command.py`, `NetCommand.__init__` (58-102) and
`NetCommand.send` (104-119); quoting is `urllib.parse.quote(text, '/<>_=" \t')`
(`pydevd_utils.quote_smart`, 106-107).

Simplification: the text is its UTF-8 encoding (`quote` encodes before quoting; `msg.encode("utf-8")`
at 98 encodes the rest), so all functions are on bytes.
-/

namespace NetCommand

/-- Bytes `urllib.parse.quote` leaves alone: letters, digits, `_.-~` and the `safe` argument
`/<>_=" \t` of line 91. -/
def isSafe (x : UInt8) : Bool :=
  (65 ≤ x && x ≤ 90) || (97 ≤ x && x ≤ 122) || (48 ≤ x && x ≤ 57) ||
  (b!"_.-~").contains x || (b!"/<>_=\" \t").contains x

/-- `"0123456789ABCDEF"[d]` -/
def hexDigit (d : UInt8) : UInt8 := if d < 10 then 48 + d else 55 + d

/-- One byte of `urllib.parse.quote`. -/
def quoteByte (x : UInt8) : Bytes :=
  if isSafe x then [x] else [37, hexDigit (x / 16), hexDigit (x % 16)]

/-- `quote(text, '/<>_=" \t')`, line 91. -/
def quote (text : Bytes) : Bytes := text.flatMap quoteByte

/-- `"%s\t%s\t%s\n" % (cmd_id, seq, encoded)`, line 92: the bytes of a message in the (quoted) line
protocol. -/
def frameLine (id seq : Int) (text : Bytes) : Bytes :=
  Py.asciiBytes (Py.intStr id) ++ [9] ++ Py.asciiBytes (Py.intStr seq) ++ [9] ++ quote text ++ [10]

/-- `send` in the two HTTP protocols (107-109): header, blank line, payload. -/
def frameHttp (payload : Bytes) : Bytes :=
  b!"Content-Length: " ++ Py.asciiBytes (Py.intStr payload.length) ++ b!"\r\n\r\n" ++ payload

end NetCommand
