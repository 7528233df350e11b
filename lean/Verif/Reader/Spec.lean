import Verif.Reader.Model
import Verif.NetCommand.Model
/-!
Vocabulary for the wire properties, independent of the reader's and writer's code.
-/

namespace Reader.Spec

/-- A message as its sender means it. -/
inductive Message where
  /-- a payload sent with `Content-Length` framing -/
  | http (payload : Bytes)
  /-- a command of the line protocol -/
  | line (id seq : Int) (text : Bytes)
deriving DecidableEq, Repr

/-- Value of a hexadecimal digit. -/
def hexVal (x : UInt8) : Option UInt8 :=
  if 48 ≤ x && x ≤ 57 then some (x - 48)
  else if 65 ≤ x && x ≤ 70 then some (x - 55)
  else if 97 ≤ x && x ≤ 102 then some (x - 87)
  else none

/-- Percent-decoding (RFC 3986; what `urllib.parse.unquote_to_bytes` does). -/
def unquote : Bytes → Bytes
  | x :: a :: b :: r =>
    if x = 37 then
      match hexVal a, hexVal b with
      | some p, some q => (16 * p + q) :: unquote r
      | _, _ => x :: unquote (a :: b :: r)
    else x :: unquote (a :: b :: r)
  | short => short

/-- What a receiver understands from one reader event. -/
def understood : Reader.Ev → Option Message
  | .json b => some (.http b)
  | .cmd id seq q => some (.line id seq (unquote q))
  | .bad _ => none
  | .header _ => none

/-- The bytes a sender puts on the wire for a message. -/
def encode : Message → Bytes
  | .http p => NetCommand.frameHttp p
  | .line id seq t => NetCommand.frameLine id seq t

/-- An empty payload is never sent: every payload is a JSON object or a `id\tseq\ttext` string. -/
def Sendable : Message → Prop
  | .http p => p ≠ []
  | .line _ _ _ => True

end Reader.Spec
