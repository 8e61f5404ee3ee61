import Verif.Spec.Send
/-! # Messages: what was sent, and what a listener makes of its callbacks -/

namespace OatWS
open RFC6455

/-- A message as the application sees it. -/
inductive Msg where
  | text (data : List UInt8)
  | binary (data : List UInt8)
  | ping (data : List UInt8)
  | pong (data : List UInt8)
  | close (code : UInt16) (reason : List UInt8)
  | other (opcode : UInt8) (data : List UInt8)
deriving DecidableEq, Repr

/-- A complete data message of the given opcode. -/
def Msg.data (opcode : UInt8) (d : List UInt8) : Msg :=
  if opcode = 1 then .text d else if opcode = 2 then .binary d else .other opcode d

/-- The message the caller of a send method means. A null message is an empty one; a close without code counts as code 0. -/
def SendCall.msg : SendCall → Msg
  | .oneFrame _ opcode message => .data opcode (message.getD [])
  | .close code message => .close code (message.getD [])
  | .closeEmpty => .close 0 []
  | .ping message => .ping (message.getD [])
  | .pong message => .pong (message.getD [])
  | .text message => .text (message.getD [])
  | .binary message => .binary (message.getD [])

/-- The usual listener: collect the data of `readMessage`, take the message as complete at size 0. `acc` is the data
collected so far. Returns the complete messages, in order, and the data of an unfinished one. -/
def reassemble : List UInt8 → List Event → List Msg × List UInt8
  | acc, [] => ([], acc)
  | acc, .readMessage _ op [] :: r => (.data op acc :: (reassemble [] r).1, (reassemble [] r).2)
  | acc, .readMessage _ _ (b :: bs) :: r => reassemble (acc ++ b :: bs) r
  | acc, .onPing _ p :: r => (.ping p :: (reassemble acc r).1, (reassemble acc r).2)
  | acc, .onPong _ p :: r => (.pong p :: (reassemble acc r).1, (reassemble acc r).2)
  | acc, .onClose _ c p :: r => (.close c p :: (reassemble acc r).1, (reassemble acc r).2)

/-- A text or binary message of any size, or a ping or pong of at most 125 bytes. -/
def SendCall.isMessage : SendCall → Prop
  | .text _ => True
  | .binary _ => True
  | .ping m => (m.getD []).length ≤ 125
  | .pong m => (m.getD []).length ≤ 125
  | _ => False

/-- A close with a reason of at most 123 bytes, or without code and reason. -/
def SendCall.isClose : SendCall → Prop
  | .close _ m => (m.getD []).length ≤ 123
  | .closeEmpty => True
  | _ => False

/-- A ping, pong or close of any size. -/
def SendCall.isControl : SendCall → Prop
  | .ping _ => True
  | .pong _ => True
  | .close _ _ => True
  | .closeEmpty => True
  | _ => False

end OatWS
