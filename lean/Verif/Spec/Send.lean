import Verif.Spec.RFC6455
import Verif.Model.WebSocket
/-! # What a send call is supposed to put on the wire -/

namespace OatWS
open RFC6455

/-- Position `i` and the three following ones of the random source. -/
def maskBytesAt (env : Env) (i : Nat) : List UInt8 := [env.rng i, env.rng (i + 1), env.rng (i + 2), env.rng (i + 3)]

/-- The frame a send with this FIN, opcode and message is supposed to be, on a socket in state `s`: RSV bits 0, masked iff
configured, with the next four random bytes as key. The opcode field has four bits. -/
def frameFor (env : Env) (s : Sock) (fin : Bool) (opcode : UInt8) (message : Option (List UInt8)) : Frame :=
  { fin := fin
    opcode := opcode.toNat % 16
    maskKey := if s.config.maskOutgoingMessages then some (maskBytesAt env s.rngPos) else none
    payload := message.getD [] }

/-- The FIN, opcode and payload that a public send method stands for (close: 2 bytes of code in network byte order, then
the reason). -/
def SendCall.content : SendCall → Bool × UInt8 × List UInt8
  | .oneFrame fin opcode message => (fin, opcode, message.getD [])
  | .close code message => (true, 8, bigEndian 2 code.toNat ++ message.getD [])
  | .closeEmpty => (true, 8, [])
  | .ping message => (true, 9, message.getD [])
  | .pong message => (true, 10, message.getD [])
  | .text message => (true, 1, message.getD [])
  | .binary message => (true, 2, message.getD [])

end OatWS
