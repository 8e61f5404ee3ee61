import Verif.Spec.Messages
import Verif.Spec.Frames
/-! # The messages a sequence of frames stands for, and sending a message in fragments -/

namespace OatWS
open RFC6455

/-- The messages carried by a sequence of ping, pong and data frames, when `acc` is the data of the message in progress: the data of
consecutive data frames up to a FIN frame belongs together, and the FIN frame gives the opcode (the library reports the opcode of that
frame, see C14); pings and pongs are messages of their own. Masking keys, frame boundaries and chunks play no role. -/
def contentOf : List UInt8 → List Frame → List Msg × List UInt8
  | acc, [] => ([], acc)
  | acc, f :: fs =>
    if f.opcode = 9 then (.ping f.payload :: (contentOf acc fs).1, (contentOf acc fs).2)
    else if f.opcode = 10 then (.pong f.payload :: (contentOf acc fs).1, (contentOf acc fs).2)
    else if f.fin then (.data (UInt8.ofNat f.opcode) (acc ++ f.payload) :: (contentOf [] fs).1, (contentOf [] fs).2)
    else contentOf (acc ++ f.payload) fs

/-- What a sender may send between the first and the last fragment of a message: more fragments, and pings and pongs. -/
inductive Between where
  | fragment (data : Option (List UInt8))
  | ping (data : Option (List UInt8))
  | pong (data : Option (List UInt8))

/-- The call that sends it. -/
def Between.call : Between → SendCall
  | .fragment d => .oneFrame false 0 d
  | .ping d => .ping d
  | .pong d => .pong d

/-- Pings and pongs have at most 125 bytes. -/
def Between.short : Between → Prop
  | .fragment _ => True
  | .ping d => (d.getD []).length ≤ 125
  | .pong d => (d.getD []).length ≤ 125

/-- The message data in it. -/
def Between.data : Between → List UInt8
  | .fragment d => d.getD []
  | _ => []

/-- The messages of its own in it. -/
def Between.own : Between → List Msg
  | .fragment _ => []
  | .ping d => [.ping (d.getD [])]
  | .pong d => [.pong (d.getD [])]

end OatWS
