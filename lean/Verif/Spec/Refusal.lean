import Verif.Spec.Receive
/-! # Which frames a receiver refuses -/

namespace OatWS
open RFC6455

/-- The error with which a frame with this header is refused, by a receiver for which a fragmented message is open or not;
`none`: the frame is not refused. Nothing but the opcode, the announced length and `isOpen` matters. -/
def refusal (isOpen : Bool) (hd : Hdr) : Option Err :=
  if hd.opcode = 0 then (if isOpen then none else some .continuationState)
  else if hd.opcode = 1 ∨ hd.opcode = 2 then (if isOpen then some .continuationExpected else none)
  else if hd.opcode = 8 ∨ hd.opcode = 9 ∨ hd.opcode = 10 then
    (if 126 ≤ hd.len ∧ hd.len < 2 ^ 63 then some .controlTooLong else none)
  else some .unknownFrame

/-- The errors that mean "the peer broke the protocol". -/
def Err.isProtocol : Err → Prop
  | .continuationState | .continuationExpected | .controlTooLong | .unknownFrame => True
  | _ => False

/-- A frame that begins a message in fragments. -/
def _root_.RFC6455.Frame.begins (f : Frame) : Bool := (f.opcode == 1 || f.opcode == 2) && !f.fin

end OatWS
