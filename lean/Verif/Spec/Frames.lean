import Verif.Spec.Receive
/-! # Receiving a sequence of well-formed frames -/

namespace OatWS
open RFC6455

/-- A receiver in this state (fragmented message open or not) takes the frame: a data frame that fits the fragmentation
state, or a ping/pong/close of at most 125 bytes. -/
def Accepted (isOpen : Bool) (f : Frame) : Prop :=
  (isDataOpcode f.opcode ∧ mayStart isOpen f.opcode) ∨ (isControlOpcode f.opcode ∧ f.payload.length ≤ 125)

/-- What the application is told about a frame. -/
def frameDeliveries (f : Frame) : List Delivery :=
  if f.opcode = 0 ∨ f.opcode = 1 ∨ f.opcode = 2 then
    .data f.opcode f.payload :: if f.fin then [.endOfMessage f.opcode] else []
  else [controlDelivery f.opcode f.payload]

/-- Is a fragmented message open after the frame (as in the code: a final continuation frame does not close it)? -/
def openAfterFrame (isOpen : Bool) (f : Frame) : Bool :=
  if f.opcode = 1 ∨ f.opcode = 2 then !f.fin else isOpen

/-- All frames are valid, accepted one after the other, and none is a close frame. -/
inductive AcceptedAll : Bool → List Frame → Bool → Prop
  | nil {o} : AcceptedAll o [] o
  | cons {o f fs o'} : f.Valid → Accepted o f → f.opcode ≠ 8 → AcceptedAll (openAfterFrame o f) fs o' →
      AcceptedAll o (f :: fs) o'

/-- The octets of frames sent one after the other. -/
def wireOf (fs : List Frame) : List UInt8 := fs.flatMap Frame.encode

/-- Everything told about a sequence of frames. -/
def deliveriesOf (fs : List Frame) : List Delivery := fs.flatMap frameDeliveries

/-- `data` arrives at listener `l` as data callbacks for this opcode: pieces of 1..B bytes, in order. -/
def DataCallbacks (l B : Nat) (op : Nat) (data : List UInt8) (evs : List Event) : Prop :=
  ∃ (opcode : UInt8) (chunks : List (List UInt8)), opcode.toNat = op ∧ chunks.flatten = data ∧
    (∀ c ∈ chunks, 0 < c.length ∧ c.length ≤ B) ∧ evs = chunks.map (Event.readMessage l opcode)

/-- The callbacks for one frame. Data frame: its payload, in pieces of 1..B bytes, then, if FIN, one `readMessage` of size
0. Ping and pong: one callback with the payload. Close: one callback with code (big-endian) and reason, or 0 and empty. -/
def FrameEvents (l B : Nat) (f : Frame) (evs : List Event) : Prop :=
  if f.opcode = 9 then evs = [.onPing l f.payload]
  else if f.opcode = 10 then evs = [.onPong l f.payload]
  else if f.opcode = 8 then
    ∃ code : UInt16, code.toNat = (if 2 ≤ f.payload.length then fromBigEndian (f.payload.take 2) else 0) ∧
      evs = [.onClose l code (f.payload.drop 2)]
  else ∃ pieces, DataCallbacks l B f.opcode f.payload pieces ∧
    evs = pieces ++ if f.fin then [.readMessage l (UInt8.ofNat f.opcode) []] else []

/-- The callbacks for a sequence of frames: those of each frame, in order. -/
def FramesEvents (l B : Nat) : List Frame → List Event → Prop
  | [], evs => evs = []
  | f :: fs, evs => ∃ e es, evs = e ++ es ∧ FrameEvents l B f e ∧ FramesEvents l B fs es

/-- The callbacks that may be made for a frame of which only some bytes were received: none, or, for a data frame, pieces of a
strict prefix of its payload. -/
def CutEvents (l B : Nat) (f : Frame) (evs : List Event) : Prop :=
  evs = [] ∨ (isDataOpcode f.opcode ∧ ∃ d, d <+: f.payload ∧ d.length < f.payload.length ∧ DataCallbacks l B f.opcode d evs)

end OatWS
