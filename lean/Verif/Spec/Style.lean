import Verif.Spec.Frames
/-!
# The same frame, written in other ways

RFC 6455 leaves a sender little choice in how a frame is written: the shortest length field, a mask from clients and only from them, reserved bits 0, control frames final.
`encodeAs` writes a frame with any of the three length fields; mask key, reserved bits and FIN are those of the frame.
-/

namespace OatWS
open RFC6455

/-- The three length fields of section 5.2: in the second octet; in two further octets; in eight further octets. -/
inductive Width where
  | short
  | medium
  | long
deriving DecidableEq, Repr

/-- The 7 bits in the second octet, and the octets that follow. -/
def Width.field : Width → Nat → Nat × List UInt8
  | .short, n => (n, [])
  | .medium, n => (126, bigEndian 2 n)
  | .long, n => (127, bigEndian 8 n)

/-- The lengths that can be written in this way (not only those that should be). -/
def Width.Fits : Width → Nat → Prop
  | .short, n => n ≤ 125
  | .medium, n => n < 2 ^ 16
  | .long, n => n < 2 ^ 63

/-- The octets of a frame, its length written in the given way. -/
def encodeAs (w : Width) (f : Frame) : List UInt8 :=
  [UInt8.ofNat (flag f.fin 128 + flag f.rsv1 64 + flag f.rsv2 32 + flag f.rsv3 16 + f.opcode),
   UInt8.ofNat (flag f.maskKey.isSome 128 + (w.field f.payload.length).1)]
  ++ (w.field f.payload.length).2 ++ f.maskKey.getD [] ++ applyKey? f.maskKey f.payload

/-- The way of section 5.2: the shortest. -/
def minimalWidth (n : Nat) : Width := if n ≤ 125 then .short else if n ≤ 65535 then .medium else .long

/-- A sequence of frames, each with the way its length is written. -/
abbrev Written := List (Width × Frame)

/-- The frames, whatever the way they are written. -/
def Written.frames (ws : Written) : List Frame := ws.map Prod.snd

/-- The octets. -/
def Written.bytes (ws : Written) : List UInt8 := ws.flatMap (fun x => encodeAs x.1 x.2)

/-- Every length can be written in the way it is. -/
def Written.Fits (ws : Written) : Prop := ∀ x ∈ ws, x.1.Fits x.2.payload.length

/-- Two frames that carry the same: opcode and payload, and FIN if they are data frames. Reserved bits and mask key (and FIN of a control frame) may differ. -/
def SameContent (f g : Frame) : Prop := f.opcode = g.opcode ∧ f.payload = g.payload ∧ (isDataOpcode f.opcode → f.fin = g.fin)

/-- Two sequences of frames that carry the same, frame by frame. -/
inductive SameContents : List Frame → List Frame → Prop
  | nil : SameContents [] []
  | cons {f g : Frame} {fs gs : List Frame} : SameContent f g → SameContents fs gs → SameContents (f :: fs) (g :: gs)

end OatWS
