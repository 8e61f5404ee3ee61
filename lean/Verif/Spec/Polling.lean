import Verif.Spec.Refusal
import Verif.Spec.Frames
import Verif.Model.WebSocket
import Verif.Spec.Resume
import Verif.Spec.Schedule
/-! # Driving the socket frame by frame with `iterateFrame` -/

namespace OatWS
open RFC6455

/-- `iterateFrame` is called `n` times, one call after the other, with the same header object; the result: what the object contained after each of them. -/
def polls (env : Env) : Nat → Header → P St (List Header)
  | 0, _ => pure []
  | n + 1, h => do
    let h' ← iterateFrame env h
    let hs ← polls env n h'
    pure (h' :: hs)

/-- The header object of the caller says what is in the header of frame `f`. -/
structure Reports (h : Header) (f : Frame) : Prop where
  fin : h.fin = f.fin
  rsv : h.rsv1 = f.rsv1 ∧ h.rsv2 = f.rsv2 ∧ h.rsv3 = f.rsv3
  opcode : h.opcode.toNat = f.opcode
  masked : h.hasMask = f.maskKey.isSome
  key : ∀ k, f.maskKey = some k → [h.mask.m0, h.mask.m1, h.mask.m2, h.mask.m3] = k
  length : h.payloadLength = f.payload.length

/-- Header by header, frame by frame. -/
inductive ReportsAll : List Header → List Frame → Prop
  | nil : ReportsAll [] []
  | cons {h : Header} {f : Frame} {hs : List Header} {fs : List Frame} : Reports h f → ReportsAll hs fs → ReportsAll (h :: hs) (f :: fs)

/-- The frames are valid and accepted one after the other; close frames may be among them. -/
inductive Pollable : Bool → List Frame → Bool → Prop
  | nil {o : Bool} : Pollable o [] o
  | cons {o o' : Bool} {f : Frame} {fs : List Frame} : f.Valid → Accepted o f → Pollable (openAfterFrame o f) fs o' → Pollable o (f :: fs) o'

/-- A socket with listener `l` and a read buffer of `B` bytes, in the middle of a fragmented message or not (`o`), on a connection that does not fail before its end. Callbacks return normally and leave listener and
configuration alone; they may send and call `stopListening`. Whether the socket is listening does not matter. -/
structure Ready (env : Env) (st : St) (l B : Nat) (o : Bool) : Prop where
  tame : env.Tame
  returns : env.Returns
  listener : st.sock.listener = some l
  size : st.sock.config.readBufferSize = B
  pos : 0 < B
  isOpen : OpenIs o st.sock.lastOpcode
  healthy : Healthy (st.inp.bytes.length + 1) st.inp.sched

/-- The header object says what RFC 6455's header `hd` says (the length as a signed number: C19). -/
structure Says (h : Header) (hd : Hdr) : Prop where
  fin : h.fin = hd.fin
  rsv : h.rsv1 = hd.rsv1 ∧ h.rsv2 = hd.rsv2 ∧ h.rsv3 = hd.rsv3
  opcode : h.opcode.toNat = hd.opcode
  masked : h.hasMask = hd.maskKey.isSome
  key : ∀ k, hd.maskKey = some k → [h.mask.m0, h.mask.m1, h.mask.m2, h.mask.m3] = k
  length : hd.len < 2 ^ 63 → h.payloadLength = hd.len

/-- What the first two bytes of a header say. -/
structure SaysBits (h : Header) (hd : Hdr) : Prop where
  fin : h.fin = hd.fin
  rsv : h.rsv1 = hd.rsv1 ∧ h.rsv2 = hd.rsv2 ∧ h.rsv3 = hd.rsv3
  opcode : h.opcode.toNat = hd.opcode
  masked : h.hasMask = hd.maskKey.isSome

end OatWS
