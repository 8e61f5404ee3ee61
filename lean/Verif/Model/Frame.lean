import Verif.Model.Bytes
/-!
# Frame headers: `Frame.hpp`, `Frame.cpp`
-/

namespace OatWS

/-- `v_uint8 mask[4]` (Frame.hpp:112). -/
structure Mask where
  m0 : UInt8
  m1 : UInt8
  m2 : UInt8
  m3 : UInt8
deriving DecidableEq, Repr, Inhabited

/-- The access `mask[i % 4]` (WebSocket.cpp:170, 326). -/
def Mask.at (m : Mask) (i : Nat) : UInt8 :=
  match i % 4 with
  | 0 => m.m0
  | 1 => m.m1
  | 2 => m.m2
  | _ => m.m3

/-- The four bytes of the mask in memory order. `mask[4]` (Frame.hpp:112). -/
def Mask.bytes (m : Mask) : List UInt8 := [m.m0, m.m1, m.m2, m.m3]

/-- Frame.hpp:41-66 opcode constants. -/
def OPCODE_CONTINUATION : UInt8 := 0x0
/-- Frame.hpp:46. -/
def OPCODE_TEXT : UInt8 := 0x1
/-- Frame.hpp:51. -/
def OPCODE_BINARY : UInt8 := 0x2
/-- Frame.hpp:56. -/
def OPCODE_CLOSE : UInt8 := 0x8
/-- Frame.hpp:61. -/
def OPCODE_PING : UInt8 := 0x9
/-- Frame.hpp:66. -/
def OPCODE_PONG : UInt8 := 0xA

/-- `Frame::Header` (Frame.hpp:73-113). `payloadLength` is a `v_int64`: an `Int`, whose range [-2^63, 2^63) is stated
where it matters. -/
structure Header where
  fin : Bool
  rsv1 : Bool
  rsv2 : Bool
  rsv3 : Bool
  opcode : UInt8
  hasMask : Bool
  payloadLength : Int
  mask : Mask
deriving DecidableEq, Repr, Inhabited

/-- `bits |= c` under a condition (Frame.cpp:33-40). -/
def orIf (b : Bool) (c : UInt16) (bits : UInt16) : UInt16 := if b then bits ||| c else bits

/-- `Frame::packHeaderBits` (Frame.cpp:29-53): returns `(bits, messageLengthScenario)`.
`frameHeader.payloadLength & 127` on a signed 64 bit value is `payloadLength mod 128` (two's complement). -/
def packHeaderBits (h : Header) : UInt16 × UInt8 :=
  let bits : UInt16 := 0                                       -- :31
  let bits := orIf h.fin 32768 bits                            -- :33
  let bits := orIf h.rsv1 16384 bits                           -- :34
  let bits := orIf h.rsv2 8192 bits                            -- :35
  let bits := orIf h.rsv3 4096 bits                            -- :36
  let bits := bits ||| ((h.opcode &&& 15).toUInt16 <<< 8)      -- :38
  let bits := orIf h.hasMask 128 bits                          -- :40
  if h.payloadLength < 126 then                                -- :42
    (bits ||| UInt16.ofNat (h.payloadLength % 128).toNat, 1)   -- :43-44
  else if h.payloadLength < 65536 then                         -- :45
    (bits ||| 126, 2)
  else
    (bits ||| 127, 3)                                          -- :49-50

/-- `Frame::unpackHeaderBits` (Frame.cpp:55-63): overwrites flags, opcode and hasMask of the given header and returns
`messageLen1`. -/
def unpackHeaderBits (bits : UInt16) (h : Header) : Header × UInt8 :=
  ({ h with
      fin := (bits &&& 32768) > 0
      rsv1 := (bits &&& 16384) > 0
      rsv2 := (bits &&& 8192) > 0
      rsv3 := (bits &&& 4096) > 0
      opcode := ((bits &&& 3840) >>> 8).toUInt8
      hasMask := (bits &&& 128) > 0 },
   (bits &&& 127).toUInt8)

end OatWS
