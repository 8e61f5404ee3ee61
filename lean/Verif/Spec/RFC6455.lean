/-!
# RFC 6455 section 5: framing, written from the RFC

Nothing here refers to the model of the code. Numbers are natural numbers, big-endian fields are given by
arithmetic.
-/

namespace RFC6455

/-- A WebSocket frame (RFC 6455 section 5.2). `maskKey = some key` means MASK=1 with this 4-octet masking key.
`payload` is the application data (before masking). -/
structure Frame where
  fin : Bool
  rsv1 : Bool := false
  rsv2 : Bool := false
  rsv3 : Bool := false
  opcode : Nat
  maskKey : Option (List UInt8) := none
  payload : List UInt8
deriving DecidableEq, Repr

/-- Representable frames: 4-bit opcode, 4-octet key, length below 2^63 (the top bit of the 64-bit length must be 0). -/
def Frame.Valid (f : Frame) : Prop :=
  f.opcode < 16 ∧ (∀ k, f.maskKey = some k → k.length = 4) ∧ f.payload.length < 2 ^ 63

/-- Octet i of the transformed data is octet i of the original XOR octet (i mod 4) of the key (section 5.3);
the first octet of `data` has index `start` in the payload. -/
def applyKeyFrom (start : Nat) (key data : List UInt8) : List UInt8 :=
  data.mapIdx fun i b => b ^^^ key.getD ((start + i) % 4) 0

/-- Masking/unmasking of a whole payload (section 5.3). -/
def applyKey (key data : List UInt8) : List UInt8 := applyKeyFrom 0 key data

/-- Apply an optional key. -/
def applyKey? (key : Option (List UInt8)) (data : List UInt8) : List UInt8 :=
  match key with
  | none => data
  | some k => applyKey k data

/-- `n` as `k` octets in network byte order. -/
def bigEndian : Nat → Nat → List UInt8
  | 0, _ => []
  | k + 1, n => UInt8.ofNat (n / 256 ^ k % 256) :: bigEndian k n

/-- The number denoted by octets in network byte order. -/
def fromBigEndian (bs : List UInt8) : Nat := bs.foldl (fun n b => 256 * n + b.toNat) 0

/-- The value of a 1-bit flag with the given weight. -/
def flag (b : Bool) (weight : Nat) : Nat := if b then weight else 0

/-- 7-bit length code and extended length octets; "the minimal number of bytes MUST be used" (section 5.2). -/
def lengthField (n : Nat) : Nat × List UInt8 :=
  if n ≤ 125 then (n, []) else if n ≤ 65535 then (126, bigEndian 2 n) else (127, bigEndian 8 n)

/-- Header octets for a payload of `len` octets (section 5.2). -/
def encodeHeader (fin rsv1 rsv2 rsv3 : Bool) (opcode : Nat) (maskKey : Option (List UInt8)) (len : Nat) :
    List UInt8 :=
  [UInt8.ofNat (flag fin 128 + flag rsv1 64 + flag rsv2 32 + flag rsv3 16 + opcode),
   UInt8.ofNat (flag maskKey.isSome 128 + (lengthField len).1)]
  ++ (lengthField len).2 ++ maskKey.getD []

/-- The octets of a frame on the wire. -/
def Frame.encode (f : Frame) : List UInt8 :=
  encodeHeader f.fin f.rsv1 f.rsv2 f.rsv3 f.opcode f.maskKey f.payload.length ++ applyKey? f.maskKey f.payload

/-- Length of a frame's header in octets. -/
def Frame.headerLength (f : Frame) : Nat :=
  (encodeHeader f.fin f.rsv1 f.rsv2 f.rsv3 f.opcode f.maskKey f.payload.length).length

/-- A parsed frame header. `len` is the announced payload length as an unsigned number. -/
structure Hdr where
  fin : Bool
  rsv1 : Bool
  rsv2 : Bool
  rsv3 : Bool
  opcode : Nat
  maskKey : Option (List UInt8)
  len : Nat
deriving DecidableEq, Repr

/-- The first `n` octets and the rest, if there are that many. -/
def takeN (n : Nat) (bs : List UInt8) : Option (List UInt8 × List UInt8) :=
  if n ≤ bs.length then some (bs.take n, bs.drop n) else none

/-- Parse the length field following the second octet: 7-bit code `len7`. Any form is understood, minimal or not. -/
def parseLength (len7 : Nat) (bs : List UInt8) : Option (Nat × List UInt8) :=
  if len7 ≤ 125 then some (len7, bs)
  else if len7 = 126 then (takeN 2 bs).map fun (l, r) => (fromBigEndian l, r)
  else (takeN 8 bs).map fun (l, r) => (fromBigEndian l, r)

/-- Parse the masking key if MASK=1. -/
def parseKey (masked : Bool) (bs : List UInt8) : Option (Option (List UInt8) × List UInt8) :=
  if masked then (takeN 4 bs).map fun (k, r) => (some k, r) else some (none, bs)

/-- Parse a frame header (section 5.2); `none` when the octets end inside the header. -/
def parseHdr : List UInt8 → Option (Hdr × List UInt8)
  | b0 :: b1 :: rest =>
    (parseLength (b1.toNat % 128) rest).bind fun (len, rest) =>
      (parseKey (128 ≤ b1.toNat) rest).map fun (key, rest) =>
        ({ fin := 128 ≤ b0.toNat
           rsv1 := b0.toNat / 64 % 2 = 1
           rsv2 := b0.toNat / 32 % 2 = 1
           rsv3 := b0.toNat / 16 % 2 = 1
           opcode := b0.toNat % 16
           maskKey := key
           len := len }, rest)
  | _ => none

end RFC6455
