/-!
# Bytes, host byte order, network byte order

Models the way `WebSocket.cpp`, `AsyncWebSocket.cpp` and `SHA1.cpp` move integers between memory and the wire:
integers are stored in host memory (`&bb`, `&messageLen2`, `block`, ...) and passed through
`htons/ntohs/htonl/ntohl` (from `<arpa/inet.h>`, external: WebSocket.cpp:30-34).
Both host byte orders are modelled; every theorem holds for both.
-/

namespace OatWS

/-- Byte order of the machine the code runs on (not fixed by /repo).
The code depends on it at WebSocket.cpp:73-97, 113-132, 237, 343-346 and AsyncWebSocket.cpp:100, 127-129, 175, 185-190, 399, 543. -/
inductive Endian where
  | little
  | big
deriving DecidableEq, Repr

/-- External: a `uint16_t` whose two bytes in memory are `b0` (lower address), `b1`.
Used for WebSocket.cpp:73-80, 85-90, 237. -/
def load16 (e : Endian) (b0 b1 : UInt8) : UInt16 :=
  match e with
  | .little => UInt16.ofNat (b0.toNat + 256 * b1.toNat)
  | .big    => UInt16.ofNat (256 * b0.toNat + b1.toNat)

/-- External: the bytes in memory of a `uint16_t`, lower address first.
Used for WebSocket.cpp:117, 124, 346. -/
def store16 (e : Endian) (x : UInt16) : List UInt8 :=
  match e with
  | .little => [UInt8.ofNat (x.toNat % 256), UInt8.ofNat (x.toNat / 256)]
  | .big    => [UInt8.ofNat (x.toNat / 256), UInt8.ofNat (x.toNat % 256)]

/-- Exchange of the two bytes of a 16 bit word.
Used for `htons`/`ntohs` (WebSocket.cpp:80, 90, 115, 123, 237, 343). -/
def bswap16 (x : UInt16) : UInt16 :=
  UInt16.ofNat (x.toNat / 256 + 256 * (x.toNat % 256))

/-- External: `htons` = `ntohs` (`<arpa/inet.h>`): byte swap on little endian hosts, identity on big endian ones.
Called at WebSocket.cpp:80, 90, 115, 123, 237, 343. -/
def hton16 (e : Endian) (x : UInt16) : UInt16 :=
  match e with
  | .little => bswap16 x
  | .big    => x

/-- External: a `uint32_t` with memory bytes `b0..b3` (increasing addresses).
Used for WebSocket.cpp:92-97, SHA1.cpp:222-225. -/
def load32 (e : Endian) (b0 b1 b2 b3 : UInt8) : UInt32 :=
  match e with
  | .little => UInt32.ofNat (b0.toNat + 256 * b1.toNat + 65536 * b2.toNat + 16777216 * b3.toNat)
  | .big    => UInt32.ofNat (16777216 * b0.toNat + 65536 * b1.toNat + 256 * b2.toNat + b3.toNat)

/-- External: memory bytes of a `uint32_t`. Used for WebSocket.cpp:129-132, SHA1.cpp:313-314. -/
def store32 (e : Endian) (x : UInt32) : List UInt8 :=
  match e with
  | .little => [UInt8.ofNat (x.toNat % 256), UInt8.ofNat (x.toNat / 256 % 256),
                UInt8.ofNat (x.toNat / 65536 % 256), UInt8.ofNat (x.toNat / 16777216)]
  | .big    => [UInt8.ofNat (x.toNat / 16777216), UInt8.ofNat (x.toNat / 65536 % 256),
                UInt8.ofNat (x.toNat / 256 % 256), UInt8.ofNat (x.toNat % 256)]

/-- Reversal of the four bytes of a 32 bit word.
Used for `htonl`/`ntohl` (WebSocket.cpp:97, 130-131; SHA1.cpp:224, 313). -/
def bswap32 (x : UInt32) : UInt32 :=
  UInt32.ofNat (x.toNat / 16777216 + 256 * (x.toNat / 65536 % 256)
    + 65536 * (x.toNat / 256 % 256) + 16777216 * (x.toNat % 256))

/-- External: `htonl` = `ntohl`.
Called at WebSocket.cpp:97, 130-131; SHA1.cpp:224, 313. -/
def hton32 (e : Endian) (x : UInt32) : UInt32 :=
  match e with
  | .little => bswap32 x
  | .big    => x

/-- Conversion of a `v_uint64` value (given as a natural number below 2^64) to `v_int64`
(two's complement), as in the assignment WebSocket.cpp:97. -/
def toInt64 (n : Nat) : Int :=
  if n < 2 ^ 63 then (n : Int) else (n : Int) - 2 ^ 64

end OatWS
