import Verif.Model.Bytes
/-!
# `SHA1.hpp`, `SHA1.cpp`

`uint32_t` is `UInt32`, `uint64_t` is `UInt64` (arithmetic modulo 2^32, 2^64). The `BufferOutputStream buffer` (oatpp core) is
the list of the bytes before its current position; `writeSimple` appends, `setCurrentPosition(0)` empties it.
-/

namespace OatWS.SHA1

/-- Five words: `uint32_t digest[5]` (SHA1.hpp:56), and the working variables of `transform` (SHA1.cpp:107-111). -/
structure Words where
  a : UInt32
  b : UInt32
  c : UInt32
  d : UInt32
  e : UInt32
deriving DecidableEq, Repr

/-- `uint32_t block[BLOCK_INTS]`: 16 words. SHA1.cpp:58-96. -/
abbrev Block := List UInt32

/-- `SHA1::rol` (SHA1.cpp:53-55). -/
def rol (value : UInt32) (bits : UInt32) : UInt32 := (value <<< bits) ||| (value >>> (32 - bits))

/-- `block[i]` SHA1.cpp:59, 68-96. -/
def at_ (block : Block) (i : Nat) : UInt32 := block.getD i 0

/-- `SHA1::blk` (SHA1.cpp:58-60); `k & 15` is `k % 16`. -/
def blk (block : Block) (i : Nat) : UInt32 :=
  rol (at_ block ((i + 13) % 16) ^^^ at_ block ((i + 8) % 16) ^^^ at_ block ((i + 2) % 16) ^^^ at_ block i) 1

/-- `SHA1::R0` (SHA1.cpp:67-70): the new values of `block`, `w`, `z`. -/
def R0 (block : Block) (v w x y z : UInt32) (i : Nat) : Block × UInt32 × UInt32 :=
  (block, rol w 30, z + (((w &&& (x ^^^ y)) ^^^ y) + at_ block i + 0x5a827999 + rol v 5))

/-- `SHA1::R1` (SHA1.cpp:73-77). -/
def R1 (block : Block) (v w x y z : UInt32) (i : Nat) : Block × UInt32 × UInt32 :=
  let block := block.set i (blk block i)
  (block, rol w 30, z + (((w &&& (x ^^^ y)) ^^^ y) + at_ block i + 0x5a827999 + rol v 5))

/-- `SHA1::R2` (SHA1.cpp:80-84). -/
def R2 (block : Block) (v w x y z : UInt32) (i : Nat) : Block × UInt32 × UInt32 :=
  let block := block.set i (blk block i)
  (block, rol w 30, z + ((w ^^^ x ^^^ y) + at_ block i + 0x6ed9eba1 + rol v 5))

/-- `SHA1::R3` (SHA1.cpp:87-91). -/
def R3 (block : Block) (v w x y z : UInt32) (i : Nat) : Block × UInt32 × UInt32 :=
  let block := block.set i (blk block i)
  (block, rol w 30, z + ((((w ||| x) &&& y) ||| (w &&& x)) + at_ block i + 0x8f1bbcdc + rol v 5))

/-- `SHA1::R4` (SHA1.cpp:94-98). -/
def R4 (block : Block) (v w x y z : UInt32) (i : Nat) : Block × UInt32 × UInt32 :=
  let block := block.set i (blk block i)
  (block, rol w 30, z + ((w ^^^ x ^^^ y) + at_ block i + 0xca62c1d6 + rol v 5))

/-- A working variable of `transform`. SHA1.cpp:107-111. -/
inductive Reg where | a | b | c | d | e
deriving DecidableEq, Repr

/-- The value of a variable (SHA1.cpp:107-111). -/
def Words.get (s : Words) : Reg → UInt32
  | .a => s.a | .b => s.b | .c => s.c | .d => s.d | .e => s.e

/-- Assignment to a variable (SHA1.cpp:107-111). -/
def Words.set (s : Words) (r : Reg) (x : UInt32) : Words :=
  match r with
  | .a => { s with a := x } | .b => { s with b := x } | .c => { s with c := x } | .d => { s with d := x } | .e => { s with e := x }

/-- Which function is called. SHA1.cpp:67, 73, 80, 87, 94. -/
inductive Fn where | R0 | R1 | R2 | R3 | R4
deriving DecidableEq, Repr

/-- The function called (SHA1.cpp:67-98). -/
def Fn.run : Fn → Block → UInt32 → UInt32 → UInt32 → UInt32 → UInt32 → Nat → Block × UInt32 × UInt32
  | .R0 => SHA1.R0 | .R1 => SHA1.R1 | .R2 => SHA1.R2 | .R3 => SHA1.R3 | .R4 => SHA1.R4

/-- A call `R(block, v, w, x, y, z, i)` in `transform`: the function, the variables passed, the index.
SHA1.cpp:114-193. -/
structure Call where
  f : Fn
  v : Reg
  w : Reg
  x : Reg
  y : Reg
  z : Reg
  i : Nat
deriving DecidableEq, Repr

/-- The 80 calls of `transform`, in order (SHA1.cpp:114-193, transcribed line by line). -/
def calls : List Call := [
  ⟨.R0, .a, .b, .c, .d, .e, 0⟩,
  ⟨.R0, .e, .a, .b, .c, .d, 1⟩,
  ⟨.R0, .d, .e, .a, .b, .c, 2⟩,
  ⟨.R0, .c, .d, .e, .a, .b, 3⟩,
  ⟨.R0, .b, .c, .d, .e, .a, 4⟩,
  ⟨.R0, .a, .b, .c, .d, .e, 5⟩,
  ⟨.R0, .e, .a, .b, .c, .d, 6⟩,
  ⟨.R0, .d, .e, .a, .b, .c, 7⟩,
  ⟨.R0, .c, .d, .e, .a, .b, 8⟩,
  ⟨.R0, .b, .c, .d, .e, .a, 9⟩,
  ⟨.R0, .a, .b, .c, .d, .e, 10⟩,
  ⟨.R0, .e, .a, .b, .c, .d, 11⟩,
  ⟨.R0, .d, .e, .a, .b, .c, 12⟩,
  ⟨.R0, .c, .d, .e, .a, .b, 13⟩,
  ⟨.R0, .b, .c, .d, .e, .a, 14⟩,
  ⟨.R0, .a, .b, .c, .d, .e, 15⟩,
  ⟨.R1, .e, .a, .b, .c, .d, 0⟩,
  ⟨.R1, .d, .e, .a, .b, .c, 1⟩,
  ⟨.R1, .c, .d, .e, .a, .b, 2⟩,
  ⟨.R1, .b, .c, .d, .e, .a, 3⟩,
  ⟨.R2, .a, .b, .c, .d, .e, 4⟩,
  ⟨.R2, .e, .a, .b, .c, .d, 5⟩,
  ⟨.R2, .d, .e, .a, .b, .c, 6⟩,
  ⟨.R2, .c, .d, .e, .a, .b, 7⟩,
  ⟨.R2, .b, .c, .d, .e, .a, 8⟩,
  ⟨.R2, .a, .b, .c, .d, .e, 9⟩,
  ⟨.R2, .e, .a, .b, .c, .d, 10⟩,
  ⟨.R2, .d, .e, .a, .b, .c, 11⟩,
  ⟨.R2, .c, .d, .e, .a, .b, 12⟩,
  ⟨.R2, .b, .c, .d, .e, .a, 13⟩,
  ⟨.R2, .a, .b, .c, .d, .e, 14⟩,
  ⟨.R2, .e, .a, .b, .c, .d, 15⟩,
  ⟨.R2, .d, .e, .a, .b, .c, 0⟩,
  ⟨.R2, .c, .d, .e, .a, .b, 1⟩,
  ⟨.R2, .b, .c, .d, .e, .a, 2⟩,
  ⟨.R2, .a, .b, .c, .d, .e, 3⟩,
  ⟨.R2, .e, .a, .b, .c, .d, 4⟩,
  ⟨.R2, .d, .e, .a, .b, .c, 5⟩,
  ⟨.R2, .c, .d, .e, .a, .b, 6⟩,
  ⟨.R2, .b, .c, .d, .e, .a, 7⟩,
  ⟨.R3, .a, .b, .c, .d, .e, 8⟩,
  ⟨.R3, .e, .a, .b, .c, .d, 9⟩,
  ⟨.R3, .d, .e, .a, .b, .c, 10⟩,
  ⟨.R3, .c, .d, .e, .a, .b, 11⟩,
  ⟨.R3, .b, .c, .d, .e, .a, 12⟩,
  ⟨.R3, .a, .b, .c, .d, .e, 13⟩,
  ⟨.R3, .e, .a, .b, .c, .d, 14⟩,
  ⟨.R3, .d, .e, .a, .b, .c, 15⟩,
  ⟨.R3, .c, .d, .e, .a, .b, 0⟩,
  ⟨.R3, .b, .c, .d, .e, .a, 1⟩,
  ⟨.R3, .a, .b, .c, .d, .e, 2⟩,
  ⟨.R3, .e, .a, .b, .c, .d, 3⟩,
  ⟨.R3, .d, .e, .a, .b, .c, 4⟩,
  ⟨.R3, .c, .d, .e, .a, .b, 5⟩,
  ⟨.R3, .b, .c, .d, .e, .a, 6⟩,
  ⟨.R3, .a, .b, .c, .d, .e, 7⟩,
  ⟨.R3, .e, .a, .b, .c, .d, 8⟩,
  ⟨.R3, .d, .e, .a, .b, .c, 9⟩,
  ⟨.R3, .c, .d, .e, .a, .b, 10⟩,
  ⟨.R3, .b, .c, .d, .e, .a, 11⟩,
  ⟨.R4, .a, .b, .c, .d, .e, 12⟩,
  ⟨.R4, .e, .a, .b, .c, .d, 13⟩,
  ⟨.R4, .d, .e, .a, .b, .c, 14⟩,
  ⟨.R4, .c, .d, .e, .a, .b, 15⟩,
  ⟨.R4, .b, .c, .d, .e, .a, 0⟩,
  ⟨.R4, .a, .b, .c, .d, .e, 1⟩,
  ⟨.R4, .e, .a, .b, .c, .d, 2⟩,
  ⟨.R4, .d, .e, .a, .b, .c, 3⟩,
  ⟨.R4, .c, .d, .e, .a, .b, 4⟩,
  ⟨.R4, .b, .c, .d, .e, .a, 5⟩,
  ⟨.R4, .a, .b, .c, .d, .e, 6⟩,
  ⟨.R4, .e, .a, .b, .c, .d, 7⟩,
  ⟨.R4, .d, .e, .a, .b, .c, 8⟩,
  ⟨.R4, .c, .d, .e, .a, .b, 9⟩,
  ⟨.R4, .b, .c, .d, .e, .a, 10⟩,
  ⟨.R4, .a, .b, .c, .d, .e, 11⟩,
  ⟨.R4, .e, .a, .b, .c, .d, 12⟩,
  ⟨.R4, .d, .e, .a, .b, .c, 13⟩,
  ⟨.R4, .c, .d, .e, .a, .b, 14⟩,
  ⟨.R4, .b, .c, .d, .e, .a, 15⟩]

/-- Executing one call: `w` and `z` are passed by reference.
SHA1.cpp:67, 73, 80, 87, 94. -/
def Call.exec (s : Block × Words) (c : Call) : Block × Words :=
  let r := c.f.run s.1 (s.2.get c.v) (s.2.get c.w) (s.2.get c.x) (s.2.get c.y) (s.2.get c.z) c.i
  (r.1, (s.2.set c.w r.2.1).set c.z r.2.2)

/-- The object (SHA1.hpp:56-58). -/
structure State where
  digest : Words
  buffer : List UInt8
  transforms : UInt64
deriving DecidableEq, Repr

/-- `SHA1::reset` (SHA1.cpp:37-50), and the constructor (:229-231). -/
def reset : State :=
  { digest := ⟨0x67452301, 0xefcdab89, 0x98badcfe, 0x10325476, 0xc3d2e1f0⟩, buffer := [], transforms := 0 }

/-- `SHA1::transform` (SHA1.cpp:105-204): the new digest and the block as it is left behind. -/
def transformWords (digest : Words) (block : Block) : Words × Block :=
  let r := calls.foldl Call.exec (block, digest)
  (⟨digest.a + r.2.a, digest.b + r.2.b, digest.c + r.2.c, digest.d + r.2.d, digest.e + r.2.e⟩, r.1)

/-- `SHA1::transform` (SHA1.cpp:105-204) on the object; with the count of transforms (:203). -/
def transform (st : State) (block : Block) : State × Block :=
  ({ st with digest := (transformWords st.digest block).1, transforms := st.transforms + 1 }, (transformWords st.digest block).2)

/-- `SHA1::buffer_to_block` (SHA1.cpp:207-226): `memcpy` and `ntohl`. Simplification: if the buffer had fewer than 64 bytes the
rest of the block would be indeterminate (zeros here); both callers have 64 bytes. -/
def bufferToBlock (host : Endian) (buffer : List UInt8) : Block :=
  (List.range 16).map fun i => hton32 host (load32 host (buffer.getD (4 * i) 0) (buffer.getD (4 * i + 1) 0)
    (buffer.getD (4 * i + 2) 0) (buffer.getD (4 * i + 3) 0))

/-- `SHA1::update(const oatpp::String&)` (SHA1.cpp:234-256) for a non-null string: `s` is the part after `progress`. -/
def update (host : Endian) (st : State) (s : List UInt8) : State :=
  let readSize := min (64 - st.buffer.length) s.length                            -- :238-241
  let buffer := st.buffer ++ s.take readSize                                      -- :243-244
  if h : buffer.length ≠ 64 then { st with buffer := buffer }                     -- :246-248
  else
    let st := (transform st (bufferToBlock host buffer)).1                        -- :250-252
    update host { st with buffer := [] } (s.drop readSize)                        -- :253
termination_by s.length + st.buffer.length
decreasing_by
  simp only [buffer, readSize, ne_eq, Decidable.not_not] at *
  rw [List.length_append, List.length_take] at h
  simp only [List.length_drop, List.length_nil]
  omega

/-- `SHA1::update(std::istream&)` (SHA1.cpp:259-277). `bytes`: what can still be read before the end of the stream or a failure;
`is.read(sbuf, n)` stores the first `n` of them (or all, if fewer), `gcount()` is their number. Returns the rest of the
stream as well. -/
def updateStream (host : Endian) (st : State) (bytes : List UInt8) : State × List UInt8 :=
  let n := 64 - st.buffer.length                                                  -- :264
  let buffer := st.buffer ++ bytes.take n                                         -- :265
  if h : buffer.length ≠ 64 then ({ st with buffer := buffer }, bytes.drop n)     -- :267-269
  else
    let st := (transform st (bufferToBlock host buffer)).1                        -- :271-273
    updateStream host { st with buffer := [] } (bytes.drop n)                     -- :274
termination_by bytes.length + st.buffer.length
decreasing_by
  simp only [buffer, n, ne_eq, Decidable.not_not] at *
  rw [List.length_append, List.length_take] at h
  simp only [List.length_drop, List.length_nil]
  omega

/-- `SHA1::finalBinary` (SHA1.cpp:284-322): the result and the object afterwards. -/
def finalBinary (host : Endian) (st : State) : List UInt8 × State :=
  let totalBits : UInt64 := (st.transforms * 64 + UInt64.ofNat st.buffer.length) * 8         -- :286
  let padded := st.buffer ++ [0x80]                                               -- :289
  let origSize := padded.length                                                   -- :290
  let buffer := padded ++ List.replicate (64 - padded.length) 0                   -- :291-293
  let block := bufferToBlock host buffer                                          -- :295-296
  let (st, block) :=
    if origSize > 64 - 8 then                                                     -- :298-304
      let (st, block) := transform st block
      (st, List.replicate 14 0 ++ block.drop 14)
    else (st, block)
  let block := (block.set 15 (UInt32.ofNat (totalBits.toNat % 4294967296))).set 14 (UInt32.ofNat (totalBits.toNat / 4294967296))   -- :307-308
  let (st, _) := transform st block                                               -- :309
  let out := fun x => store32 host (hton32 host x)                                -- :313-314
  (out st.digest.a ++ out st.digest.b ++ out st.digest.c ++ out st.digest.d ++ out st.digest.e, reset)   -- :311-320

/-- `SHA1::fromFile` (SHA1.cpp:324-329). `file`: the content, or `none` if the file cannot be opened (then nothing can be
read from the stream). -/
def fromFile (host : Endian) (file : Option (List UInt8)) : List UInt8 :=
  (finalBinary host (updateStream host reset (file.getD [])).1).1

end OatWS.SHA1
