/-!
# SHA-1 as defined by FIPS 180-4 (sections 4.1.1, 4.2.1, 5.1.1, 5.2.1, 5.3.1, 6.1)

Messages are strings of bytes.
-/

namespace FIPS180

/-- 2.2.2: rotation to the left. -/
def rotl (n : UInt32) (x : UInt32) : UInt32 := (x <<< n) ||| (x >>> (32 - n))

/-- 4.1.1 -/
def Ch (x y z : UInt32) : UInt32 := (x &&& y) ^^^ (~~~x &&& z)
def Parity (x y z : UInt32) : UInt32 := x ^^^ y ^^^ z
def Maj (x y z : UInt32) : UInt32 := (x &&& y) ^^^ (x &&& z) ^^^ (y &&& z)

def f (t : Nat) (x y z : UInt32) : UInt32 :=
  if t < 20 then Ch x y z else if t < 40 then Parity x y z else if t < 60 then Maj x y z else Parity x y z

/-- 4.2.1 -/
def K (t : Nat) : UInt32 :=
  if t < 20 then 0x5a827999 else if t < 40 then 0x6ed9eba1 else if t < 60 then 0x8f1bbcdc else 0xca62c1d6

/-- Five words: a hash value, or the working variables. -/
structure Hash where
  a : UInt32
  b : UInt32
  c : UInt32
  d : UInt32
  e : UInt32
deriving DecidableEq, Repr

/-- 5.3.1 -/
def H0 : Hash := ⟨0x67452301, 0xefcdab89, 0x98badcfe, 0x10325476, 0xc3d2e1f0⟩

/-- 6.1.2, step 1: the message schedule for the message block `M` (16 words). -/
def W (M : Nat → UInt32) (t : Nat) : UInt32 :=
  if t < 16 then M t else rotl 1 (W M (t - 3) ^^^ W M (t - 8) ^^^ W M (t - 14) ^^^ W M (t - 16))

/-- 6.1.2, step 3 -/
def round (M : Nat → UInt32) (t : Nat) (s : Hash) : Hash :=
  ⟨rotl 5 s.a + f t s.b s.c s.d + s.e + K t + W M t, s.a, rotl 30 s.b, s.c, s.d⟩

/-- The first `n` rounds. -/
def rounds (M : Nat → UInt32) : Nat → Hash → Hash
  | 0, s => s
  | n + 1, s => round M n (rounds M n s)

/-- 6.1.2, steps 2-4 -/
def compress (H : Hash) (M : Nat → UInt32) : Hash :=
  let s := rounds M 80 H
  ⟨s.a + H.a, s.b + H.b, s.c + H.c, s.d + H.d, s.e + H.e⟩

/-- 5.2.1: word `j` of a block of bytes, most significant byte first. -/
def word (bytes : List UInt8) (j : Nat) : UInt32 :=
  UInt32.ofNat (16777216 * (bytes.getD (4 * j) 0).toNat + 65536 * (bytes.getD (4 * j + 1) 0).toNat
    + 256 * (bytes.getD (4 * j + 2) 0).toNat + (bytes.getD (4 * j + 3) 0).toNat)

/-- 6.1.2: all complete blocks of 64 bytes, one after the other. -/
def hashBlocks (H : Hash) (bytes : List UInt8) : Hash :=
  if 64 ≤ bytes.length then hashBlocks (compress H (word (bytes.take 64))) (bytes.drop 64) else H
termination_by bytes.length
decreasing_by rw [List.length_drop]; omega

/-- The `n` bytes of a number, most significant first. -/
def bigEndian : Nat → Nat → List UInt8
  | 0, _ => []
  | n + 1, x => bigEndian n (x / 256) ++ [UInt8.ofNat (x % 256)]

/-- 5.1.1: the bit 1, as few zeros as possible, and the length in bits in 64 bits, to a multiple of 512 bits. -/
def pad (m : List UInt8) : List UInt8 :=
  m ++ [0x80] ++ List.replicate ((119 - m.length % 64) % 64) 0 ++ bigEndian 8 (8 * m.length)

def Hash.bytes (H : Hash) : List UInt8 :=
  bigEndian 4 H.a.toNat ++ bigEndian 4 H.b.toNat ++ bigEndian 4 H.c.toNat ++ bigEndian 4 H.d.toNat ++ bigEndian 4 H.e.toNat

/-- SHA-1 -/
def sha1 (m : List UInt8) : List UInt8 := (hashBlocks H0 (pad m)).bytes

/-- The padding is as 5.1.1 says: a multiple of 64 bytes, and no fewer zeros would do. -/
theorem pad_length (m : List UInt8) : (pad m).length % 64 = 0 ∧
    ∀ k < (119 - m.length % 64) % 64, (m.length + 1 + k + 8) % 64 ≠ 0 := by
  have h8 : ∀ n x, (bigEndian n x).length = n := by
    intro n
    induction n with
    | zero => intro x; rfl
    | succ n ih => intro x; rw [bigEndian, List.length_append, ih]; rfl
  unfold pad
  simp only [List.length_append, List.length_replicate, h8, List.length_cons, List.length_nil]
  refine ⟨by omega, fun k hk => by omega⟩

end FIPS180
