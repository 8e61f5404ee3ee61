import Verif.Model.Frame
import Verif.Spec.RFC6455
/-! Bit-level helper lemmas for `Frame.cpp` and network byte order. -/

namespace OatWS
open RFC6455

theorem or_add_of_lt {k : Nat} (a b : Nat) (hb : b < 2 ^ k) : (2 ^ k * a) ||| b = 2 ^ k * a + b := by
  rw [Nat.two_pow_add_eq_or_of_lt hb]

/-! ### byte order -/

theorem u8_lt (b : UInt8) : b.toNat < 256 := b.toNat_lt
theorem u16_lt (b : UInt16) : b.toNat < 65536 := b.toNat_lt
theorem u32_lt (b : UInt32) : b.toNat < 4294967296 := b.toNat_lt

theorem ofNat16 {n : Nat} (h : n < 65536) : (UInt16.ofNat n).toNat = n := by
  rw [UInt16.toNat_ofNat']; exact Nat.mod_eq_of_lt h
theorem ofNat32 {n : Nat} (h : n < 4294967296) : (UInt32.ofNat n).toNat = n := by
  rw [UInt32.toNat_ofNat']; exact Nat.mod_eq_of_lt h
theorem ofNat8 {n : Nat} (h : n < 256) : (UInt8.ofNat n).toNat = n := by
  rw [UInt8.toNat_ofNat']; exact Nat.mod_eq_of_lt h

theorem hton16_load16 (e : Endian) (b0 b1 : UInt8) :
    (hton16 e (load16 e b0 b1)).toNat = 256 * b0.toNat + b1.toNat := by
  have h0 := u8_lt b0
  have h1 := u8_lt b1
  cases e
  · have q : (b0.toNat + 256 * b1.toNat) / 256 = b1.toNat := by omega
    have r : (b0.toNat + 256 * b1.toNat) % 256 = b0.toNat := by omega
    simp only [hton16, load16, bswap16]
    rw [ofNat16 (n := b0.toNat + 256 * b1.toNat) (by omega), q, r, ofNat16 (by omega)]
    omega
  · simp only [hton16, load16]
    rw [ofNat16 (by omega)]

theorem store16_hton16 (e : Endian) (x : UInt16) :
    store16 e (hton16 e x) = [UInt8.ofNat (x.toNat / 256), UInt8.ofNat (x.toNat % 256)] := by
  have h := u16_lt x
  cases e
  · simp only [hton16, store16, bswap16]
    have hq : x.toNat / 256 < 256 := by omega
    have hr : x.toNat % 256 < 256 := by omega
    rw [ofNat16 (by omega)]
    generalize x.toNat / 256 = q at *
    generalize x.toNat % 256 = r at *
    have e1 : (q + 256 * r) % 256 = q := by omega
    have e2 : (q + 256 * r) / 256 = r := by omega
    rw [e1, e2]
  · rfl

theorem digits32 (a b c d : Nat) (ha : a < 256) (hb : b < 256) (hc : c < 256) (hd : d < 256) :
    (a + 256 * b + 65536 * c + 16777216 * d) % 256 = a ∧
    (a + 256 * b + 65536 * c + 16777216 * d) / 256 % 256 = b ∧
    (a + 256 * b + 65536 * c + 16777216 * d) / 65536 % 256 = c ∧
    (a + 256 * b + 65536 * c + 16777216 * d) / 16777216 = d := by
  have e1 : (a + 256 * b + 65536 * c + 16777216 * d) / 256 = b + 256 * c + 65536 * d := by omega
  have e2 : (a + 256 * b + 65536 * c + 16777216 * d) / 65536 = c + 256 * d := by omega
  have e3 : (a + 256 * b + 65536 * c + 16777216 * d) / 16777216 = d := by omega
  refine ⟨by omega, ?_, ?_, e3⟩
  · rw [e1]; omega
  · rw [e2]; omega

theorem digits32_sum (x : Nat) :
    x = x % 256 + 256 * (x / 256 % 256) + 65536 * (x / 65536 % 256) + 16777216 * (x / 16777216) := by
  have e1 : x / 65536 = x / 256 / 256 := by omega
  have e2 : x / 16777216 = x / 256 / 256 / 256 := by omega
  rw [e1, e2]
  omega

theorem hton32_load32 (e : Endian) (b0 b1 b2 b3 : UInt8) :
    (hton32 e (load32 e b0 b1 b2 b3)).toNat
      = 16777216 * b0.toNat + 65536 * b1.toNat + 256 * b2.toNat + b3.toNat := by
  have h0 := u8_lt b0
  have h1 := u8_lt b1
  have h2 := u8_lt b2
  have h3 := u8_lt b3
  cases e
  · simp only [hton32, load32, bswap32]
    obtain ⟨e0, e1, e2, e3⟩ := digits32 _ _ _ _ h0 h1 h2 h3
    rw [ofNat32 (n := b0.toNat + 256 * b1.toNat + 65536 * b2.toNat + 16777216 * b3.toNat) (by omega),
      e0, e1, e2, e3, ofNat32 (by omega)]
    omega
  · simp only [hton32, load32]
    rw [ofNat32 (by omega)]

theorem store32_hton32 (e : Endian) (x : UInt32) :
    store32 e (hton32 e x) = [UInt8.ofNat (x.toNat / 16777216), UInt8.ofNat (x.toNat / 65536 % 256),
      UInt8.ofNat (x.toNat / 256 % 256), UInt8.ofNat (x.toNat % 256)] := by
  have h := u32_lt x
  cases e
  · simp only [hton32, store32, bswap32]
    have hd : x.toNat / 16777216 < 256 := by omega
    have hc : x.toNat / 65536 % 256 < 256 := by omega
    have hb : x.toNat / 256 % 256 < 256 := by omega
    have ha : x.toNat % 256 < 256 := by omega
    generalize x.toNat / 16777216 = d at *
    generalize x.toNat / 65536 % 256 = c at *
    generalize x.toNat / 256 % 256 = b at *
    generalize x.toNat % 256 = a at *
    obtain ⟨e0, e1, e2, e3⟩ := digits32 _ _ _ _ hd hc hb ha
    rw [ofNat32 (by omega), e0, e1, e2, e3]
  · rfl

/-! ### unpacking -/

theorem and_pow_pos (n i : Nat) : 0 < n &&& 2 ^ i ↔ n / 2 ^ i % 2 = 1 := by
  have key : (n &&& 2 ^ i) = 2 ^ i * (n / 2 ^ i % 2) := by
    apply Nat.eq_of_testBit_eq
    intro j
    rw [Nat.testBit_and, Nat.testBit_two_pow]
    by_cases hj : i = j
    · subst hj
      rw [Nat.testBit_two_pow_mul]
      simp only [Nat.testBit_eq_decide_div_mod_eq]
      simp
    · simp only [hj, decide_false, Bool.and_false]
      have : n / 2 ^ i % 2 = 0 ∨ n / 2 ^ i % 2 = 1 := by omega
      rcases this with h | h
      · simp [h]
      · simp [h, Nat.testBit_two_pow, hj]
  rw [key]
  have hp := Nat.two_pow_pos i
  have : n / 2 ^ i % 2 = 0 ∨ n / 2 ^ i % 2 = 1 := by omega
  rcases this with h | h <;> simp [h, hp]

theorem unpack_flag (bits : UInt16) (i : Nat) (c : UInt16) (hc : c.toNat = 2 ^ i) :
    (decide ((bits &&& c) > 0)) = decide (bits.toNat / 2 ^ i % 2 = 1) := by
  rw [decide_eq_decide, ← and_pow_pos, ← hc]
  show (0 : UInt16) < bits &&& c ↔ _
  rw [UInt16.lt_iff_toNat_lt]
  simp

theorem unpackHeaderBits_eq (bits : UInt16) (h : Header) :
    unpackHeaderBits bits h =
      ({ h with
          fin := decide (bits.toNat / 32768 % 2 = 1)
          rsv1 := decide (bits.toNat / 16384 % 2 = 1)
          rsv2 := decide (bits.toNat / 8192 % 2 = 1)
          rsv3 := decide (bits.toNat / 4096 % 2 = 1)
          opcode := UInt8.ofNat (bits.toNat / 256 % 16)
          hasMask := decide (bits.toNat / 128 % 2 = 1) },
       UInt8.ofNat (bits.toNat % 128)) := by
  have hb := u16_lt bits
  have hop : ((bits &&& 3840) >>> 8).toUInt8 = UInt8.ofNat (bits.toNat / 256 % 16) := by
    apply UInt8.toNat.inj
    have : (bits.toNat &&& 3840) >>> 8 = bits.toNat / 256 % 16 := by
      rw [Nat.shiftRight_and_distrib, Nat.shiftRight_eq_div_pow]
      exact Nat.and_two_pow_sub_one_eq_mod _ 4
    simp [this]
  have hlen : (bits &&& 127).toUInt8 = UInt8.ofNat (bits.toNat % 128) := by
    apply UInt8.toNat.inj
    have : (bits.toNat &&& 127) = bits.toNat % 128 := Nat.and_two_pow_sub_one_eq_mod _ 7
    rw [UInt16.toNat_toUInt8, UInt16.toNat_and, UInt8.toNat_ofNat']
    exact congrArg (· % 256) this
  unfold unpackHeaderBits
  rw [hop, hlen, unpack_flag bits 15 32768 rfl, unpack_flag bits 14 16384 rfl, unpack_flag bits 13 8192 rfl,
    unpack_flag bits 12 4096 rfl, unpack_flag bits 7 128 rfl]

/-! ### packing -/

/-- The 7 bit length code chosen by `packHeaderBits`. -/
def lenCode (n : Int) : Nat := if n < 126 then (n % 128).toNat else if n < 65536 then 126 else 127

theorem lenCode_lt (n : Int) : lenCode n < 128 := by unfold lenCode; split <;> (try split) <;> omega

theorem orIf_toNat (b : Bool) (c bits : UInt16) :
    (orIf b c bits).toNat = bits.toNat ||| (if b then c.toNat else 0) := by
  cases b <;> simp [orIf]

theorem pack_bits_toNat (h : Header) :
    (packHeaderBits h).1.toNat =
      flag h.fin 32768 + flag h.rsv1 16384 + flag h.rsv2 8192 + flag h.rsv3 4096
        + 256 * (h.opcode.toNat % 16) + flag h.hasMask 128 + lenCode h.payloadLength := by
  have key : (packHeaderBits h).1.toNat =
      ((((((0 ||| flag h.fin 32768) ||| flag h.rsv1 16384) ||| flag h.rsv2 8192) ||| flag h.rsv3 4096)
        ||| 256 * (h.opcode.toNat % 16)) ||| flag h.hasMask 128) ||| lenCode h.payloadLength := by
    have hop : ((h.opcode &&& 15).toUInt16 <<< 8).toNat = 256 * (h.opcode.toNat % 16) := by
      have : h.opcode.toNat &&& 15 = h.opcode.toNat % 16 := Nat.and_two_pow_sub_one_eq_mod _ 4
      simp [this, Nat.shiftLeft_eq]
      omega
    unfold packHeaderBits lenCode
    dsimp only
    split
    · rw [UInt16.toNat_or, orIf_toNat, UInt16.toNat_or, hop, orIf_toNat, orIf_toNat, orIf_toNat, orIf_toNat,
        ofNat16 (n := (h.payloadLength % 128).toNat) (by omega)]
      rfl
    · split
      · rw [UInt16.toNat_or, orIf_toNat, UInt16.toNat_or, hop, orIf_toNat, orIf_toNat, orIf_toNat, orIf_toNat]
        rfl
      · rw [UInt16.toNat_or, orIf_toNat, UInt16.toNat_or, hop, orIf_toNat, orIf_toNat, orIf_toNat, orIf_toNat]
        rfl
  rw [key]
  have hl := lenCode_lt h.payloadLength
  generalize lenCode h.payloadLength = l at *
  have ho : h.opcode.toNat % 16 < 16 := Nat.mod_lt _ (by decide)
  generalize h.opcode.toNat % 16 = o at *
  have e1 : ((((0 ||| flag h.fin 32768) ||| flag h.rsv1 16384) ||| flag h.rsv2 8192) ||| flag h.rsv3 4096)
      = 2 ^ 12 * (flag h.fin 8 + flag h.rsv1 4 + flag h.rsv2 2 + flag h.rsv3 1) := by
    cases h.fin <;> cases h.rsv1 <;> cases h.rsv2 <;> cases h.rsv3 <;> rfl
  have e1' : flag h.fin 32768 + flag h.rsv1 16384 + flag h.rsv2 8192 + flag h.rsv3 4096
      = 2 ^ 12 * (flag h.fin 8 + flag h.rsv1 4 + flag h.rsv2 2 + flag h.rsv3 1) := by
    cases h.fin <;> cases h.rsv1 <;> cases h.rsv2 <;> cases h.rsv3 <;> rfl
  rw [e1, e1']
  generalize (flag h.fin 8 + flag h.rsv1 4 + flag h.rsv2 2 + flag h.rsv3 1) = a
  rw [or_add_of_lt a (256 * o) (by omega)]
  have e2 : 2 ^ 12 * a + 256 * o = 2 ^ 8 * (16 * a + o) := by omega
  have hm : flag h.hasMask 128 < 2 ^ 8 := by cases h.hasMask <;> decide
  have e3 : ∃ m, flag h.hasMask 128 = 128 * m := by
    cases h.hasMask
    · exact ⟨0, rfl⟩
    · exact ⟨1, rfl⟩
  rw [e2, or_add_of_lt _ _ hm]
  obtain ⟨m, e3⟩ := e3
  rw [e3]
  have e4 : 2 ^ 8 * (16 * a + o) + 128 * m = 2 ^ 7 * (2 * (16 * a + o) + m) := by omega
  rw [e4, or_add_of_lt _ l (by omega)]

theorem pack_scenario (h : Header) :
    (packHeaderBits h).2 = if h.payloadLength < 126 then 1 else if h.payloadLength < 65536 then 2 else 3 := by
  unfold packHeaderBits
  dsimp only
  split
  · rfl
  · split <;> rfl

end OatWS
