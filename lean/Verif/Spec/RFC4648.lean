/-!
# Base 64 (RFC 4648, section 4)

Written from the RFC: the input is a string of bits, taken in groups of 24 bits (6 bits per character), the last group padded
with zero bits and `=`.
-/

namespace RFC4648

/-- Table 1: "The Base 64 Alphabet". -/
def alphabet (v : Nat) : UInt8 :=
  if v < 26 then UInt8.ofNat (65 + v)              -- A..Z
  else if v < 52 then UInt8.ofNat (97 + (v - 26))  -- a..z
  else if v < 62 then UInt8.ofNat (48 + (v - 52))  -- 0..9
  else if v = 62 then 43                           -- +
  else 47                                          -- /

/-- `=` -/
def padChar : UInt8 := 61

/-- Section 4: 24-bit groups, and the three cases at the end. -/
def encode : List UInt8 → List UInt8
  | [] => []
  | [a] =>
    let n := a.toNat * 16
    [alphabet (n / 64), alphabet (n % 64), padChar, padChar]
  | [a, b] =>
    let n := (a.toNat * 256 + b.toNat) * 4
    [alphabet (n / 4096), alphabet (n / 64 % 64), alphabet (n % 64), padChar]
  | a :: b :: c :: rest =>
    let n := (a.toNat * 256 + b.toNat) * 256 + c.toNat
    alphabet (n / 262144) :: alphabet (n / 4096 % 64) :: alphabet (n / 64 % 64) :: alphabet (n % 64) :: encode rest

/-- The value of a character of the alphabet. -/
def value (c : UInt8) : Option Nat :=
  if 65 ≤ c.toNat ∧ c.toNat ≤ 90 then some (c.toNat - 65)
  else if 97 ≤ c.toNat ∧ c.toNat ≤ 122 then some (c.toNat - 97 + 26)
  else if 48 ≤ c.toNat ∧ c.toNat ≤ 57 then some (c.toNat - 48 + 52)
  else if c = 43 then some 62
  else if c = 47 then some 63
  else none

/-- Decoding (also RFC 4648, section 4): groups of four characters; padding only in the last. -/
def decode : List UInt8 → Option (List UInt8)
  | [] => some []
  | [w, x, y, z] =>
    if z = padChar then
      if y = padChar then
        match value w, value x with
        | some p, some q => some [UInt8.ofNat ((p * 64 + q) / 16)]
        | _, _ => none
      else
        match value w, value x, value y with
        | some p, some q, some r => let n := (p * 64 + q) * 64 + r; some [UInt8.ofNat (n / 1024), UInt8.ofNat (n / 4 % 256)]
        | _, _, _ => none
    else
      match value w, value x, value y, value z with
      | some p, some q, some r, some s =>
        let n := ((p * 64 + q) * 64 + r) * 64 + s
        some [UInt8.ofNat (n / 65536), UInt8.ofNat (n / 256 % 256), UInt8.ofNat (n % 256)]
      | _, _, _, _ => none
  | w :: x :: y :: z :: rest =>
    match value w, value x, value y, value z, decode rest with
    | some p, some q, some r, some s, some out =>
      let n := ((p * 64 + q) * 64 + r) * 64 + s
      some (UInt8.ofNat (n / 65536) :: UInt8.ofNat (n / 256 % 256) :: UInt8.ofNat (n % 256) :: out)
    | _, _, _, _, _ => none
  | _ => none

/-! ## Facts -/

theorem alphabet_value : ∀ v < 64, value (alphabet v) = some v := by decide
theorem alphabet_ne_pad : ∀ v < 64, alphabet v ≠ padChar := by decide

theorem byte (c : UInt8) : UInt8.ofNat c.toNat = c := by simp

/-- Four characters for every three bytes, rounded up. -/
theorem encode_length (m : List UInt8) : (encode m).length = 4 * ((m.length + 2) / 3) := by
  fun_induction encode with
  | case1 => rfl
  | case2 => simp
  | case3 => simp
  | case4 a b c rest n ih =>
    simp only [List.length_cons, ih]
    omega

theorem encode_ne_nil {m : List UInt8} (h : m ≠ []) : encode m ≠ [] := by
  unfold encode; split <;> simp_all

/-- Decoding gives back what was encoded. -/
theorem decode_encode (m : List UInt8) : decode (encode m) = some m := by
  fun_induction encode with
  | case1 => rfl
  | case2 a n =>
    have h := a.toNat_lt
    simp only [decode, if_true]
    rw [alphabet_value _ (by omega), alphabet_value _ (by omega)]
    simp only []
    have e : (n / 64 * 64 + n % 64) / 16 = a.toNat := by omega
    rw [e, byte]
  | case3 a b n =>
    have ha := a.toNat_lt
    have hb := b.toNat_lt
    simp only [decode, if_true]
    rw [if_neg (alphabet_ne_pad _ (by omega)), alphabet_value _ (by omega), alphabet_value _ (by omega), alphabet_value _ (by omega)]
    simp only []
    have e1 : ((n / 4096 * 64 + n / 64 % 64) * 64 + n % 64) / 1024 = a.toNat := by omega
    have e2 : ((n / 4096 * 64 + n / 64 % 64) * 64 + n % 64) / 4 % 256 = b.toNat := by omega
    rw [e1, e2, byte, byte]
  | case4 a b c rest n ih =>
    have ha := a.toNat_lt
    have hb := b.toNat_lt
    have hc := c.toNat_lt
    have hn : ((n / 262144 * 64 + n / 4096 % 64) * 64 + n / 64 % 64) * 64 + n % 64 = n := by omega
    have e1 : n / 65536 = a.toNat := by omega
    have e2 : n / 256 % 256 = b.toNat := by omega
    have e3 : n % 256 = c.toNat := by omega
    rcases rest with _ | ⟨d, rest⟩
    · simp only [encode, decode]
      rw [if_neg (alphabet_ne_pad _ (by omega)), alphabet_value _ (by omega), alphabet_value _ (by omega), alphabet_value _ (by omega),
        alphabet_value _ (by omega)]
      simp only [hn, e1, e2, e3, byte]
    · have hne := encode_ne_nil (m := d :: rest) (by simp)
      revert ih
      cases he : encode (d :: rest) with
      | nil => exact absurd he hne
      | cons f g =>
        intro ih
        rw [decode.eq_3 _ _ _ _ _ (by simp)]
        rw [ih, alphabet_value _ (by omega), alphabet_value _ (by omega), alphabet_value _ (by omega), alphabet_value _ (by omega)]
        simp only [hn, e1, e2, e3, byte]

/-- RFC 4648, section 10: BASE64("fooba") = "Zm9vYmE=" and BASE64("foobar") = "Zm9vYmFy", BASE64("f") = "Zg==" -/
example : encode [0x66, 0x6f, 0x6f, 0x62, 0x61] = [90, 109, 57, 118, 89, 109, 69, 61] := by decide
example : encode [0x66, 0x6f, 0x6f, 0x62, 0x61, 0x72] = [90, 109, 57, 118, 89, 109, 70, 121] := by decide
example : encode [0x66] = [90, 103, 61, 61] := by decide

end RFC4648
