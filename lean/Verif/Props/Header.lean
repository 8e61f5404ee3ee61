import Verif.Proofs.FrameStream
import Verif.Proofs.Stale
import Verif.Spec.Fixtures
/-! # C01, C02, C03, C05: frame headers and masking -/

namespace OatWS
open RFC6455

/-! ## C01 -/

/-- The 7-bit length code of RFC 6455 5.2 for a payload length. -/
def lengthCode (n : Int) : Nat := if n < 126 then (n % 128).toNat else if n ≤ 65535 then 126 else 127

/-- **C01** (pack, then unpack). Unpacking the packed bits into any header object gives FIN, RSV1-3, MASK, the low four
opcode bits and the length code, and leaves the other members of the object (length, mask) alone. -/
theorem C01_unpack_pack (h g : Header) :
    unpackHeaderBits (packHeaderBits h).1 g =
      ({ fin := h.fin, rsv1 := h.rsv1, rsv2 := h.rsv2, rsv3 := h.rsv3, opcode := UInt8.ofNat (h.opcode.toNat % 16),
         hasMask := h.hasMask, payloadLength := g.payloadLength, mask := g.mask },
       UInt8.ofNat (lengthCode h.payloadLength)) := by
  have hl : lengthCode h.payloadLength = lenCode h.payloadLength := by
    unfold lengthCode lenCode
    split
    · rfl
    · congr 1
      simp only [eq_iff_iff]; omega
  have hb := pack_bits_toNat h
  have hc := lenCode_lt h.payloadLength
  have ho : h.opcode.toNat % 16 < 16 := Nat.mod_lt _ (by omega)
  rw [unpackHeaderBits_eq, hb, hl]
  generalize lenCode h.payloadLength = c at hc
  generalize h.opcode.toNat % 16 = op at ho
  have dec : ∀ (b : Bool) (p : Prop) [Decidable p], (p ↔ b = true) → decide p = b := by
    intro b p _ hp; cases b <;> simp_all
  have flagle : ∀ b w, flag b w = 0 ∧ b = false ∨ flag b w = w ∧ b = true := by
    intro b w; cases b <;> simp [flag]
  have f1 := flagle h.fin 32768
  have f2 := flagle h.rsv1 16384
  have f3 := flagle h.rsv2 8192
  have f4 := flagle h.rsv3 4096
  have f5 := flagle h.hasMask 128
  have e : ∀ a b : Nat, a = b → UInt8.ofNat a = UInt8.ofNat b := fun a b h => by rw [h]
  clear hb hl
  generalize flag h.fin 32768 = w1 at f1 ⊢
  generalize flag h.rsv1 16384 = w2 at f2 ⊢
  generalize flag h.rsv2 8192 = w3 at f3 ⊢
  generalize flag h.rsv3 4096 = w4 at f4 ⊢
  generalize flag h.hasMask 128 = w5 at f5 ⊢
  congr 1
  · congr 1
    · exact dec _ _ (by rcases f1 with ⟨e, g⟩ | ⟨e, g⟩ <;> rw [g] <;> simp only [Bool.false_eq_true, iff_false, iff_true] <;> omega)
    · exact dec _ _ (by rcases f2 with ⟨e, g⟩ | ⟨e, g⟩ <;> rw [g] <;> simp only [Bool.false_eq_true, iff_false, iff_true] <;> omega)
    · exact dec _ _ (by rcases f3 with ⟨e, g⟩ | ⟨e, g⟩ <;> rw [g] <;> simp only [Bool.false_eq_true, iff_false, iff_true] <;> omega)
    · exact dec _ _ (by rcases f4 with ⟨e, g⟩ | ⟨e, g⟩ <;> rw [g] <;> simp only [Bool.false_eq_true, iff_false, iff_true] <;> omega)
    · exact e _ _ (by omega)
    · exact dec _ _ (by rcases f5 with ⟨e, g⟩ | ⟨e, g⟩ <;> rw [g] <;> simp only [Bool.false_eq_true, iff_false, iff_true] <;> omega)
  · exact e _ _ (by omega)

example : unpackHeaderBits (packHeaderBits
    { fin := true, rsv1 := false, rsv2 := true, rsv3 := false, opcode := 9, hasMask := true, payloadLength := 125,
      mask := ⟨1, 2, 3, 4⟩ }).1 default
    = ({ fin := true, rsv1 := false, rsv2 := true, rsv3 := false, opcode := 9, hasMask := true, payloadLength := 0,
         mask := ⟨0, 0, 0, 0⟩ }, 125) := by decide

/-- A payload length that stands for a 7-bit code (0-125 itself, 126 and 127 the extended forms). -/
def lengthOfCode (c : Nat) : Int := if c < 126 then c else if c = 126 then 126 else 65536

/-- **C01** (unpack, then pack). Every 16-bit value is reproduced by packing the header it unpacks to, given a length
with the unpacked code. -/
theorem C01_pack_unpack (bits : UInt16) (g : Header) :
    (packHeaderBits { (unpackHeaderBits bits g).1 with
      payloadLength := lengthOfCode (unpackHeaderBits bits g).2.toNat }).1 = bits := by
  apply UInt16.toNat_inj.mp
  rw [pack_bits_toNat, unpackHeaderBits_eq]
  simp only []
  have h16 := u16_lt bits
  rw [ofNat8 (by omega), ofNat8 (by omega)]
  have hl : lenCode (lengthOfCode (bits.toNat % 128)) = bits.toNat % 128 := by
    unfold lengthOfCode
    split
    · unfold lenCode
      rw [if_pos (by omega)]; omega
    · split
      · rename_i e; rw [e]; rfl
      · have : bits.toNat % 128 = 127 := by omega
        rw [this]; rfl
  rw [hl]
  have hf : ∀ n w, flag (decide (n % 2 = 1)) w = n % 2 * w := by
    intro n w; unfold flag
    rcases Nat.mod_two_eq_zero_or_one n with h | h <;> simp [h]
  simp only [hf]
  omega

example : packHeaderBits { (unpackHeaderBits 0xD9FE default).1 with payloadLength := 126 } = (0xD9FE, 2) := by decide

/-- **C01** (no two different headers look the same). -/
theorem C01_injective (h h' : Header) (e : (packHeaderBits h).1 = (packHeaderBits h').1) :
    h.fin = h'.fin ∧ h.rsv1 = h'.rsv1 ∧ h.rsv2 = h'.rsv2 ∧ h.rsv3 = h'.rsv3 ∧ h.hasMask = h'.hasMask ∧
    h.opcode.toNat % 16 = h'.opcode.toNat % 16 ∧ lengthCode h.payloadLength = lengthCode h'.payloadLength := by
  have h1 := C01_unpack_pack h default
  have h2 := C01_unpack_pack h' default
  rw [e, h2] at h1
  injection h1 with h1 h3
  injection h1
  have hl : ∀ n, lengthCode n < 256 := by intro n; unfold lengthCode; split <;> (try split) <;> omega
  have inj : ∀ a b : Nat, a < 256 → b < 256 → UInt8.ofNat a = UInt8.ofNat b → a = b := by
    intro a b ha hb e
    have := congrArg UInt8.toNat e
    rwa [ofNat8 ha, ofNat8 hb] at this
  refine ⟨?_, ?_, ?_, ?_, ?_, ?_, ?_⟩
  all_goals first
    | (symm; assumption)
    | exact (inj _ _ (by omega) (by omega) (by assumption)).symm
    | exact (inj _ _ (hl _) (hl _) (by assumption)).symm

example : (packHeaderBits { (default : Header) with opcode := 0x11 }).1
    = (packHeaderBits { (default : Header) with opcode := 1 }).1 := by decide

/-! ## C02 -/

/-- The header octets RFC 6455 5.2 prescribes for this header. -/
def rfcHeader (h : Header) : List UInt8 :=
  encodeHeader h.fin h.rsv1 h.rsv2 h.rsv3 (h.opcode.toNat % 16)
    (if h.hasMask then some [h.mask.m0, h.mask.m1, h.mask.m2, h.mask.m3] else none) h.payloadLength.toNat

theorem rfcHeader_eq (h : Header) : rfcHeader h = h.wire := rfl

/-- **C02.** On every host, `writeFrameHeader` returns normally only after appending exactly the RFC header octets, and
otherwise (blocked, or exception) appended a proper prefix of them; on a connection that does not fail it returns. -/
theorem C02_header_wire (env : Env) (h : Header) (h0 : 0 ≤ h.payloadLength) (h1 : h.payloadLength < 2 ^ 63) (s : Sock) :
    ∃ x s', writeFrameHeader env h s = (x, s') ∧
      ((x = .ret () ∧ s'.out.written = s.out.written ++ rfcHeader h) ∨
       (x ≠ .ret () ∧ ∃ k < (rfcHeader h).length, s'.out.written = s.out.written ++ (rfcHeader h).take k)) ∧
      (Healthy (rfcHeader h).length s.out.sched → x = .ret ()) := by
  have hw := writeFrameHeader_wrote env h h0 h1 s
  rcases hw.outcome with ⟨sc, e⟩ | ⟨k, sc, hk, e | ⟨er, _, e⟩⟩
  · exact ⟨_, _, e, .inl ⟨rfl, rfl⟩, fun _ => rfl⟩
  · refine ⟨_, _, e, .inr ⟨nofun, k, hk, rfl⟩, fun hh => ?_⟩
    obtain ⟨sc', _, e'⟩ := hw.live 0 hh
    rw [e] at e'; injection e'
  · refine ⟨_, _, e, .inr ⟨nofun, k, hk, rfl⟩, fun hh => ?_⟩
    obtain ⟨sc', _, e'⟩ := hw.live 0 hh
    rw [e] at e'; injection e'

example : ∃ s', writeFrameHeader { Fixture.env with host := .big } { (default : Header) with
      fin := true, opcode := 2, hasMask := true, payloadLength := 65536, mask := ⟨7, 8, 9, 10⟩ }
      (Sock.new {} ⟨[], Fixture.slow 14⟩) = (.ret (), s') ∧
      s'.out.written = [0x82, 0xFF, 0, 0, 0, 0, 0, 1, 0, 0, 7, 8, 9, 10] := ⟨_, rfl, by decide⟩

/-- **C02** (sizes): 2, 4 or 10 octets, plus 4 with a mask, changing exactly at 126 and 65536. -/
theorem C02_header_size (h : Header) (h0 : 0 ≤ h.payloadLength) :
    (rfcHeader h).length = (if h.payloadLength < 126 then 2 else if h.payloadLength < 65536 then 4 else 10)
      + (if h.hasMask then 4 else 0) := by
  unfold rfcHeader encodeHeader lengthField
  simp only [List.length_append, List.length_cons, List.length_nil]
  have e2 : (if h.hasMask = true then some [h.mask.m0, h.mask.m1, h.mask.m2, h.mask.m3] else none).getD [] =
      if h.hasMask = true then [h.mask.m0, h.mask.m1, h.mask.m2, h.mask.m3] else [] := by cases h.hasMask <;> rfl
  rw [e2]
  have e3 : (if h.hasMask = true then [h.mask.m0, h.mask.m1, h.mask.m2, h.mask.m3] else []).length =
      if h.hasMask = true then 4 else 0 := by cases h.hasMask <;> rfl
  rw [e3]
  congr 1
  by_cases ha : h.payloadLength < 126
  · rw [if_pos ha, if_pos (by omega)]; rfl
  · rw [if_neg ha, if_neg (by omega)]
    by_cases hb : h.payloadLength < 65536
    · rw [if_pos hb, if_pos (by omega)]; rfl
    · rw [if_neg hb, if_neg (by omega)]; rfl

example : (rfcHeader { (default : Header) with hasMask := true, payloadLength := 65535 }).length = 8 ∧
    (rfcHeader { (default : Header) with payloadLength := 65536 }).length = 10 :=
  ⟨C02_header_size { (default : Header) with hasMask := true, payloadLength := 65535 } (by decide),
   C02_header_size { (default : Header) with payloadLength := 65536 } (by decide)⟩

/-- **C02** (minimal length form): every length field with which the length can be read back is at least as long. -/
theorem C02_minimal (len : Nat) (h : len < 2 ^ 64) (code : Nat) (ext rest : List UInt8)
    (hp : parseLength code (ext ++ rest) = some (len, rest)) : (lengthField len).2.length ≤ ext.length := by
  unfold parseLength at hp
  have hlen : ∀ n (a r : List UInt8), takeN n (ext ++ rest) = some (a, r) → r = rest → ext = a ∧ a.length = n := by
    intro n a r ht e
    obtain ⟨e1, e2⟩ := takeN_eq ht
    rw [e] at e1
    exact ⟨List.append_cancel_right e1, e2⟩
  have hf2 : ∀ a : List UInt8, a.length = 2 → fromBigEndian a < 65536 := by
    intro a ha
    match a, ha with
    | [x, y], _ => have := u8_lt x; have := u8_lt y; simp [fromBigEndian]; omega
  unfold lengthField
  split
  · simp
  · split at hp
    · injection hp with hp; injection hp with hp; omega
    · split at hp
      · rcases ht : takeN 2 (ext ++ rest) with _ | ⟨a, r⟩ <;> rw [ht] at hp
        · cases hp
        · simp only [Option.map_some, Option.some.injEq, Prod.mk.injEq] at hp
          obtain ⟨e1, e2⟩ := hlen 2 a r ht hp.2
          have := hf2 a e2
          rw [if_pos (by omega), e1, e2]; exact Nat.le_refl _
      · rcases ht : takeN 8 (ext ++ rest) with _ | ⟨a, r⟩ <;> rw [ht] at hp
        · cases hp
        · simp only [Option.map_some, Option.some.injEq, Prod.mk.injEq] at hp
          obtain ⟨e1, e2⟩ := hlen 8 a r ht hp.2
          rw [e1, e2]
          split
          · simp [bigEndian]
          · simp [bigEndian]

example : parseLength 126 ([1, 0] ++ [9]) = some (256, [9]) := by decide

/-! ## C03 -/

/-- **C03.** A header written on one socket and read on another (hosts may differ, any sizes of partial writes and
reads, any number of retries): the same flags, opcode, mask and length are read, and exactly the header's octets are
consumed. -/
theorem C03_header_round_trip (envW envR : Env) (h g : Header) (ho : h.opcode.toNat < 16)
    (h0 : 0 ≤ h.payloadLength) (h1 : h.payloadLength < 2 ^ 63) (s s' : Sock)
    (hw : writeFrameHeader envW h s = (.ret (), s')) (bs rest : List UInt8)
    (hbs : s'.out.written = s.out.written ++ bs)
    (st : St) (hin : st.inp.bytes = bs ++ rest) (hh : Healthy st.inp.bytes.length st.inp.sched) :
    ∃ sc, readFrameHeader envR g st =
      (.ret { h with mask := if h.hasMask then h.mask else g.mask }, { st with inp := ⟨rest, sc⟩ }) := by
  have hbs' : bs = h.wire := by
    rcases (writeFrameHeader_wrote envW h h0 h1 s).outcome with ⟨sc, e⟩ | ⟨k, sc, hk, e | ⟨er, _, e⟩⟩
    · rw [hw] at e
      injection e with _ e
      rw [e] at hbs
      exact (List.append_cancel_left hbs).symm
    · rw [hw] at e; injection e with e; cases e
    · rw [hw] at e; injection e with e; cases e
  have hparse : ∀ x, parseHdr (bs ++ x) = some (⟨h.fin, h.rsv1, h.rsv2, h.rsv3, h.opcode.toNat, h.key, h.payloadLength.toNat⟩, x) := by
    intro x
    rw [hbs', Header.wire, Nat.mod_eq_of_lt ho]
    refine parseHdr_encodeHeader _ _ _ _ _ _ _ ho ?_ (by omega) x
    intro k hk
    unfold Header.key at hk
    split at hk
    · injection hk with hk; rw [← hk]; rfl
    · cases hk
  have hmask := readFrameHeader_keeps_mask envR g st
  rcases (readFrameHeader_reads envR g st).outcome with ⟨k, hd, h', sc, hk, e, hp, hh', _⟩ |
    ⟨k, x, sc, hk, hsl, e, hx, hp, hall⟩
  · have hp1 := hp (st.inp.bytes.drop k)
    rw [List.take_append_drop, hin, hparse rest] at hp1
    injection hp1 with hp1
    injection hp1 with e1 e2
    refine ⟨sc, ?_⟩
    rw [e]
    have : st.read k sc = { st with inp := ⟨rest, sc⟩ } := by unfold St.read; rw [hin, ← e2]
    rw [this]
    congr 2
    subst e1
    have hf := hh'.fin; have hr1 := hh'.rsv1; have hr2 := hh'.rsv2; have hr3 := hh'.rsv3
    have hop := hh'.opcode; have hkey := hh'.key; have hlen := hh'.len
    rw [e] at hmask
    have hm := hmask h' rfl
    rw [show toInt64 (Hdr.mk h.fin h.rsv1 h.rsv2 h.rsv3 h.opcode.toNat h.key h.payloadLength.toNat).len
      = h.payloadLength by rw [toInt64_small (by simp only []; omega)]; simp only []; omega] at hlen
    obtain ⟨a1, a2, a3, a4, a5, a6, a7, a8⟩ := h'
    obtain ⟨b1, b2, b3, b4, b5, b6, b7, b8⟩ := h
    simp only [Header.key] at *
    subst hf hr1 hr2 hr3 hlen
    have : a5 = b5 := UInt8.toNat_inj.mp hop
    subst this
    cases a6 <;> cases b6 <;> simp at hkey hm ⊢
    · exact hm
    · obtain ⟨m0, m1, m2, m3⟩ := a8
      obtain ⟨n0, n1, n2, n3⟩ := b8
      simpa [Mask.bytes] using hkey
  · have := hall hh
    rw [this, List.take_length, hin, hparse rest] at hp
    cases hp

/-- A masked 300-byte header written on a little-endian host and read on a big-endian one, byte by byte, into a header
object with other contents. -/
example : ∃ sc, readFrameHeader { Fixture.env with host := .big } { (default : Header) with mask := ⟨9, 9, 9, 9⟩ }
    (Fixture.receiving [0x82, 0xFE, 0x01, 0x2C, 7, 8, 9, 10, 0x55]) =
    (.ret { (default : Header) with fin := true, opcode := 2, hasMask := true, payloadLength := 300, mask := ⟨7, 8, 9, 10⟩ },
      { Fixture.receiving [0x82, 0xFE, 0x01, 0x2C, 7, 8, 9, 10, 0x55] with inp := ⟨[0x55], sc⟩ }) :=
  C03_header_round_trip Fixture.env { Fixture.env with host := .big }
    { (default : Header) with fin := true, opcode := 2, hasMask := true, payloadLength := 300, mask := ⟨7, 8, 9, 10⟩ }
    { (default : Header) with mask := ⟨9, 9, 9, 9⟩ } (by decide) (by decide) (by decide)
    (Sock.new {} ⟨[1, 2], Fixture.slow 8⟩)
    (Sock.new {} ⟨[1, 2, 0x82, 0xFE, 0x01, 0x2C, 7, 8, 9, 10], []⟩) (by rfl)
    [0x82, 0xFE, 0x01, 0x2C, 7, 8, 9, 10] [0x55] (by decide)
    (Fixture.receiving [0x82, 0xFE, 0x01, 0x2C, 7, 8, 9, 10, 0x55]) (by decide) (by decide)

/-! ## C05 -/

/-- **C05** (inverse). -/
theorem C05_unmask_mask (m : Mask) (data : List UInt8) : xorMask m 0 (xorMask m 0 data) = data := xorMask_xorMask m 0 data

/-- Un-masking chunk by chunk, each chunk at its position in the payload. -/
def unmaskChunks (m : Mask) : Nat → List (List UInt8) → List (List UInt8)
  | _, [] => []
  | start, c :: cs => xorMask m start c :: unmaskChunks m (start + c.length) cs

/-- **C05** (any split). The un-masked chunks, put together, are the payload, for every split of the masked payload. -/
theorem C05_piecewise (m : Mask) (payload : List UInt8) (chunks : List (List UInt8))
    (h : chunks.flatten = xorMask m 0 payload) : (unmaskChunks m 0 chunks).flatten = payload := by
  have key : ∀ start (cs : List (List UInt8)), (unmaskChunks m start cs).flatten = xorMask m start cs.flatten := by
    intro start cs
    induction cs generalizing start with
    | nil => rfl
    | cons c cs ih => simp only [unmaskChunks, List.flatten_cons, ih, xorMask_append]
  rw [key, h, xorMask_xorMask]

example : (unmaskChunks ⟨1, 2, 3, 4⟩ 0 [[0x49], [0x67, 0x6f], [0x68, 0x6e]]).flatten = [0x48, 0x65, 0x6c, 0x6c, 0x6f] :=
  C05_piecewise ⟨1, 2, 3, 4⟩ [0x48, 0x65, 0x6c, 0x6c, 0x6f] _ (by decide)

/-- **C05**: the loop is the RFC 5.3 transformation. -/
theorem C05_rfc (m : Mask) (data : List UInt8) (i : Nat) :
    (xorMask m 0 data)[i]? = data[i]?.map (· ^^^ [m.m0, m.m1, m.m2, m.m3].getD (i % 4) 0) := by
  rw [xorMask_eq]
  simp only [applyKeyFrom, List.getElem?_mapIdx, Nat.zero_add]
  rfl

example : (unmaskChunks ⟨1, 2, 3, 4⟩ 0 [[0x49], [0x67, 0x6f], [0x68, 0x6e]]).flatten = [0x48, 0x65, 0x6c, 0x6c, 0x6f] := by
  decide

end OatWS
