import Verif.Proofs.Exec
import Verif.Proofs.ReadHeader
import Verif.Proofs.AsyncHeader
/-! Reading a header, step by step. -/

namespace OatWS.Async
open RFC6455

/-- The flags that the first two bytes of a frame announce. -/
structure BitsOf (b0 b1 : UInt8) (h : Header) : Prop where
  fin : h.fin = decide (128 ≤ b0.toNat)
  rsv1 : h.rsv1 = decide (b0.toNat / 64 % 2 = 1)
  rsv2 : h.rsv2 = decide (b0.toNat / 32 % 2 = 1)
  rsv3 : h.rsv3 = decide (b0.toNat / 16 % 2 = 1)
  opcode : h.opcode.toNat = b0.toNat % 16
  hasMask : h.hasMask = decide (128 ≤ b1.toNat)

theorem bitsOf_unpack (env : Env) (b0 b1 : UInt8) (h : Header) :
    BitsOf b0 b1 (unpackHeaderBits (hton16 env.host (load16 env.host b0 b1)) h).1 ∧
    (unpackHeaderBits (hton16 env.host (load16 env.host b0 b1)) h).2.toNat = b1.toNat % 128 := by
  have hb0 := u8_lt b0
  have hb1 := u8_lt b1
  have hu := unpackHeaderBits_eq (hton16 env.host (load16 env.host b0 b1)) h
  rw [hton16_load16] at hu
  have hW : 256 * b0.toNat + b1.toNat < 65536 := by omega
  have e1 : (256 * b0.toNat + b1.toNat) % 128 = b1.toNat % 128 := by omega
  have e2 : (256 * b0.toNat + b1.toNat) / 128 % 2 = 1 ↔ 128 ≤ b1.toNat := by omega
  have e3 : (256 * b0.toNat + b1.toNat) / 256 % 16 = b0.toNat % 16 := by omega
  have e4 : (256 * b0.toNat + b1.toNat) / 32768 % 2 = 1 ↔ 128 ≤ b0.toNat := by omega
  have e5 : (256 * b0.toNat + b1.toNat) / 16384 % 2 = b0.toNat / 64 % 2 := by omega
  have e6 : (256 * b0.toNat + b1.toNat) / 8192 % 2 = b0.toNat / 32 % 2 := by omega
  have e7 : (256 * b0.toNat + b1.toNat) / 4096 % 2 = b0.toNat / 16 % 2 := by omega
  simp only [e1, e2, e3, e4, e5, e6, e7] at hu
  rw [hu]
  have hop : (UInt8.ofNat (b0.toNat % 16)).toNat = b0.toNat % 16 := ofNat8 (by omega)
  exact ⟨⟨rfl, rfl, rfl, rfl, hop, rfl⟩, ofNat8 (by omega)⟩

theorem BitsOf.length {b0 b1 h} (hb : BitsOf b0 b1 h) (n : Int) : BitsOf b0 b1 { h with payloadLength := n } :=
  ⟨hb.fin, hb.rsv1, hb.rsv2, hb.rsv3, hb.opcode, hb.hasMask⟩

theorem takeN_short {n : Nat} {bs : List UInt8} (h : bs.length < n) : takeN n bs = none := by
  unfold takeN; rw [if_neg (by omega)]

/-- Where reading a header is: `cur` are the bytes of the frame read so far. -/
inductive HeadAt (env : Env) : List UInt8 → ReadFrameCo → Header → Prop
  | act {got h} : got.length < 2 → HeadAt env got ⟨.act, 0, 2, got⟩ h
  | bits {b0 b1 h} : HeadAt env [b0, b1] ⟨.onBbRead, 0, 2, [b0, b1]⟩ h
  | readLen {b0 b1 t n got h} : BitsOf b0 b1 h → (t = 2 ∧ n = 2 ∧ b1.toNat % 128 = 126 ∨ t = 3 ∧ n = 8 ∧ b1.toNat % 128 = 127) →
      got.length < n → HeadAt env (b0 :: b1 :: got) ⟨.readLen, t, n, got⟩ h
  | onLen {b0 b1 lb t n got h len} : BitsOf b0 b1 h → (∀ tail, parseLength (b1.toNat % 128) (lb ++ tail) = some (len, tail)) →
      len < 2 ^ 64 → decodedLength env t got h.payloadLength = toInt64 len → HeadAt env (b0 :: b1 :: lb) ⟨.onLenRead, t, n, got⟩ h
  | mask {b0 b1 lb t got h len} : BitsOf b0 b1 h → (∀ tail, parseLength (b1.toNat % 128) (lb ++ tail) = some (len, tail)) →
      len < 2 ^ 64 → h.payloadLength = toInt64 len → 128 ≤ b1.toNat → got.length < 4 →
      HeadAt env (b0 :: b1 :: (lb ++ got)) ⟨.readMask, t, 4, got⟩ h

/-- `hb` are the bytes of a complete header, stored in `h`. -/
def HeadDone (hb : List UInt8) (hd : Hdr) (h : Header) : Prop := (∀ tail, parseHdr (hb ++ tail) = some (hd, tail)) ∧ HdrOf hd h

/-- What a step of reading a header leads to. -/
inductive HeadStep (env : Env) (cur : List UInt8) : Act → Header → Prop
  | more {c h} : HeadAt env cur c h → HeadStep env cur (.goto (.readFrame c)) h
  | done {hd h} : HeadDone cur hd h → HeadStep env cur .finish h
  | error {h} : parseHdr cur = none → HeadStep env cur (.error .io) h
  | blocked {h} : parseHdr cur = none → HeadStep env cur .blocked h

theorem readInline_spec (need : Nat) (got : List UInt8) (inp : InStream) (h : got.length < need) :
    ∃ nb, inp.bytes = nb ++ (readInline need got inp).2.bytes ∧ match (readInline need got inp).1 with
      | .again g => g = got ++ nb ∧ g.length < need
      | .done g => g = got ++ nb ∧ g.length = need
      | .failed => (got ++ nb).length < need
      | .blocked => (got ++ nb).length < need := by
  unfold readInline
  rw [if_neg (by omega)]
  split
  · exact ⟨[], rfl, by simpa using h⟩
  · rename_i o sched he
    split
    · rename_i bs bytes hl
      obtain ⟨n, -, h1, h2, h3, h4, h5⟩ := lowRead_data hl
      have hb : inp.bytes = bs ++ bytes := by
        rw [h2]
        conv => lhs; rw [← List.take_append_drop bs.length inp.bytes]
        rw [← h1]
      split
      · refine ⟨bs, hb, rfl, ?_⟩
        rename_i hlen
        simp only [List.length_append] at hlen ⊢
        omega
      · exact ⟨bs, hb, rfl, by omega⟩
    · rename_i bytes hl
      rw [lowRead_other hl (by nofun)]
      exact ⟨[], rfl, by simp, h⟩
    · rename_i bytes hl
      rw [lowRead_other hl (by nofun)]
      exact ⟨[], rfl, by simpa using h⟩
    · rename_i bytes hl
      rw [lowRead_other hl (by nofun)]
      exact ⟨[], rfl, by simpa using h⟩

/-- One exact read, in a step. -/
theorem readStep_spec (need : Nat) (got : List UInt8) (hg : got.length < need) (l : Local) (w : World) (again : List UInt8 → Co)
    (cont : List UInt8 → World → Act × Local × World) :
    ∃ nb i, w.st.inp.bytes = nb ++ i.bytes ∧
      ((readStep need got l w again cont = (.goto (again (got ++ nb)), l, w.setInp i) ∧ (got ++ nb).length < need) ∨
       (readStep need got l w again cont = cont (got ++ nb) (w.setInp i) ∧ (got ++ nb).length = need) ∨
       (readStep need got l w again cont = (.error .io, l, w.setInp i) ∧ (got ++ nb).length < need) ∨
       (readStep need got l w again cont = (.blocked, l, w.setInp i) ∧ (got ++ nb).length < need)) := by
  obtain ⟨nb, h1, h2⟩ := readInline_spec need got w.st.inp hg
  refine ⟨nb, _, h1, ?_⟩
  unfold readStep
  revert h2
  rcases readInline need got w.st.inp with ⟨(g | g | _ | _), i⟩ <;> intro h2
  · obtain ⟨rfl, h⟩ := h2; exact .inl ⟨rfl, h⟩
  · obtain ⟨rfl, h⟩ := h2; exact .inr (.inl ⟨rfl, h⟩)
  · exact .inr (.inr (.inl ⟨rfl, h2⟩))
  · exact .inr (.inr (.inr ⟨rfl, h2⟩))

theorem parseHdr_none_len {b0 b1 : UInt8} {rest} (h : parseLength (b1.toNat % 128) rest = none) : parseHdr (b0 :: b1 :: rest) = none := by
  simp only [parseHdr, h, Option.bind_none]

theorem parseLength_none {len7 n : Nat} {bs : List UInt8} (h : len7 = 126 ∧ n = 2 ∨ len7 = 127 ∧ n = 8) (hb : bs.length < n) :
    parseLength len7 bs = none := by
  unfold parseLength
  rcases h with ⟨rfl, rfl⟩ | ⟨rfl, rfl⟩
  · rw [if_neg (by omega), if_pos rfl, takeN_short hb]; rfl
  · rw [if_neg (by omega), if_neg (by omega), takeN_short hb]; rfl

theorem parseHdr_of {b0 b1 : UInt8} {lb kb : List UInt8} {len : Nat} {key : Option (List UInt8)}
    (h1 : ∀ tail, parseLength (b1.toNat % 128) (lb ++ tail) = some (len, tail))
    (h2 : ∀ tail, parseKey (decide (128 ≤ b1.toNat)) (kb ++ tail) = some (key, tail)) (tail : List UInt8) :
    parseHdr (b0 :: b1 :: (lb ++ kb) ++ tail) = some (
        { fin := 128 ≤ b0.toNat
          rsv1 := b0.toNat / 64 % 2 = 1
          rsv2 := b0.toNat / 32 % 2 = 1
          rsv3 := b0.toNat / 16 % 2 = 1
          opcode := b0.toNat % 16
          maskKey := key
          len := len }, tail) := by
  simp only [List.cons_append, List.append_assoc, parseHdr, h1, Option.bind_some, h2, Option.map_some]

/-- A step of reading a header. -/
theorem head_step (env : Env) {cur c} {l : Local} (h : HeadAt env cur c l.hdr) (w : World) :
    ∃ nb i h' a, w.st.inp.bytes = nb ++ i.bytes ∧
      coStep env (.readFrame c) l w = (a, { l with hdr := h' }, w.setInp i) ∧ HeadStep env (cur ++ nb) a h' := by
  have hself : w.setInp w.st.inp = w := rfl
  rcases h with ⟨hg⟩ | @⟨b0, b1, _⟩ | @⟨b0, b1, t, n, got, _, hb, ht, hg⟩ | @⟨b0, b1, lb, t, n, got, _, len, hb, hp, hl, hd⟩ |
    @⟨b0, b1, lb, t, got, _, len, hb, hp, hl, hd, hm, hg⟩
  · obtain ⟨nb, i, h1, h2⟩ := readStep_spec 2 cur hg l w (fun g => .readFrame ⟨.act, 0, 2, g⟩)
      (fun g w => (.goto (.readFrame ⟨.onBbRead, 0, 2, g⟩), l, w))
    have hn : (cur ++ nb).length < 2 → parseHdr (cur ++ nb) = none := by
      intro hlt
      match cur ++ nb, hlt with
      | [], _ => rfl
      | [_], _ => rfl
      | _ :: _ :: _, h => simp at h; omega
    rcases h2 with ⟨e, hlen⟩ | ⟨e, hlen⟩ | ⟨e, hlen⟩ | ⟨e, hlen⟩
    · exact ⟨nb, i, l.hdr, _, h1, e, .more (.act hlen)⟩
    · refine ⟨nb, i, l.hdr, _, h1, e, .more ?_⟩
      match cur ++ nb, hlen with
      | [b0, b1], _ => exact .bits
    · exact ⟨nb, i, l.hdr, _, h1, e, .error (hn hlen)⟩
    · exact ⟨nb, i, l.hdr, _, h1, e, .blocked (hn hlen)⟩
  · obtain ⟨hb, hm⟩ := bitsOf_unpack env b0 b1 l.hdr
    have hx : coStep env (.readFrame ⟨.onBbRead, 0, 2, [b0, b1]⟩) l w =
        (match unpackHeaderBits (hton16 env.host (load16 env.host b0 b1)) l.hdr with
        | (h, messageLen1) =>
          if messageLen1 < 126 then
            (.goto (.readFrame ⟨.onLenRead, 1, 2, [b0, b1]⟩), { l with hdr := { h with payloadLength := messageLen1.toNat } }, w)
          else if messageLen1 = 126 then (.goto (.readFrame ⟨.readLen, 2, 2, []⟩), { l with hdr := h }, w)
          else (.goto (.readFrame ⟨.readLen, 3, 8, []⟩), { l with hdr := h }, w)) := rfl
    rw [hx]
    revert hb hm
    rcases unpackHeaderBits (hton16 env.host (load16 env.host b0 b1)) l.hdr with ⟨h, m1⟩
    intro hb hm
    simp only [] at hb hm ⊢
    have hb1 := u8_lt b1
    by_cases c1 : m1 < 126
    · rw [if_pos c1]
      have c1' : m1.toNat < 126 := UInt8.lt_iff_toNat_lt.mp c1
      refine ⟨[], w.st.inp, _, _, rfl, rfl, .more ?_⟩
      have hle : b1.toNat % 128 ≤ 125 := by omega
      exact .onLen (lb := []) (len := b1.toNat % 128) (hb.length _) (fun tail => by unfold parseLength; rw [if_pos hle]; rfl) (by omega)
        (by unfold decodedLength; rw [if_neg (by omega), if_neg (by omega), toInt64_small (by omega), ← hm])
    · rw [if_neg c1]
      have c1' : ¬ m1.toNat < 126 := fun h => c1 (UInt8.lt_iff_toNat_lt.mpr h)
      by_cases c2 : m1 = 126
      · rw [if_pos c2]
        have c2' : m1.toNat = 126 := by rw [c2]; rfl
        exact ⟨[], w.st.inp, _, _, rfl, rfl, .more (.readLen hb (.inl ⟨rfl, rfl, by omega⟩) (by simp))⟩
      · rw [if_neg c2]
        have c2' : ¬ m1.toNat = 126 := fun h => c2 (UInt8.toNat_inj.mp h)
        exact ⟨[], w.st.inp, _, _, rfl, rfl, .more (.readLen hb (.inr ⟨rfl, rfl, by omega⟩) (by simp))⟩
  · obtain ⟨nb, i, h1, h2⟩ := readStep_spec n got hg l w (fun g => .readFrame ⟨.readLen, t, n, g⟩)
      (fun g w => (.goto (.readFrame ⟨.onLenRead, t, n, g⟩), l, w))
    have hn : (got ++ nb).length < n → parseHdr (b0 :: b1 :: got ++ nb) = none := by
      intro hlt
      exact parseHdr_none_len (parseLength_none (ht.elim (fun h => .inl ⟨h.2.2, h.2.1⟩) (fun h => .inr ⟨h.2.2, h.2.1⟩)) hlt)
    rcases h2 with ⟨e, hlen⟩ | ⟨e, hlen⟩ | ⟨e, hlen⟩ | ⟨e, hlen⟩
    · exact ⟨nb, i, l.hdr, _, h1, e, .more (.readLen hb ht hlen)⟩
    · refine ⟨nb, i, l.hdr, _, h1, e, .more ?_⟩
      have hl2 := ht
      rw [List.cons_append, List.cons_append]
      rcases ht with ⟨rfl, rfl, h7⟩ | ⟨rfl, rfl, h7⟩
      · match got ++ nb, hlen with
        | [c0, c1], _ =>
          refine .onLen (len := fromBigEndian [c0, c1]) hb (fun tail => ?_) ?_ ?_
          · unfold parseLength
            rw [if_neg (by omega), if_pos h7, take_self_append (n := 2) (a := [c0, c1]) rfl]
            rfl
          · have h0 := u8_lt c0
            have h1 := u8_lt c1
            simp [fromBigEndian]
            omega
          · unfold decodedLength
            rw [if_pos rfl]
            have h0 := u8_lt c0
            have h1 := u8_lt c1
            have hv : fromBigEndian [c0, c1] = (hton16 env.host (load16 env.host c0 c1)).toNat := by
              rw [hton16_load16]
              simp [fromBigEndian]
            rw [hv, toInt64_small]
            have := u16_lt (hton16 env.host (load16 env.host c0 c1)); omega
      · match got ++ nb, hlen with
        | [c0, c1, c2, c3, c4, c5, c6, c7], _ =>
          have hv : fromBigEndian [c0, c1, c2, c3, c4, c5, c6, c7]
              = (hton32 env.host (load32 env.host c0 c1 c2 c3)).toNat * 4294967296
                + (hton32 env.host (load32 env.host c4 c5 c6 c7)).toNat := by
            rw [hton32_load32, hton32_load32]
            simp only [fromBigEndian, List.foldl_cons, List.foldl_nil]
            omega
          refine .onLen (len := fromBigEndian [c0, c1, c2, c3, c4, c5, c6, c7]) hb (fun tail => ?_) ?_ ?_
          · unfold parseLength
            rw [if_neg (by omega), if_neg (by omega), take_self_append (n := 8) (a := [c0, c1, c2, c3, c4, c5, c6, c7]) rfl]
            rfl
          · rw [hv]
            have := u32_lt (hton32 env.host (load32 env.host c0 c1 c2 c3))
            have := u32_lt (hton32 env.host (load32 env.host c4 c5 c6 c7))
            omega
          · rw [decodedLength_three, hv]
    · exact ⟨nb, i, l.hdr, _, h1, e, .error (hn hlen)⟩
    · exact ⟨nb, i, l.hdr, _, h1, e, .blocked (hn hlen)⟩
  · have hx : coStep env (.readFrame ⟨.onLenRead, t, n, got⟩) l w =
        (if l.hdr.hasMask then (.goto (.readFrame ⟨.readMask, t, 4, []⟩),
          { l with hdr := { l.hdr with payloadLength := decodedLength env t got l.hdr.payloadLength } }, w)
        else (.finish, { l with hdr := { l.hdr with payloadLength := decodedLength env t got l.hdr.payloadLength } }, w)) := rfl
    rw [hx]
    by_cases hm : l.hdr.hasMask = true
    · rw [if_pos hm]
      have hm' : 128 ≤ b1.toNat := by rw [hb.hasMask] at hm; exact of_decide_eq_true hm
      refine ⟨[], w.st.inp, _, _, rfl, rfl, .more ?_⟩
      have := HeadAt.mask (env := env) (t := t) (got := []) (hb.length (decodedLength env t got l.hdr.payloadLength)) hp hl hd hm' (by simp)
      simpa using this
    · rw [if_neg hm]
      have hm' : ¬ 128 ≤ b1.toNat := by rw [hb.hasMask] at hm; exact fun h => hm (decide_eq_true h)
      refine ⟨[], w.st.inp, _, _, rfl, rfl, ?_⟩
      have hpk : ∀ tail, parseKey (decide (128 ≤ b1.toNat)) ([] ++ tail) = some (none, tail) := by
        intro tail; unfold parseKey; rw [if_neg (by simpa using hm')]; rfl
      have := fun tail => parseHdr_of (b0 := b0) hp hpk tail
      rw [List.append_nil] at this ⊢
      refine .done ⟨this, ?_⟩
      have hb0 := u8_lt b0
      refine ⟨hb.fin, hb.rsv1, hb.rsv2, hb.rsv3, hb.opcode, by simp only []; omega, ?_, hd, hl⟩
      simp only [Header.key]
      rw [if_neg hm]
  · obtain ⟨nb, i, h1, h2⟩ := readStep_spec 4 got hg l w (fun g => .readFrame ⟨.readMask, t, 4, g⟩)
      (fun g w => match g with
        | [m0, m1, m2, m3] => (.finish, { l with hdr := { l.hdr with mask := ⟨m0, m1, m2, m3⟩ } }, w)
        | _ => (.error .io, l, w))
    have hn : (got ++ nb).length < 4 → parseHdr (b0 :: b1 :: (lb ++ got) ++ nb) = none := by
      intro hlt
      simp only [List.cons_append, List.append_assoc, parseHdr, hp, Option.bind_some]
      unfold parseKey
      rw [if_pos (by simpa using hm), takeN_short hlt]
      rfl
    rcases h2 with ⟨e, hlen⟩ | ⟨e, hlen⟩ | ⟨e, hlen⟩ | ⟨e, hlen⟩
    · refine ⟨nb, i, l.hdr, _, h1, e, .more ?_⟩
      have := HeadAt.mask (env := env) (t := t) hb hp hl hd hm hlen
      simpa using this
    · have hpk : ∀ tail, parseKey (decide (128 ≤ b1.toNat)) ((got ++ nb) ++ tail) = some (some (got ++ nb), tail) := by
        intro tail; unfold parseKey; rw [if_pos (by simpa using hm), take_self_append hlen]; rfl
      have hph := fun tail => parseHdr_of (b0 := b0) hp hpk tail
      have hcur : b0 :: b1 :: (lb ++ got) ++ nb = b0 :: b1 :: (lb ++ (got ++ nb)) := by simp
      clear hn
      revert hpk hph e hlen hcur
      generalize got ++ nb = g
      intro e hlen hpk hph hcur
      match g, hlen with
      | [m0, m1, m2, m3], _ =>
        refine ⟨nb, i, _, _, h1, e, ?_⟩
        rw [hcur]
        refine .done ⟨hph, ?_⟩
        have hb0 := u8_lt b0
        refine ⟨hb.fin, hb.rsv1, hb.rsv2, hb.rsv3, hb.opcode, by simp only []; omega, ?_, hd, hl⟩
        simp only [Header.key, hb.hasMask]
        rw [if_pos (by simpa using hm)]
        rfl
    · exact ⟨nb, i, l.hdr, _, h1, e, .error (hn hlen)⟩
    · exact ⟨nb, i, l.hdr, _, h1, e, .blocked (hn hlen)⟩

end OatWS.Async
