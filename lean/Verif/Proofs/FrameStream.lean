import Verif.Proofs.Listen
import Verif.Proofs.Mask
import Verif.Proofs.SendFrame
import Verif.Spec.Frames
/-! Determinism of `Receives`; receiving encoded frames. -/

namespace OatWS
open RFC6455

/-! ### `parseHdr` -/

theorem takeN_append {n : Nat} {bs a r x : List UInt8} (h : takeN n bs = some (a, r)) :
    takeN n (bs ++ x) = some (a, r ++ x) := by
  unfold takeN at *
  split at h
  · rename_i hn
    injection h with h; injection h with h1 h2
    rw [if_pos (by rw [List.length_append]; omega), List.take_append_of_le_length hn, List.drop_append_of_le_length hn, h1, h2]
  · cases h

theorem takeN_eq {n : Nat} {bs a r : List UInt8} (h : takeN n bs = some (a, r)) : bs = a ++ r ∧ a.length = n := by
  unfold takeN at h
  split at h
  · injection h with h; injection h with h1 h2
    subst h1 h2
    exact ⟨(List.take_append_drop _ _).symm, by simp; omega⟩
  · cases h

theorem parseLength_append {l bs n r x} (h : parseLength l bs = some (n, r)) :
    parseLength l (bs ++ x) = some (n, r ++ x) := by
  unfold parseLength at *
  split at h
  · rename_i hl; rw [if_pos hl]; injection h with h; injection h with h1 h2; rw [h1, h2]
  · rename_i hl; rw [if_neg hl]
    split at h <;> rename_i hl2
    · rw [if_pos hl2]
      rcases ht : takeN 2 bs with _ | ⟨a, r'⟩ <;> rw [ht] at h
      · cases h
      · rw [takeN_append ht]
        simp only [Option.map_some, Option.some.injEq, Prod.mk.injEq] at h ⊢
        exact ⟨h.1, by rw [h.2]⟩
    · rw [if_neg hl2]
      rcases ht : takeN 8 bs with _ | ⟨a, r'⟩ <;> rw [ht] at h
      · cases h
      · rw [takeN_append ht]
        simp only [Option.map_some, Option.some.injEq, Prod.mk.injEq] at h ⊢
        exact ⟨h.1, by rw [h.2]⟩

theorem parseKey_append {m bs k r x} (h : parseKey m bs = some (k, r)) :
    parseKey m (bs ++ x) = some (k, r ++ x) := by
  unfold parseKey at *
  split at h <;> rename_i hm
  · rw [if_pos hm]
    rcases ht : takeN 4 bs with _ | ⟨a, r'⟩ <;> rw [ht] at h
    · cases h
    · rw [takeN_append ht]
      simp only [Option.map_some, Option.some.injEq, Prod.mk.injEq] at h ⊢
      exact ⟨h.1, by rw [h.2]⟩
  · rw [if_neg hm]; injection h with h; injection h with h1 h2; rw [h1, h2]

/-- A header that was parsed is parsed the same when more follows. -/
theorem parseHdr_append {bs h r} (x : List UInt8) (hp : parseHdr bs = some (h, r)) :
    parseHdr (bs ++ x) = some (h, r ++ x) := by
  match bs, hp with
  | b0 :: b1 :: rest, hp =>
    simp only [parseHdr, List.cons_append] at hp ⊢
    rcases hl : parseLength (b1.toNat % 128) rest with _ | ⟨n, r1⟩ <;> rw [hl] at hp
    · cases hp
    · rw [parseLength_append hl]
      simp only [Option.bind_some] at hp ⊢
      rcases hk : parseKey (decide (128 ≤ b1.toNat)) r1 with _ | ⟨k, r2⟩ <;> rw [hk] at hp
      · cases hp
      · rw [parseKey_append hk]
        simp only [Option.map_some, Option.some.injEq, Prod.mk.injEq] at hp ⊢
        exact ⟨hp.1, by rw [hp.2]⟩

theorem parseLength_suffix {l bs n r} (h : parseLength l bs = some (n, r)) : ∃ a, bs = a ++ r := by
  unfold parseLength at h
  split at h
  · injection h with h; injection h with h1 h2; exact ⟨[], by simp [h2]⟩
  · split at h
    · rcases ht : takeN 2 bs with _ | ⟨a, r'⟩ <;> rw [ht] at h
      · cases h
      · simp only [Option.map_some, Option.some.injEq, Prod.mk.injEq] at h
        exact ⟨a, by rw [← h.2]; exact (takeN_eq ht).1⟩
    · rcases ht : takeN 8 bs with _ | ⟨a, r'⟩ <;> rw [ht] at h
      · cases h
      · simp only [Option.map_some, Option.some.injEq, Prod.mk.injEq] at h
        exact ⟨a, by rw [← h.2]; exact (takeN_eq ht).1⟩

theorem parseKey_suffix {m bs k r} (h : parseKey m bs = some (k, r)) : ∃ a, bs = a ++ r := by
  unfold parseKey at h
  split at h
  · rcases ht : takeN 4 bs with _ | ⟨a, r'⟩ <;> rw [ht] at h
    · cases h
    · simp only [Option.map_some, Option.some.injEq, Prod.mk.injEq] at h
      exact ⟨a, by rw [← h.2]; exact (takeN_eq ht).1⟩
  · injection h with h; injection h with h1 h2; exact ⟨[], by simp [h2]⟩

/-- The header takes at least two bytes; the rest is what follows. -/
theorem parseHdr_suffix {bs h r} (hp : parseHdr bs = some (h, r)) : ∃ a, bs = a ++ r ∧ 2 ≤ a.length := by
  match bs, hp with
  | b0 :: b1 :: rest, hp =>
    simp only [parseHdr] at hp
    rcases hl : parseLength (b1.toNat % 128) rest with _ | ⟨n, r1⟩ <;> rw [hl] at hp
    · cases hp
    · simp only [Option.bind_some] at hp
      rcases hk : parseKey (decide (128 ≤ b1.toNat)) r1 with _ | ⟨k, r2⟩ <;> rw [hk] at hp
      · cases hp
      · simp only [Option.map_some, Option.some.injEq, Prod.mk.injEq] at hp
        obtain ⟨a1, h1⟩ := parseLength_suffix hl
        obtain ⟨a2, h2⟩ := parseKey_suffix hk
        refine ⟨b0 :: b1 :: (a1 ++ a2), ?_, by simp⟩
        rw [h1, h2, ← hp.2]; simp

/-! ### Determinism -/

/-- Reasons that are not the user's doing. -/
def Reason.ofBytes : Reason → Prop
  | .stopped | .interrupted => False
  | _ => True

/-- The outcome of one frame on a stream whose bytes are all received. -/
def interpretFrame (o : Bool) (T : List UInt8) : List UInt8 × List Delivery × FrameEnd :=
  match parseHdr T with
  | none => (T, [], .over .incomplete)
  | some (h, rest) =>
    let hdr := T.take (T.length - rest.length)
    let n := effectiveLen h.len
    let body := applyKey? h.maskKey (rest.take n)
    if h.opcode = 0 ∧ o = false then (hdr, [], .over .badContinuation)
    else if (h.opcode = 1 ∨ h.opcode = 2) ∧ o = true then (hdr, [], .over .badStart)
    else if h.opcode = 0 ∨ h.opcode = 1 ∨ h.opcode = 2 then
      if rest.length < n then (T, [.data h.opcode body], .over .incomplete)
      else (hdr ++ rest.take n, .data h.opcode body :: (if h.fin then [.endOfMessage h.opcode] else []),
        .next (openAfter o h))
    else if h.opcode = 8 ∨ h.opcode = 9 ∨ h.opcode = 10 then
      if 125 < n then (hdr, [], .over .badControl)
      else if rest.length < n then (T, [], .over .incomplete)
      else (hdr ++ rest.take n, [controlDelivery h.opcode body], if h.opcode = 8 then .over .closed else .next o)
    else (hdr, [], .over .badOpcode)

theorem oneFrame_interpret {o bs ds fe T} (h : OneFrame o bs ds fe) (hpre : bs <+: T)
    (hne : fe ≠ .over .interrupted) (hinc : fe = .over .incomplete → bs = T) : (bs, ds, fe) = interpretFrame o T := by
  obtain ⟨x, rfl⟩ := hpre
  have parsed : ∀ {hd r}, parseHdr bs = some (hd, r) → parseHdr (bs ++ x) = some (hd, r ++ x) ∧
      (bs ++ x).take ((bs ++ x).length - (r ++ x).length) ++ r = bs := by
    intro hd r hp
    refine ⟨parseHdr_append x hp, ?_⟩
    obtain ⟨a, rfl, _⟩ := parseHdr_suffix hp
    simp [List.length_append, Nat.add_sub_add_right]
  unfold interpretFrame
  cases h with
  | noHeader hp =>
    have := hinc rfl
    rw [← this, hp]
  | @badOpcode hd hp hd1 hc =>
    obtain ⟨p1, p2⟩ := parsed hp
    rw [p1]
    unfold isDataOpcode at hd1; unfold isControlOpcode at hc
    simp only [List.append_nil] at p2
    simp only []
    rw [if_neg (fun e => hd1 (.inl e.1)), if_neg (fun e => hd1 (.inr e.1)), if_neg hd1, if_neg hc]
    simp only [List.nil_append] at p2 ⊢
    rw [p2]
  | badContinuation hp h0 ho =>
    obtain ⟨p1, p2⟩ := parsed hp
    rw [p1]
    simp only [List.append_nil] at p2
    simp only []
    rw [if_pos ⟨h0, ho⟩, p2]
  | badStart hp h0 ho =>
    obtain ⟨p1, p2⟩ := parsed hp
    rw [p1]
    simp only [List.append_nil] at p2
    simp only []
    rw [if_neg (fun e => by have := e.2; rw [ho] at this; cases this), if_pos ⟨h0, ho⟩, p2]
  | @cutData hd rest hp hd1 hm hl =>
    have := hinc rfl
    have hx : x = [] := by simpa using this
    subst hx
    obtain ⟨p1, p2⟩ := parsed hp
    rw [p1]
    unfold isDataOpcode at hd1; unfold mayStart at hm
    simp only [List.append_nil]
    rw [if_neg (fun e => by rw [if_pos e.1, e.2] at hm; cases hm),
      if_neg (fun e => by rw [if_neg (by omega), e.2] at hm; cases hm), if_pos hd1, if_pos hl,
      List.take_of_length_le (show rest.length ≤ effectiveLen hd.len by omega)]
  | @data hd rest hp hd1 hm hl =>
    obtain ⟨p1, p2⟩ := parsed hp
    rw [p1]
    unfold isDataOpcode at hd1; unfold mayStart at hm
    simp only []
    generalize (if hd.fin = true then [Delivery.endOfMessage hd.opcode] else []) = marker
    rw [if_neg (fun e => by rw [if_pos e.1, e.2] at hm; cases hm),
      if_neg (fun e => by rw [if_neg (by omega), e.2] at hm; cases hm), if_pos hd1,
      if_neg (by rw [List.length_append]; omega), ← hl, List.take_left, p2]
  | @badControl hd hp hc hl =>
    obtain ⟨p1, p2⟩ := parsed hp
    rw [p1]
    unfold isControlOpcode at hc
    simp only [List.append_nil] at p2
    simp only []
    rw [if_neg (by omega), if_neg (by omega), if_neg (by omega), if_pos hc, if_pos hl, p2]
  | @cutControl hd rest hp hc hl hr =>
    have := hinc rfl
    have hx : x = [] := by simpa using this
    subst hx
    obtain ⟨p1, p2⟩ := parsed hp
    rw [p1]
    unfold isControlOpcode at hc
    simp only [List.append_nil]
    rw [if_neg (by omega), if_neg (by omega), if_neg (by omega), if_pos hc, if_neg (by omega), if_pos hr]
  | @close hd rest hp h8 hl hr =>
    obtain ⟨p1, p2⟩ := parsed hp
    rw [p1]
    simp only []
    rw [if_neg (by omega), if_neg (by omega), if_neg (by omega), if_pos (.inl h8), if_neg (by omega),
      if_neg (by rw [List.length_append]; omega), ← hr, List.take_left, p2, if_pos h8]
  | @pingPong hd rest hp h8 hl hr =>
    obtain ⟨p1, p2⟩ := parsed hp
    rw [p1]
    simp only []
    rw [if_neg (by omega), if_neg (by omega), if_neg (by omega), if_pos (.inr h8), if_neg (by omega),
      if_neg (by rw [List.length_append]; omega), ← hr, List.take_left, p2, if_neg (by omega)]
  | interruptedData => exact absurd rfl hne
  | interruptedEnd => exact absurd rfl hne
  | interruptedControl => exact absurd rfl hne

theorem oneFrame_length {o bs ds o'} (h : OneFrame o bs ds (.next o')) : 2 ≤ bs.length := by
  cases h with
  | data hp => obtain ⟨a, rfl, h2⟩ := parseHdr_suffix hp; rw [List.length_append]; omega
  | pingPong hp => obtain ⟨a, rfl, h2⟩ := parseHdr_suffix hp; rw [List.length_append]; omega

theorem oneFrame_not_stopped {o bs ds} : ¬ OneFrame o bs ds (.over .stopped) := by
  intro h; cases h

theorem Receives.det {o bs ds r T bs2 ds2 r2} (h : Receives o bs ds r) (hpre : bs <+: T) (hr : r.ofBytes)
    (hinc : r = .incomplete → bs = T) (h2 : Receives o bs2 ds2 r2) (hpre2 : bs2 <+: T) (hr2 : r2.ofBytes)
    (hinc2 : r2 = .incomplete → bs2 = T) : bs = bs2 ∧ ds = ds2 ∧ r = r2 := by
  have key : ∀ {r : Reason}, r.ofBytes → FrameEnd.over r ≠ .over .interrupted := by
    intro r hr e; injection e with e; subst e; exact hr
  induction h generalizing T bs2 ds2 r2 with
  | last h1 =>
    have e1 := oneFrame_interpret h1 hpre (key hr) (fun e => hinc (by injection e))
    cases h2 with
    | last h2 =>
      have e2 := oneFrame_interpret h2 hpre2 (key hr2) (fun e => hinc2 (by injection e))
      rw [← e1] at e2
      injection e2 with a b; injection b with b c; injection c with c
      exact ⟨a.symm, b.symm, c.symm⟩
    | stop h2 => exact absurd hr2 (by simp [Reason.ofBytes])
    | more h2 h3 =>
      have e2 := oneFrame_interpret h2 (List.IsPrefix.trans (List.prefix_append _ _) hpre2) nofun nofun
      rw [← e1] at e2
      injection e2 with a b; injection b with b c; cases c
  | stop h1 => exact absurd hr (by simp [Reason.ofBytes])
  | @more o bs1 ds1 o' bs' ds' r h1 h1' ih =>
    have e1 := oneFrame_interpret h1 (List.IsPrefix.trans (List.prefix_append _ _) hpre) nofun nofun
    cases h2 with
    | last h2 =>
      have e2 := oneFrame_interpret h2 hpre2 (key hr2) (fun e => hinc2 (by injection e))
      rw [← e1] at e2
      injection e2 with a b; injection b with b c; cases c
    | stop h2 => exact absurd hr2 (by simp [Reason.ofBytes])
    | more h2 h3 =>
      have e2 := oneFrame_interpret h2 (List.IsPrefix.trans (List.prefix_append _ _) hpre2) nofun nofun
      rw [← e1] at e2
      injection e2 with a b; injection b with b c; injection c with c
      subst a b c
      obtain ⟨y, rfl⟩ := hpre
      obtain ⟨y2, hy2⟩ := hpre2
      rw [List.append_assoc, List.append_assoc] at hy2
      have hy2' := List.append_cancel_left hy2
      obtain ⟨g1, g2, g3⟩ := ih (T := bs' ++ y) (List.prefix_append _ _) hr (fun e => by
          have := hinc e; simpa using this) h3 ⟨y2, hy2'⟩ hr2 (fun e => by
          have := hinc2 e; rw [List.append_assoc] at this; exact List.append_cancel_left this)
      exact ⟨by rw [g1], by rw [g2], g3⟩

/-! ### Encoded frames -/

/-- The header of a frame as `parseHdr` gives it. -/
def hdrOfFrame (f : Frame) : Hdr :=
  { fin := f.fin, rsv1 := f.rsv1, rsv2 := f.rsv2, rsv3 := f.rsv3, opcode := f.opcode, maskKey := f.maskKey,
    len := f.payload.length }

theorem fromBigEndian_two (n : Nat) (h : n < 65536) : fromBigEndian (bigEndian 2 n) = n := by
  rw [bigEndian_two]
  simp only [fromBigEndian, List.foldl_cons, List.foldl_nil]
  rw [ofNat8 (Nat.mod_lt _ (by omega)), ofNat8 (Nat.mod_lt _ (by omega))]
  omega

theorem fromBigEndian_eight (n : Nat) (h : n < 2 ^ 64) : fromBigEndian (bigEndian 8 n) = n := by
  simp only [bigEndian, fromBigEndian, List.foldl_cons, List.foldl_nil]
  simp only [ofNat8 (Nat.mod_lt _ (by omega : 256 > 0))]
  simp only [Nat.reducePow, Nat.pow_zero, Nat.pow_one] at h ⊢
  omega

theorem bigEndian_length (k n : Nat) : (bigEndian k n).length = k := by
  induction k with
  | zero => rfl
  | succ k ih => simp [bigEndian, ih]

theorem parseHdr_encodeHeader (fin rsv1 rsv2 rsv3 : Bool) (op : Nat) (key : Option (List UInt8)) (len : Nat)
    (hop : op < 16) (hk : ∀ k, key = some k → k.length = 4) (hlen : len < 2 ^ 64) (rest : List UInt8) :
    parseHdr (encodeHeader fin rsv1 rsv2 rsv3 op key len ++ rest)
      = some ({ fin, rsv1, rsv2, rsv3, opcode := op, maskKey := key, len }, rest) := by
  unfold encodeHeader
  simp only [List.cons_append, List.nil_append, List.append_assoc]
  have hb0 : flag fin 128 + flag rsv1 64 + flag rsv2 32 + flag rsv3 16 + op < 256 := by
    unfold flag; split <;> split <;> split <;> split <;> omega
  have hl7 : (lengthField len).1 < 128 := by unfold lengthField; split <;> (try split) <;> simp <;> omega
  have hb1 : flag key.isSome 128 + (lengthField len).1 < 256 := by unfold flag; split <;> omega
  simp only [parseHdr, ofNat8 hb0, ofNat8 hb1]
  have hmod : (flag key.isSome 128 + (lengthField len).1) % 128 = (lengthField len).1 := by
    unfold flag; split <;> omega
  have hle : decide (128 ≤ flag key.isSome 128 + (lengthField len).1) = key.isSome := by
    unfold flag; cases key.isSome <;> simp <;> omega
  rw [hmod, hle]
  have hpl : ∀ r, parseLength (lengthField len).1 ((lengthField len).2 ++ r) = some (len, r) := by
    intro r
    unfold lengthField parseLength
    split
    · rename_i h; simp [h]
    · split
      · simp only [show ¬ (126 ≤ 125) by omega, if_false, if_true]
        rw [take_self_append (bigEndian_length _ _)]
        simp [fromBigEndian_two len (by omega)]
      · simp only [show ¬ (127 ≤ 125) by omega, show ¬ (127 = 126) by omega, if_false]
        rw [take_self_append (bigEndian_length _ _)]
        simp [fromBigEndian_eight len (by omega)]
  rw [hpl]
  have hpk : parseKey key.isSome (key.getD [] ++ rest) = some (key, rest) := by
    unfold parseKey
    cases key with
    | none => simp
    | some k => simp [take_self_append (hk k rfl)]
  simp only [Option.bind_some]
  rw [hpk]
  simp only [Option.map_some, Option.some.injEq, Prod.mk.injEq, and_true]
  congr 1
  all_goals (unfold flag; cases fin <;> cases rsv1 <;> cases rsv2 <;> cases rsv3 <;> simp <;> omega)

theorem parseHdr_encode (f : Frame) (hv : f.Valid) (rest : List UInt8) :
    parseHdr (f.encode ++ rest) = some (hdrOfFrame f, applyKey? f.maskKey f.payload ++ rest) := by
  unfold Frame.encode
  rw [List.append_assoc]
  exact parseHdr_encodeHeader _ _ _ _ _ _ _ hv.1 hv.2.1 (Nat.lt_of_lt_of_le hv.2.2 (by decide)) _


theorem effectiveLen_small {n : Nat} (h : n < 2 ^ 63) : effectiveLen n = n := by
  unfold effectiveLen; rw [if_pos h]

theorem openAfter_frame {o : Bool} {f : Frame} (h : isDataOpcode f.opcode) :
    openAfter o (hdrOfFrame f) = openAfterFrame o f := by
  unfold openAfter openAfterFrame hdrOfFrame
  rcases h with h | h | h <;> simp [h]

/-- The header octets of a frame. -/
theorem encode_header (f : Frame) (rest : List UInt8) :
    (f.encode ++ rest).take ((f.encode ++ rest).length - (applyKey? f.maskKey f.payload ++ rest).length)
      = f.encode.take f.headerLength := by
  unfold Frame.encode Frame.headerLength
  simp

/-- Receiving one valid, acceptable frame. -/
theorem interpretFrame_accepted (o : Bool) (f : Frame) (hv : f.Valid) (ha : Accepted o f) (rest : List UInt8) :
    interpretFrame o (f.encode ++ rest)
      = (f.encode, frameDeliveries f, if f.opcode = 8 then .over .closed else .next (openAfterFrame o f)) := by
  unfold interpretFrame
  rw [parseHdr_encode f hv]
  simp only []
  have hlen : effectiveLen (hdrOfFrame f).len = f.payload.length := effectiveLen_small hv.2.2
  have hop : (hdrOfFrame f).opcode = f.opcode := rfl
  have hfin : (hdrOfFrame f).fin = f.fin := rfl
  have hkey : (hdrOfFrame f).maskKey = f.maskKey := rfl
  have hbody : ((applyKey? f.maskKey f.payload ++ rest).take f.payload.length) = applyKey? f.maskKey f.payload := by
    rw [List.take_append_of_le_length (by rw [applyKey?_length]; omega), List.take_of_length_le (by rw [applyKey?_length]; omega)]
  have hhead : (f.encode ++ rest).take ((f.encode ++ rest).length - (applyKey? f.maskKey f.payload ++ rest).length)
      ++ applyKey? f.maskKey f.payload = f.encode := by
    unfold Frame.encode; simp
  rw [hlen, hop, hbody, hkey, hfin, hhead, applyKey?_involutive]
  have hnl : ¬ (applyKey? f.maskKey f.payload ++ rest).length < f.payload.length := by
    rw [List.length_append, applyKey?_length]; omega
  rcases ha with ⟨hd, hm⟩ | ⟨hc, h125⟩
  · unfold mayStart at hm
    have hd' := hd
    unfold isDataOpcode at hd
    rw [if_neg (fun e => by rw [if_pos e.1, e.2] at hm; cases hm),
      if_neg (fun e => by rw [if_neg (by omega), e.2] at hm; cases hm), if_pos hd, if_neg hnl,
      openAfter_frame hd', frameDeliveries, if_pos hd, if_neg (show ¬ f.opcode = 8 by omega)]
  · unfold isControlOpcode at hc
    have hda : ¬ (f.opcode = 0 ∨ f.opcode = 1 ∨ f.opcode = 2) := by omega
    rw [if_neg (by omega), if_neg (by omega), if_neg hda, if_pos hc, if_neg (by omega), if_neg hnl, frameDeliveries,
      if_neg hda, openAfterFrame, if_neg (show ¬ (f.opcode = 1 ∨ f.opcode = 2) by omega)]

/-- Refusal of a frame: nothing is delivered and only its header is consumed. -/
theorem interpretFrame_refused (o : Bool) (f : Frame) (hv : f.Valid) (ha : ¬ Accepted o f) (rest : List UInt8) :
    interpretFrame o (f.encode ++ rest) = (f.encode.take f.headerLength, [], .over (
      if f.opcode = 8 ∨ f.opcode = 9 ∨ f.opcode = 10 then .badControl
      else if f.opcode = 0 then .badContinuation
      else if f.opcode = 1 ∨ f.opcode = 2 then .badStart
      else .badOpcode)) := by
  unfold interpretFrame
  rw [parseHdr_encode f hv]
  simp only []
  have hlen : effectiveLen (hdrOfFrame f).len = f.payload.length := effectiveLen_small hv.2.2
  have hop : (hdrOfFrame f).opcode = f.opcode := rfl
  rw [encode_header, hlen, hop]
  unfold Accepted isDataOpcode mayStart at ha
  by_cases hc : f.opcode = 8 ∨ f.opcode = 9 ∨ f.opcode = 10
  · have h125 : 125 < f.payload.length := by
      rcases Nat.lt_or_ge 125 f.payload.length with h | h
      · exact h
      · exact absurd (.inr ⟨hc, h⟩) ha
    rw [if_pos hc]
    rw [if_neg (by omega), if_neg (by omega), if_neg (by omega), if_pos hc, if_pos h125]
  · rw [if_neg hc]
    by_cases h0 : f.opcode = 0
    · have ho : o = false := by
        cases o with
        | false => rfl
        | true => exact absurd (.inl ⟨.inl h0, by rw [if_pos h0]⟩) ha
      rw [if_pos ⟨h0, ho⟩, if_neg hc, if_pos h0]
    · rw [if_neg (fun e => h0 e.1), if_neg h0]
      by_cases h12 : f.opcode = 1 ∨ f.opcode = 2
      · have ho : o = true := by
          cases o with
          | true => rfl
          | false => exact absurd (.inl ⟨.inr h12, by rw [if_neg h0]⟩) ha
        rw [if_pos ⟨h12, ho⟩, if_neg hc, if_pos h12]
      · rw [if_neg (fun e => h12 e.1), if_neg (by omega), if_neg hc, if_neg h12]

/-- One frame at the front of a stream, for a receiver that is not interfered with. -/
theorem Receives.first {o bs ds r T B D E} (h : Receives o bs ds r) (hpre : bs <+: T) (hr : r.ofBytes)
    (hinc : r = .incomplete → bs = T) (hi : interpretFrame o T = (B, D, E)) :
    (∃ r', E = .over r' ∧ bs = B ∧ ds = D ∧ r = r') ∨
    (∃ o' bs' ds', E = .next o' ∧ bs = B ++ bs' ∧ ds = D ++ ds' ∧ Receives o' bs' ds' r) := by
  cases h with
  | last h1 =>
    have e1 := oneFrame_interpret h1 hpre (fun e => by injection e with e; subst e; exact hr) (fun e => hinc (by injection e))
    rw [hi] at e1
    injection e1 with a b; injection b with b c
    subst a b c
    exact .inl ⟨_, rfl, rfl, rfl, rfl⟩
  | stop h1 => exact absurd hr (by simp [Reason.ofBytes])
  | more h1 h2 =>
    have e1 := oneFrame_interpret h1 (List.IsPrefix.trans (List.prefix_append _ _) hpre) nofun nofun
    rw [hi] at e1
    injection e1 with a b; injection b with b c
    subst a b c
    exact .inr ⟨_, _, _, rfl, rfl, rfl, h2⟩

/-- Accepted frames at the front of a stream are consumed and delivered, and receiving goes on behind them. -/
theorem Receives.frames {o fs o' bs ds r tail} (ha : AcceptedAll o fs o') (h : Receives o bs ds r)
    (hpre : bs <+: wireOf fs ++ tail) (hr : r.ofBytes) (hinc : r = .incomplete → bs = wireOf fs ++ tail) :
    ∃ bs' ds', bs = wireOf fs ++ bs' ∧ ds = deliveriesOf fs ++ ds' ∧ Receives o' bs' ds' r ∧ bs' <+: tail ∧
      (r = .incomplete → bs' = tail) := by
  induction ha generalizing bs ds with
  | nil => exact ⟨bs, ds, rfl, rfl, h, hpre, hinc⟩
  | @cons o f fs o' hv hacc h8 _ ih =>
    have hw : wireOf (f :: fs) ++ tail = f.encode ++ (wireOf fs ++ tail) := by simp [wireOf]
    rw [hw] at hpre hinc
    have hi := interpretFrame_accepted o f hv hacc (wireOf fs ++ tail)
    rw [if_neg h8] at hi
    obtain ⟨_, e, _⟩ | ⟨_, bs1, ds1, e, rfl, rfl, h1⟩ := h.first hpre hr hinc hi
    · cases e
    cases e
    obtain ⟨bs2, ds2, rfl, rfl, h2, h3, h4⟩ := ih h1 ((List.prefix_append_right_inj _).mp hpre)
      (fun e => List.append_cancel_left (hinc e))
    exact ⟨bs2, ds2, by simp [wireOf], by simp [deliveriesOf], h2, h3, h4⟩

end OatWS
