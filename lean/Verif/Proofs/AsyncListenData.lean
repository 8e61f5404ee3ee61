import Verif.Proofs.AsyncListenStep
/-! Listening with other tasks active: payload and callbacks. -/

namespace OatWS.Async
open RFC6455

variable {env : Env} {S : Settings} {o0 : Bool} {w0 : World}

theorem renders_data {hd : Hdr} {h : Header} (hh : HdrOf hd h) {to : Option Nat} {B : Int} {chunks : List (List UInt8)} {pb : List UInt8}
    (hc : ∀ c ∈ chunks, 0 < c.length ∧ c.length ≤ B.toNat) (hf : chunks.flatten = decodeFrom hd.maskKey 0 pb) :
    RendersFor to B.toNat (chunkEvents to h.opcode chunks) [.data hd.opcode (applyKey? hd.maskKey pb)] := by
  have := RendersFor.data (op := h.opcode) hc (RendersFor.nil to B.toNat)
  rw [List.append_nil, hf, hh.opcode, decodeFrom_zero] at this
  exact this

theorem renders_data_end {hd : Hdr} {h : Header} (hh : HdrOf hd h) {to : Nat} {B : Int} {chunks : List (List UInt8)} {pb : List UInt8}
    (hc : ∀ c ∈ chunks, 0 < c.length ∧ c.length ≤ B.toNat) (hf : chunks.flatten = decodeFrom hd.maskKey 0 pb) :
    RendersFor (some to) B.toNat (chunkEvents (some to) h.opcode chunks ++ [.readMessage to h.opcode []])
      [.data hd.opcode (applyKey? hd.maskKey pb), .endOfMessage hd.opcode] := by
  have := RendersFor.append (renders_data hh (to := some to) hc hf)
    (show RendersFor (some to) B.toNat [.readMessage to h.opcode []] [.endOfMessage h.opcode.toNat] from .endOfMessage .nil)
  rw [hh.opcode] at this
  exact this

/-- Received data, decoded. -/
theorem decoded_eq {hd : Hdr} {h : Header} (hh : HdrOf hd h) (pb : List UInt8) (got : List UInt8) :
    (if h.hasMask = true then xorMask h.mask pb.length got else got) = decodeFrom hd.maskKey pb.length got := by
  rw [← hh.key]; exact decode_eq h pb.length got

theorem chunkEvents_snoc (to op cs c) : chunkEvents to op (cs ++ [c])
    = chunkEvents to op cs ++ (to.map fun l => Event.readMessage l op c).toList := by
  cases to <;> simp [chunkEvents]

theorem DataAt.above {hd l ss ss' pb chunks p em} (h : DataAt hd l ss pb chunks p em) (hs : ss ≠ []) : DataAt hd l ss' pb chunks p em := by
  cases h with
  | act h1 h2 h3 => exact .act h1 h2 (fun _ => h3 hs)
  | read h1 => exact absurd h1 hs
  | got h1 => exact absurd h1 hs
  | done h1 h2 h3 => exact .done h1 h2 h3

theorem effLen {hd : Hdr} {h : Header} (hh : HdrOf hd h) : effectiveLen hd.len = h.payloadLength.toNat := effectiveLen_eq hh

/-- The listener of a data frame was interrupted in a callback. -/
theorem DataAt.interrupted {hd l ss pb chunks p em hb o} {B : Int} (h : DataAt hd l ss pb chunks p em) (hs : ss ≠ []) (h3 : HeadDone hb hd l.hdr)
    (hdata : isDataOpcode hd.opcode) (hmay : mayStart o hd.opcode) (hB : p.cap = B.toNat)
    (hc : ∀ c ∈ chunks, 0 < c.length ∧ c.length ≤ p.cap) :
    ∃ d, OneFrame o (hb ++ pb) d (.over .interrupted) ∧ RendersFor p.listener B.toNat (chunkEvents p.listener l.hdr.opcode chunks ++ em) d := by
  rw [hB] at hc
  cases h with
  | act h1 h2 h4 =>
    refine ⟨_, .interruptedData (h3.1 pb) hdata hmay ?_ ?_, ?_⟩
    · exact List.length_pos_iff.mpr (h4 hs)
    · rw [effLen h3.2]; exact h1
    · rw [List.append_nil]; exact renders_data h3.2 hc h2
  | read h1 => exact absurd h1 hs
  | got h1 => exact absurd h1 hs
  | done h1 h2 h4 =>
    refine ⟨_, .interruptedEnd (h3.1 pb) hdata hmay ?_ ?_, renders_data_end h3.2 hc h2⟩
    · rw [effLen h3.2]; exact h1
    · rw [← h3.2.fin]; exact h4

/-- While a callback of a data frame runs. -/
theorem step_data_above {l w fb ds evs o hb hd pb s ss p chunks em hl B}
    (h1 : Past S o0 w0 fb ds evs o (hb ++ pb) (chunkEvents p.listener l.hdr.opcode chunks ++ em) w)
    (h2 : HeadDone hb hd l.hdr) (h3 : isDataOpcode hd.opcode) (h4 : mayStart o hd.opcode)
    (h5 : OpenIs (openAfter o hd) w.st.sock.lastOpcode)
    (h6 : ∀ c ∈ s :: ss, c.ok (Uses S)) (h7 : S.listener p.listener) (h8 : S.size B) (h9 : p.cap = B.toNat)
    (h10 : ∀ c ∈ chunks, 0 < c.length ∧ c.length ≤ p.cap) (h11 : DataAt hd l (s :: ss) pb chunks p em) :
    LOk env S o0 w0 (step env ⟨s :: ss ++ [.readPayload p, .handleFrame ⟨.done, hl⟩, .listen], l⟩ w) := by
  have hset := step_settings env S s ss [.readPayload p, .handleFrame ⟨.done, hl⟩, .listen] (h6 s (by simp)) l w h1.sets
  obtain ⟨d, hi, hr⟩ := h11.interrupted (by simp) h2 h3 h4 h9 h10
  have htold : ∀ w1 w2 : World, OthersDo w w1 → S.In w1 → w2.st = w1.st → Told S o0 w0 w2 .interrupted := by
    intro w1 w2 ho hs e
    exact (h1.others ho hs).told hi (h1.mix.snoc' h7 h8 hr) e
  rcases step_above env (uses_lasting S) (uses_noCare S) s ss [.readPayload p, .handleFrame ⟨.done, hl⟩, .listen] h6 l w (by simp) with
    ⟨ss', w', e1, e2, e3⟩ | ⟨e, w', e1, e2, e3⟩ | ⟨w', e1, e2⟩ | ⟨u, w', -, e1⟩
  · rw [e3] at hset ⊢
    exact LAt.data (h1.others e2 hset) h2 h3 h4 (by rw [e2.lastOpcode]; exact h5) e1 h7 h8 h9 h10 (h11.above (by simp))
  · obtain ⟨w2, e4, e5⟩ := unwind_base e [.readPayload p, .handleFrame ⟨.done, hl⟩, .listen] (noUser_payload _ _) l w'
    rw [e3, e4] at hset ⊢
    have hset' : S.In w' := by unfold Settings.In at hset ⊢; rw [e5] at hset; exact hset
    exact .inl ⟨.interrupted, e2, htold w' w2 e1 hset' e5⟩
  · rw [e2] at hset ⊢
    exact .inr (htold w' w' e1 hset rfl)
  · rw [e1]; trivial

theorem callback_st (env : Env) (ev : Event) (ptr data) (w : World) :
    (callback env ev ptr data w).2.st = { w.st with sock := { w.st.sock with trace := w.st.sock.trace ++ [ev] } } := rfl

theorem callback_ok (hS : S.Env env) (ev : Event) (ptr data) (w : World) :
    ∀ c ∈ [(callback env ev ptr data w).1], c.ok (Uses S) := by
  intro c hc
  rw [List.mem_singleton] at hc
  subst hc
  exact hS _

theorem free_st (w : World) (id : Nat) : (w.free id).st = w.st := rfl
theorem store_st (w : World) (id : Nat) (c) : (w.store id c).st = w.st := rfl

/-- The payload of a data frame. -/
theorem step_data (hS : S.Env env) {l w fb ds evs o hb hd pb p chunks em hl B}
    (h1 : Past S o0 w0 fb ds evs o (hb ++ pb) (chunkEvents p.listener l.hdr.opcode chunks ++ em) w)
    (h2 : HeadDone hb hd l.hdr) (h3 : isDataOpcode hd.opcode) (h4 : mayStart o hd.opcode)
    (h5 : OpenIs (openAfter o hd) w.st.sock.lastOpcode)
    (h7 : S.listener p.listener) (h8 : S.size B) (h9 : p.cap = B.toNat)
    (h10 : ∀ c ∈ chunks, 0 < c.length ∧ c.length ≤ p.cap) (h11 : DataAt hd l [] pb chunks p em) :
    LOk env S o0 w0 (step env ⟨[.readPayload p, .handleFrame ⟨.done, hl⟩, .listen], l⟩ w) := by
  have hnc : l.hdr.opcode ≠ OPCODE_CLOSE := by
    intro h
    have := (opcode_eq h2.2 _).mp h
    rcases h3 with h | h | h <;> rw [h] at this <;> cases this
  -- a cut frame
  have hcut : ∀ w1 w2 : World, ∀ cur', Past S o0 w0 fb ds evs o (hb ++ cur') (chunkEvents p.listener l.hdr.opcode chunks) w1 → w2.st = w1.st →
      chunks.flatten = decodeFrom hd.maskKey 0 cur' → cur'.length < l.hdr.payloadLength.toNat → Told S o0 w0 w2 .incomplete := by
    intro w1 w2 cur' hp e hfl hlt
    refine hp.told (.cutData (h2.1 cur') h3 h4 ?_) (h1.mix.snoc' h7 h8 (renders_data h2.2 (by rw [← h9]; exact h10) hfl)) e
    rw [effLen h2.2]; exact hlt
  -- the end of the frame
  have hend : ∀ w1 : World, w1.st = w.st → pb.length = l.hdr.payloadLength.toNat → chunks.flatten = decodeFrom hd.maskKey 0 pb →
      (l.hdr.fin = true → em = [] → p.listener = none) → (em = [] ∨ ∃ to, p.listener = some to ∧ l.hdr.fin = true ∧ em = [.readMessage to l.hdr.opcode []]) →
      LAt env S o0 w0 ⟨[.handleFrame ⟨.done, hl⟩, .listen], l⟩ w1 := by
    intro w1 e hlen hfl hn hem
    rw [← effLen h2.2] at hlen
    have hone := OneFrame.data (h2.1 pb) h3 h4 hlen
    refine LAt.frame (ss := []) (h1.st e) hone ?_ (.inr ⟨_, rfl, by rw [e]; exact h5, hnc⟩) (by simp) (by simp)
    refine h1.mix.snoc' h7 h8 ?_
    rw [h9] at h10
    rcases hem with rfl | ⟨to, hto, hfin, rfl⟩
    · rw [List.append_nil]
      by_cases hfin : hd.fin = true
      · have := hn (by rw [h2.2.fin]; exact hfin) rfl
        rw [this]
        rfl
      · rw [if_neg hfin]; exact renders_data h2.2 h10 hfl
    · rw [hto, if_pos (by rw [← h2.2.fin]; exact hfin)]
      exact renders_data_end h2.2 h10 hfl
  rw [step_cons]
  cases h11 with
  | @act to cap buf want got g1 g2 g3 =>
    simp only [] at h7 h9 h10 hcut hend
    rw [List.append_nil] at h1
    simp only [coStep, readPayloadStep]
    by_cases hlt : (pb.length : Int) < l.hdr.payloadLength
    · rw [if_pos hlt]
      refine LAt.data (ss := []) (em := []) (by rw [List.append_nil]; exact h1) h2 h3 h4 h5 (by simp) h7 h8 h9 h10 (.read rfl (by omega) g2 ?_)
      split <;> omega
    · rw [if_neg hlt]
      have hlen : pb.length = l.hdr.payloadLength.toNat := by omega
      cases to with
      | none =>
        simp only [after]
        exact hend _ rfl hlen g2 (fun _ _ => rfl) (.inl trivial)
      | some to =>
        by_cases hfin : l.hdr.fin = true
        · simp only [hfin, Bool.not_false, and_self, if_true]
          refine LAt.data (ss := [_]) (em := [.readMessage to l.hdr.opcode []]) (chunks := chunks) (h1.callback (callback_st ..)) h2 h3 h4 h5
            (callback_ok hS _ _ _ _) h7 h8 h9 h10 (.done hlen g2 hfin)
        · simp only [hfin, and_false, if_false, after]
          exact hend _ rfl hlen g2 (fun h => absurd h hfin) (.inl trivial)
  | @read to cap buf want g1 g2 g3 g4 =>
    simp only [] at h7 h9 h10 hcut hend
    rw [List.append_nil] at h1
    have hnone : Past S o0 w0 fb ds evs o (hb ++ pb) (chunkEvents to l.hdr.opcode chunks ++ []) w := by rw [List.append_nil]; exact h1
    simp only [coStep, readPayloadStep]
    by_cases hw : want ≤ 0
    · rw [if_pos hw]
      exact LAt.data (ss := []) (em := []) hnone h2 h3 h4 h5 (by simp) h7 h8 h9 h10
        (.got rfl (List.append_nil pb).symm (by omega) g2 (by simp) g3)
    · rw [if_neg hw]
      split
      · exact .inl (hcut w w pb h1 rfl g3 g2)
      · rename_i oc sched hsched
        split
        · rename_i bs bytes hl2
          obtain ⟨n, -, k1, k2, k3, k4, k5⟩ := lowRead_data hl2
          have hb2 : w.st.inp.bytes = bs ++ (⟨bytes, sched⟩ : InStream).bytes := by
            rw [show (⟨bytes, sched⟩ : InStream).bytes = w.st.inp.bytes.drop bs.length from k2]
            conv => lhs; rw [← List.take_append_drop bs.length w.st.inp.bytes]
            rw [← k1]
          by_cases hcap : bs.length > cap
          · rw [if_pos hcap]; trivial
          · rw [if_neg hcap]
            have hp := hnone.read hb2 (w' := (w.setInp ⟨bytes, sched⟩).store buf bs) rfl
            rw [List.append_assoc] at hp
            exact LAt.data (ss := []) (em := []) (chunks := chunks) hp h2 h3 h4 h5 (by simp) h7 h8 h9 h10
              (.got rfl rfl (by rw [List.length_append]; omega) g2 (by omega) g3)
        · rename_i bytes hl2
          have hb2 : w.st.inp.bytes = [] ++ (⟨bytes, sched⟩ : InStream).bytes := (lowRead_other hl2 (by nofun)).symm
          have hp := hnone.read hb2 (w' := w.setInp ⟨bytes, sched⟩) rfl
          rw [List.append_nil] at hp
          exact LAt.data (ss := []) (em := []) (chunks := chunks) hp h2 h3 h4 h5 (by simp) h7 h8 h9 h10 (.read rfl g2 g3 g4)
        · rename_i bytes hl2
          have hb2 : w.st.inp.bytes = [] ++ (⟨bytes, sched⟩ : InStream).bytes := (lowRead_other hl2 (by nofun)).symm
          have hp := hnone.read hb2 (w' := w.setInp ⟨bytes, sched⟩) rfl
          rw [List.append_nil] at hp
          exact LAt.data (ss := []) (em := []) (chunks := chunks) hp h2 h3 h4 h5 (by simp) h7 h8 h9 h10
            (.got rfl (List.append_nil pb).symm (by omega) g2 (by simp) g3)
        · rename_i bytes hl2
          have hb2 : w.st.inp.bytes = [] ++ (⟨bytes, sched⟩ : InStream).bytes := (lowRead_other hl2 (by nofun)).symm
          have hp := h1.read hb2 (w' := w.setInp ⟨bytes, sched⟩) rfl
          rw [List.append_nil] at hp
          obtain ⟨w', e4, e5⟩ := after_error .io (.readPayload ⟨.readData, to, false, cap, buf, pb.length, want, []⟩)
            [.handleFrame ⟨.done, hl⟩, .listen] (noUser_handle _) l (w.setInp ⟨bytes, sched⟩)
          rw [e4]
          exact .inl ⟨.incomplete, .inl rfl, hcut _ _ pb hp e5 g3 g2⟩
  | @got to cap buf want pb' got g1 g2 g3 g4 g5 g6 =>
    simp only [] at h7 h9 h10 hcut hend
    rw [List.append_nil] at h1
    subst g2
    simp only [coStep, readPayloadStep]
    by_cases hgot : got = []
    · subst hgot
      rw [if_neg (by simp)]
      rw [List.append_nil] at h1
      obtain ⟨w', e4, e5⟩ := after_error (.thrown .connectionState) (.readPayload ⟨.onDataRead, to, false, cap, buf, pb'.length, want, []⟩)
        [.handleFrame ⟨.done, hl⟩, .listen] (noUser_handle _) l w
      rw [e4]
      exact .inl ⟨.incomplete, .inr rfl, hcut _ _ pb' h1 e5 g6 g4⟩
    · rw [if_pos hgot]
      have hflat : (chunks ++ [decodeFrom hd.maskKey pb'.length got]).flatten = decodeFrom hd.maskKey 0 (pb' ++ got) := by
        rw [List.flatten_append, g6, decodeFrom_append, Nat.zero_add]; simp
      have hch : ∀ c ∈ chunks ++ [decodeFrom hd.maskKey pb'.length got], 0 < c.length ∧ c.length ≤ cap := by
        intro c hc
        rcases List.mem_append.mp hc with hc | hc
        · exact h10 c hc
        · rw [List.mem_singleton] at hc
          rw [hc, decodeFrom_length]
          exact ⟨List.length_pos_iff.mpr hgot, g5⟩
      have hpr : ((pb'.length : Int) + got.length) = (((pb' ++ got).length : Nat) : Int) := by simp
      have hne : pb' ++ got ≠ [] := by simp [hgot]
      have hd2 := decoded_eq h2.2 pb' got
      have hpnone : to = none → Past S o0 w0 fb ds evs o (hb ++ (pb' ++ got))
          (chunkEvents to l.hdr.opcode (chunks ++ [decodeFrom hd.maskKey pb'.length got]) ++ []) w := by
        rintro rfl; exact h1
      have hpsome : ∀ t w1, to = some t → w1.st = { w.st with sock := { w.st.sock with
          trace := w.st.sock.trace ++ [.readMessage t l.hdr.opcode (decodeFrom hd.maskKey pb'.length got)] } } →
          Past S o0 w0 fb ds evs o (hb ++ (pb' ++ got))
          (chunkEvents to l.hdr.opcode (chunks ++ [decodeFrom hd.maskKey pb'.length got]) ++ []) w1 := by
        rintro t w1 rfl e
        rw [List.append_nil, chunkEvents_snoc]
        exact h1.callback e
      by_cases hm : l.hdr.hasMask = true
      · rw [if_pos hm] at hd2 ⊢
        simp only [Int.toNat_natCast, Bool.false_eq_true, if_false]
        rw [hd2, hpr]
        cases to with
        | none =>
          exact LAt.data (ss := []) (em := []) (hpnone rfl) h2 h3 h4 h5 (by simp) h7 h8 h9 hch (.act g3 hflat (by simp))
        | some t =>
          refine LAt.data (ss := [_]) (em := []) (hpsome t _ rfl ?_) h2 h3 h4 h5 (callback_ok hS _ _ _ _) h7 h8 h9 hch (.act g3 hflat (fun _ => hne))
          rfl
      · rw [if_neg hm] at hd2 ⊢
        simp only [Bool.false_eq_true, if_false]
        rw [hpr]
        rw [← hd2] at hflat hch hpnone hpsome
        cases to with
        | none =>
          exact LAt.data (ss := []) (em := []) (hpnone rfl) h2 h3 h4 h5 (by simp) h7 h8 h9 hch (.act g3 hflat (by simp))
        | some t =>
          exact LAt.data (ss := [_]) (em := []) (hpsome t _ rfl rfl) h2 h3 h4 h5 (callback_ok hS _ _ _ _) h7 h8 h9 hch (.act g3 hflat (fun _ => hne))
  | @done to cap buf progress want got g1 g2 g3 =>
    simp only [] at h7 h9 h10 hcut hend
    simp only [coStep, readPayloadStep, after]
    exact hend _ rfl g1 g2 (fun _ h => by cases h) (.inr ⟨to, rfl, g3, rfl⟩)

/-- The payload of a control frame. -/
theorem step_short {l w fb ds evs o hb hd pb p hl} (h1 : Past S o0 w0 fb ds evs o (hb ++ pb) [] w) (h2 : OpenIs o w.st.sock.lastOpcode)
    (h3 : HeadDone hb hd l.hdr) (h4 : isControlOpcode hd.opcode) (h5 : l.hdr.payloadLength ≤ 125) (h6 : S.listener hl)
    (h7 : ShortAt hd l pb p) :
    LOk env S o0 w0 (step env ⟨[.readPayload p, .handleFrame ⟨controlPc hd.opcode, hl⟩, .listen], l⟩ w) := by
  have h125 : effectiveLen hd.len ≤ 125 := by rw [effLen h3.2]; omega
  have hcut : ∀ w1 w2 : World, ∀ cur', Past S o0 w0 fb ds evs o (hb ++ cur') [] w1 → w2.st = w1.st →
      cur'.length < l.hdr.payloadLength.toNat → Told S o0 w0 w2 .incomplete := by
    intro w1 w2 cur' hp e hlt
    exact hp.told_nil (.cutControl (h3.1 cur') h4 h125 (by rw [effLen h3.2]; exact hlt)) e
  rw [step_cons]
  cases h7 with
  | @act to cap buf want got g1 g2 =>
    simp only [coStep, readPayloadStep]
    by_cases hlt : (pb.length : Int) < l.hdr.payloadLength
    · rw [if_pos hlt]
      refine LAt.short h1 h2 h3 h4 h5 h6 (.read (by omega) g2 ?_)
      split <;> omega
    · rw [if_neg hlt]
      have hlen : pb.length = l.hdr.payloadLength.toNat := by omega
      have hfin : LOk env S o0 w0 (after (.readPayload ⟨.act, to, true, cap, buf, pb.length, want, got⟩)
          [.handleFrame ⟨controlPc hd.opcode, hl⟩, .listen] (.finish, l, w)) := LAt.control (h1.st rfl) h2 h3 h4 h5 h6 hlen g2
      cases to with
      | none => exact hfin
      | some to => simp only [Bool.not_true, Bool.false_eq_true, false_and, if_false]; exact hfin
  | @read to cap buf want g2 g3 g4 =>
    simp only [coStep, readPayloadStep]
    by_cases hw : want ≤ 0
    · rw [if_pos hw]
      exact LAt.short h1 h2 h3 h4 h5 h6 (.got (List.append_nil pb).symm (by omega) g2 g3)
    · rw [if_neg hw]
      split
      · exact .inl (hcut w w pb h1 rfl g2)
      · rename_i oc sched hsched
        split
        · rename_i bs bytes hl2
          obtain ⟨n, -, k1, k2, k3, k4, k5⟩ := lowRead_data hl2
          have hb2 : w.st.inp.bytes = bs ++ (⟨bytes, sched⟩ : InStream).bytes := by
            rw [show (⟨bytes, sched⟩ : InStream).bytes = w.st.inp.bytes.drop bs.length from k2]
            conv => lhs; rw [← List.take_append_drop bs.length w.st.inp.bytes]
            rw [← k1]
          by_cases hcap : bs.length > cap
          · rw [if_pos hcap]; trivial
          · rw [if_neg hcap]
            have hp := h1.read hb2 (w' := (w.setInp ⟨bytes, sched⟩).store buf bs) rfl
            rw [List.append_assoc] at hp
            exact LAt.short hp h2 h3 h4 h5 h6 (.got rfl (by rw [List.length_append]; omega) g2 g3)
        · rename_i bytes hl2
          have hb2 : w.st.inp.bytes = [] ++ (⟨bytes, sched⟩ : InStream).bytes := (lowRead_other hl2 (by nofun)).symm
          have hp := h1.read hb2 (w' := w.setInp ⟨bytes, sched⟩) rfl
          rw [List.append_nil] at hp
          exact LAt.short hp h2 h3 h4 h5 h6 (.read g2 g3 g4)
        · rename_i bytes hl2
          have hb2 : w.st.inp.bytes = [] ++ (⟨bytes, sched⟩ : InStream).bytes := (lowRead_other hl2 (by nofun)).symm
          have hp := h1.read hb2 (w' := w.setInp ⟨bytes, sched⟩) rfl
          rw [List.append_nil] at hp
          exact LAt.short hp h2 h3 h4 h5 h6 (.got (List.append_nil pb).symm (by omega) g2 g3)
        · rename_i bytes hl2
          have hb2 : w.st.inp.bytes = [] ++ (⟨bytes, sched⟩ : InStream).bytes := (lowRead_other hl2 (by nofun)).symm
          have hp := h1.read hb2 (w' := w.setInp ⟨bytes, sched⟩) rfl
          rw [List.append_nil] at hp
          obtain ⟨w', e4, e5⟩ := after_error .io (.readPayload ⟨.readData, to, true, cap, buf, pb.length, want, []⟩)
            [.handleFrame ⟨controlPc hd.opcode, hl⟩, .listen] (noUser_handle _) l (w.setInp ⟨bytes, sched⟩)
          rw [e4]
          exact .inl ⟨.incomplete, .inl rfl, hcut _ _ pb hp e5 g2⟩
  | @got to cap buf want pb' got g2 g3 g4 g6 =>
    subst g2
    simp only [coStep, readPayloadStep]
    by_cases hgot : got = []
    · subst hgot
      rw [if_neg (by simp)]
      rw [List.append_nil] at h1
      obtain ⟨w', e4, e5⟩ := after_error (.thrown .connectionState) (.readPayload ⟨.onDataRead, to, true, cap, buf, pb'.length, want, []⟩)
        [.handleFrame ⟨controlPc hd.opcode, hl⟩, .listen] (noUser_handle _) l w
      rw [e4]
      exact .inl ⟨.incomplete, .inr rfl, hcut _ _ pb' h1 e5 g4⟩
    · rw [if_pos hgot]
      have hpr : ((pb'.length : Int) + got.length) = (((pb' ++ got).length : Nat) : Int) := by simp
      have hd2 := decoded_eq h3.2 pb' got
      have hsh : l.short ++ decodeFrom hd.maskKey pb'.length got = decodeFrom hd.maskKey 0 (pb' ++ got) := by
        rw [g6, decodeFrom_append, Nat.zero_add]
      by_cases hm : l.hdr.hasMask = true
      · rw [if_pos hm] at hd2 ⊢
        simp only [Int.toNat_natCast, if_true]
        rw [hd2, hpr]
        exact LAt.short (l := { l with short := l.short ++ decodeFrom hd.maskKey pb'.length got }) h1 h2 h3 h4 h5 h6 (.act g3 hsh)
      · rw [if_neg hm] at hd2 ⊢
        simp only [if_true]
        rw [hpr]
        rw [← hd2] at hsh
        exact LAt.short (l := { l with short := l.short ++ got }) h1 h2 h3 h4 h5 h6 (.act g3 hsh)

/-- The callback of a control frame. -/
theorem step_control (hS : S.Env env) {l w fb ds evs o hb hd pb hl} (h1 : Past S o0 w0 fb ds evs o (hb ++ pb) [] w)
    (h2 : OpenIs o w.st.sock.lastOpcode)
    (h3 : HeadDone hb hd l.hdr) (h4 : isControlOpcode hd.opcode) (h5 : l.hdr.payloadLength ≤ 125) (h6 : S.listener hl)
    (h7 : pb.length = l.hdr.payloadLength.toNat) (h8 : l.short = decodeFrom hd.maskKey 0 pb) :
    LOk env S o0 w0 (step env ⟨[.handleFrame ⟨controlPc hd.opcode, hl⟩, .listen], l⟩ w) := by
  have h125 : effectiveLen hd.len ≤ 125 := by rw [effLen h3.2]; omega
  have hlen : pb.length = effectiveLen hd.len := by rw [effLen h3.2]; exact h7
  rw [decodeFrom_zero] at h8
  have hop := opcode_eq h3.2
  have key : ∀ mk : Nat → Event, (∀ t, Renders t w.st.sock.config.readBufferSize.toNat [mk t] [controlDelivery hd.opcode (applyKey? hd.maskKey pb)]) →
      LOk env S o0 w0 (after (.handleFrame ⟨controlPc hd.opcode, hl⟩) [.listen] (controlCallback env ⟨controlPc hd.opcode, hl⟩ mk l w)) := by
    intro mk hmk
    obtain ⟨e, he1, he2⟩ : ∃ e, OneFrame o (hb ++ pb) [controlDelivery hd.opcode (applyKey? hd.maskKey pb)] e ∧
        (e = .over .closed ∧ l.hdr.opcode = OPCODE_CLOSE ∨ ∃ o', e = .next o' ∧ OpenIs o' w.st.sock.lastOpcode ∧ l.hdr.opcode ≠ OPCODE_CLOSE) := by
      by_cases h8 : hd.opcode = 8
      · exact ⟨_, .close (h3.1 pb) h8 h125 hlen, .inl ⟨rfl, (hop _).mpr h8⟩⟩
      · refine ⟨_, .pingPong (h3.1 pb) (h4.resolve_left h8) h125 hlen, .inr ⟨o, rfl, h2, fun h => h8 ((hop _).mp h)⟩⟩
    unfold controlCallback
    cases hl with
    | none =>
      have hmix : RendersMix S (evs ++ []) (ds ++ [controlDelivery hd.opcode (applyKey? hd.maskKey pb)]) :=
        h1.mix.snoc' h6 h1.sets.2 rfl
      simp only [after]
      rcases he2 with ⟨rfl, he2⟩ | ⟨o', rfl, he2, he3⟩
      · exact LAt.closed h1 he1 hmix he2
      · refine LAt.idle (fb := fb ++ (hb ++ pb)) (ds := ds ++ _) (evs := evs ++ []) (o := o') ⟨h1.frames.snoc he1, hmix, ?_, ?_, h1.sets⟩ he2 he3
        · rw [List.append_nil]; exact h1.bytes
        · rw [List.append_nil, List.append_nil]
          have := h1.trace
          rwa [List.append_nil] at this
    | some t =>
      refine LAt.frame (ss := [_]) (h1.callback (callback_st env _ none [] _)) he1 (h1.mix.snoc' h6 h1.sets.2 (hmk t)) he2 (callback_ok hS _ _ _ _)
        (fun _ => .interruptedControl (h3.1 pb) h4 h125 hlen)
  rw [step_cons]
  rcases h4 with e | e | e
  · have hpc : controlPc hd.opcode = .onClose := by rw [e]; rfl
    rw [hpc] at key ⊢
    simp only [coStep, handleFrameStep]
    refine key _ (fun t => ?_)
    rw [e, closeArgs_eq env, ← h8]
    exact .close .nil
  · have hpc : controlPc hd.opcode = .onPing := by rw [e]; rfl
    rw [hpc] at key ⊢
    simp only [coStep, handleFrameStep]
    refine key _ (fun t => ?_)
    rw [e, ← h8]
    exact .ping .nil
  · have hpc : controlPc hd.opcode = .onPong := by rw [e]; rfl
    rw [hpc] at key ⊢
    simp only [coStep, handleFrameStep]
    refine key _ (fun t => ?_)
    rw [e, ← h8]
    exact .pong .nil

/-- The end of a frame. -/
theorem step_frame {l w fb ds evs o cur fe d ss hl e} (h1 : Past S o0 w0 fb ds evs o cur fe w) (h2 : OneFrame o cur d e)
    (h3 : RendersMix S (evs ++ fe) (ds ++ d))
    (h4 : e = .over .closed ∧ l.hdr.opcode = OPCODE_CLOSE ∨ ∃ o', e = .next o' ∧ OpenIs o' w.st.sock.lastOpcode ∧ l.hdr.opcode ≠ OPCODE_CLOSE)
    (h5 : ∀ c ∈ ss, c.ok (Uses S)) (h6 : ss ≠ [] → OneFrame o cur d (.over .interrupted)) :
    LOk env S o0 w0 (step env ⟨ss ++ [.handleFrame ⟨.done, hl⟩, .listen], l⟩ w) := by
  cases ss with
  | nil =>
    rw [List.nil_append, step_cons]
    simp only [coStep, handleFrameStep, after]
    rcases h4 with ⟨rfl, h4⟩ | ⟨o', rfl, h4, h7⟩
    · exact LAt.closed h1 h2 h3 h4
    · refine LAt.idle (fb := fb ++ cur) (ds := ds ++ d) (evs := evs ++ fe) (o := o') ⟨h1.frames.snoc h2, h3, ?_, ?_, h1.sets⟩ h4 h7
      · rw [List.append_nil]; exact h1.bytes
      · rw [List.append_nil, ← List.append_assoc]; exact h1.trace
  | cons s ss =>
    have hset := step_settings env S s ss [.handleFrame ⟨.done, hl⟩, .listen] (h5 s (by simp)) l w h1.sets
    have htold : ∀ w1 w2 : World, OthersDo w w1 → S.In w1 → w2.st = w1.st → Told S o0 w0 w2 .interrupted :=
      fun w1 w2 ho hs e => (h1.others ho hs).told (h6 (by simp)) h3 e
    rcases step_above env (uses_lasting S) (uses_noCare S) s ss [.handleFrame ⟨.done, hl⟩, .listen] h5 l w (by simp) with
      ⟨ss', w', e1, e2, e3⟩ | ⟨e, w', e1, e2, e3⟩ | ⟨w', e1, e2⟩ | ⟨u, w', -, e1⟩
    · rw [e3] at hset ⊢
      exact LAt.frame (h1.others e2 hset) h2 h3 (by rw [e2.lastOpcode]; exact h4) e1 (fun _ => h6 (by simp))
    · obtain ⟨w2, e4, e5⟩ := unwind_base e [.handleFrame ⟨.done, hl⟩, .listen] (noUser_handle _) l w'
      rw [e3, e4] at hset ⊢
      have hset' : S.In w' := by unfold Settings.In at hset ⊢; rw [e5] at hset; exact hset
      exact .inl ⟨.interrupted, e2, htold w' w2 e1 hset' e5⟩
    · rw [e2] at hset ⊢
      exact .inr (htold w' w' e1 hset rfl)
    · rw [e1]; trivial

theorem LAt.step (hS : S.Env env) {t w} (h : LAt env S o0 w0 t w) : LOk env S o0 w0 (Async.step env t w) := by
  cases h with
  | idle h1 h2 h3 => exact step_idle h1 h2 h3
  | closed h1 h2 h3 h4 => exact step_closed h1 h2 h3 h4
  | head h1 h2 h3 h4 => exact step_head h1 h2 h3 h4
  | handle h1 h2 h3 h4 => exact step_handle h1 h2 h3 h4
  | @data _ _ _ _ _ _ _ _ _ ss _ _ _ _ _ h1 h2 h3 h4 h5 h6 h7 h8 h9 h10 h11 =>
    cases ss with
    | nil => exact step_data hS h1 h2 h3 h4 h5 h7 h8 h9 h10 h11
    | cons s ss => exact step_data_above h1 h2 h3 h4 h5 h6 h7 h8 h9 h10 h11
  | short h1 h2 h3 h4 h5 h6 h7 => exact step_short h1 h2 h3 h4 h5 h6 h7
  | control h1 h2 h3 h4 h5 h6 h7 h8 => exact step_control hS h1 h2 h3 h4 h5 h6 h7 h8
  | frame h1 h2 h3 h4 h5 h6 => exact step_frame h1 h2 h3 h4 h5 h6

theorem Told.others {r} {w w' : World} (h : Told S o0 w0 w r) (hw : OthersDo w w') : Told S o0 w0 w' r := by
  obtain ⟨c, ds, evs, h1, h2, h3⟩ := h
  exact ⟨c, ds, evs, by rw [hw.inp]; exact h1, by rw [hw.trace]; exact h2, h3⟩

theorem LOk.others {out w w'} (h : LOk env S o0 w0 (out, w)) (hw : S.Others w w') : LOk env S o0 w0 (out, w') := by
  cases out with
  | run t => exact LAt.others h hw.1 (hw.2 (LAt.sets h))
  | finished => exact Told.others h hw.1
  | failed e => exact h.imp (fun ⟨r, h1, h2⟩ => ⟨r, h1, h2.others hw.1⟩) id
  | blocked => exact h.imp (·.others hw.1) (·.others hw.1)
  | ub u => trivial

/-- The invariant of a listening task. -/
theorem listening_ok (hS : S.Env env) (h : Header) (ho : OpenIs o0 w0.st.sock.lastOpcode) (hw : S.In w0) {out w}
    (he : Exec env S.Others (fun _ => True) (.run (listenTask h), w0) (out, w)) : LOk env S o0 w0 (out, w) := by
  have hstart : LOk env S o0 w0 (.run (listenTask h), w0) :=
    LAt.idle (fb := []) (ds := []) (evs := []) ⟨.nil, .nil, by simp, by simp, hw⟩ ho (by simp [OPCODE_CLOSE])
  revert he hstart
  generalize (Outcome.run (listenTask h), w0) = a
  generalize (out, w) = b
  intro he hstart
  induction he with
  | refl => exact hstart
  | own _ _ hs ih => rw [← hs]; exact LAt.step hS ih
  | other _ hr ih => exact ih.others hr

end OatWS.Async
