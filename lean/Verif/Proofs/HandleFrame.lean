import Verif.Proofs.ReadPayload
/-! One frame: `handleFrame` and `iterateFrame` refine `OneFrame`. -/

namespace OatWS
open RFC6455

/-- Configuration and listener are kept; events were added; listening may have been switched off; output was added. -/
structure SockAdd (s : Sock) (evs : List Event) (s' : Sock) : Prop where
  config : s'.config = s.config
  listener : s'.listener = s.listener
  trace : s'.trace = s.trace ++ evs
  listening : s'.listening = true → s.listening = true
  written : s.out.written <+: s'.out.written

theorem KeptAdd.sockAdd {s e s'} (h : KeptAdd s e s') : SockAdd s e s' :=
  ⟨h.config, h.listener, h.trace, h.listening, Kept.written (s := { s with trace := s.trace ++ e }) h⟩

theorem SockAdd.trans {s e s' e' s''} (h : SockAdd s e s') (h' : SockAdd s' e' s'') : SockAdd s (e ++ e') s'' :=
  ⟨h'.config.trans h.config, h'.listener.trans h.listener, by rw [h'.trace, h.trace, List.append_assoc],
    fun x => h.listening (h'.listening x), h.written.trans h'.written⟩

/-- How the end of a frame shows in the exit, final state and schedule. `op?` is the opcode of the frame. -/
def FrameExit {α} (fe : FrameEnd) (st st' : St) (k : Nat) (env : Env) (x : Exit α) (op : α → Option UInt8) : Prop :=
  match fe with
  | .next o' => (∃ a, x = .ret a ∧ op a ≠ some OPCODE_CLOSE) ∧ OpenIs o' st'.sock.lastOpcode ∧
      ∀ j, Healthy (st.inp.bytes.length + j) st.inp.sched → Healthy (st'.inp.bytes.length + j) st'.inp.sched
  | .over .closed => (∃ a, x = .ret a ∧ (op a = none ∨ op a = some OPCODE_CLOSE)) ∧
      st'.sock.lastOpcode = st.sock.lastOpcode
  | .over .stopped => False
  | .over .incomplete => (x = .block ∧ ¬ Healthy (st.inp.bytes.length + 1) st.inp.sched ∨ ∃ e, e.isRead ∧ x = .throw e) ∧
      (Healthy st.inp.bytes.length st.inp.sched → k = st.inp.bytes.length)
  | .over .badControl => x = .throw .controlTooLong
  | .over .badContinuation => x = .throw .continuationState
  | .over .badStart => x = .throw .continuationExpected
  | .over .badOpcode => x = .throw .unknownFrame
  | .over .interrupted => (∀ a, x ≠ .ret a) ∧ st.sock.listener.isSome = true ∧ ¬ env.Returns

theorem effectiveLen_eq {hd : Hdr} {h : Header} (hh : HdrOf hd h) : effectiveLen hd.len = h.payloadLength.toNat := by
  rw [hh.len, effectiveLen, toInt64]
  have := hh.len_lt
  split <;> omega

theorem tooLong_iff {hd : Hdr} {h : Header} (hh : HdrOf hd h) : h.payloadLength > 125 ↔ 125 < effectiveLen hd.len := by
  rw [effectiveLen_eq hh]; omega

theorem RendersFor.data {l? B op chunks evs ds} (hc : ∀ c ∈ chunks, 0 < c.length ∧ c.length ≤ B)
    (h : RendersFor l? B evs ds) :
    RendersFor l? B (chunkEvents l? op chunks ++ evs) (.data op.toNat chunks.flatten :: ds) := by
  cases l? with
  | none => exact h
  | some l => exact Renders.data hc h

theorem RendersFor.nil (l? B) : RendersFor l? B [] [] := by
  cases l? with
  | none => rfl
  | some l => exact Renders.nil

theorem Renders.append {l B e1 d1 e2 d2} (h1 : Renders l B e1 d1) (h2 : Renders l B e2 d2) :
    Renders l B (e1 ++ e2) (d1 ++ d2) := by
  induction h1 with
  | nil => exact h2
  | data hc _ ih => rw [List.append_assoc]; exact Renders.data hc ih
  | endOfMessage _ ih => exact Renders.endOfMessage ih
  | ping _ ih => exact Renders.ping ih
  | pong _ ih => exact Renders.pong ih
  | close _ ih => exact Renders.close ih

theorem RendersFor.append {l? B e1 d1 e2 d2} (h1 : RendersFor l? B e1 d1) (h2 : RendersFor l? B e2 d2) :
    RendersFor l? B (e1 ++ e2) (d1 ++ d2) := by
  cases l? with
  | none => cases h1; cases h2; rfl
  | some l => exact Renders.append (h1 : Renders l B e1 d1) h2

theorem P.bind_apply {σ α β : Type} (m : P σ α) (f : α → P σ β) (s : σ) : P.bind m f s =
    match m s with
    | (.ret a, s') => f a s'
    | (.throw e, s') => (.throw e, s')
    | (.block, s') => (.block, s')
    | (.ub u, s') => (.ub u, s') := rfl

/-- What is proved of handling one frame. -/
def Handles {α} (env : Env) (B : Nat) (st : St) (spec : List UInt8 → List Delivery → FrameEnd → Prop)
    (r : Exit α × St) (op : α → Option UInt8) : Prop :=
  ∃ k ds fe evs st' x, k ≤ st.inp.bytes.length ∧ r = (x, st') ∧ st'.inp.bytes = st.inp.bytes.drop k ∧
    st'.inp.sched.length ≤ st.inp.sched.length ∧
    spec (st.inp.bytes.take k) ds fe ∧ RendersFor st.sock.listener B evs ds ∧ SockAdd st.sock evs st'.sock ∧
    FrameExit fe st st' k env x op

theorem readPayload_data_eq (env : Env) (h : Header) (st : St) (hB : 0 ≤ st.sock.config.readBufferSize) :
    readPayload env h false st =
      P.bind (runPayloadLoop env h false)
        (fun acc => P.bind (endMarker env h false) fun _ => Pure.pure acc) st := by
  unfold readPayload
  rw [if_neg (by simp)]
  show (if _ then _ else _ : P St (List UInt8)) st = _
  rw [if_neg (by omega)]
  rfl

theorem readPayload_short_eq (env : Env) (h : Header) (st : St) (hB : 0 ≤ st.sock.config.readBufferSize)
    (hl : ¬ h.payloadLength > 125) :
    readPayload env h true st =
      readPayloadLoop env h true st.sock.config.readBufferSize.toNat st.inp.sched st.inp.bytes st.sock 0 [] := by
  unfold readPayload
  rw [if_neg (by simp [hl])]
  show (if _ then _ else _ : P St (List UInt8)) st = _
  rw [if_neg (by omega)]
  show P.bind _ _ st = _
  rw [P.bind_apply, runPayloadLoop]
  rcases readPayloadLoop env h true st.sock.config.readBufferSize.toNat st.inp.sched st.inp.bytes st.sock 0 []
    with ⟨(_ | _ | _ | _), s'⟩ <;> rfl

/-- The state after `checkForContinuation` accepted, or as it is (continuation frame). -/
theorem dataFrame_handles (env : Env) (ht : env.Tame) (hd : Hdr) (h : Header) (hh : HdrOf hd h) (st : St) (B : Nat)
    (hB : 0 < B) (hs : st.sock.config.readBufferSize = B) (o : Bool)
    (hdata : isDataOpcode hd.opcode) (hmay : mayStart o hd.opcode) (last : Int)
    (hopen : OpenIs (openAfter o hd) last) :
    Handles env B st (fun bs ds fe => ∀ all, parseHdr all = some (hd, bs) → OneFrame o all ds fe)
      (P.bind (readPayload env h false) (fun _ => Pure.pure ()) { st with sock := { st.sock with lastOpcode := last } })
      (fun _ => none) := by
  rw [P.bind_apply, readPayload_data_eq _ _ _ (by simp only []; omega), P.bind_apply, runPayloadLoop]
  simp only []
  rw [show st.sock.config.readBufferSize.toNat = B by omega]
  obtain ⟨k, chunks, x, s', sc, h1, h2, h3, h4, h5, h6, h7, h8⟩ :=
    loop_data env ht h _ rfl B hB st.inp.sched st.inp.bytes { st.sock with lastOpcode := last } hs 0 (by omega) []
  have hzero : ((0 : Nat) : Int) = (0 : Int) := rfl
  rw [hzero] at h5
  rw [h5]
  rw [decodeFrom_zero, hh.key] at h4
  have hN := effectiveLen_eq hh
  have h6' : SockAdd st.sock (chunkEvents st.sock.listener h.opcode chunks) s' := by
    have := h6.sockAdd
    exact ⟨this.config, this.listener, this.trace, this.listening, this.written⟩
  have hlen : (st.inp.bytes.take k).length = k := by rw [List.length_take]; omega
  have hr : RendersFor st.sock.listener B (chunkEvents st.sock.listener h.opcode chunks)
      [.data hd.opcode (applyKey? hd.maskKey (st.inp.bytes.take k))] := by
    have := RendersFor.data (l? := st.sock.listener) (op := h.opcode) h3 (RendersFor.nil _ _)
    rw [List.append_nil, h4, hh.opcode] at this
    exact this
  rcases h8 with ⟨rfl, hk, hheal⟩ | ⟨hk, hst⟩ | ⟨hk, hx, hret⟩
  · -- whole payload read
    simp only []
    have hl : (⟨s', ⟨st.inp.bytes.drop k, sc⟩⟩ : St).sock.lastOpcode = last := h6.lastOpcode
    by_cases hfin : h.fin = true
    · -- end marker
      have he : endMarker env h false = liftSock (callListener env fun l => .readMessage l h.opcode []) := by
        unfold endMarker; rw [if_pos (by simp [hfin])]
      rw [he, P.bind_apply, liftSock]
      obtain ⟨x, s2, hcall, hk2, hx⟩ := callListener_kept env ht (fun l => .readMessage l h.opcode []) s'
      rw [hcall]
      have hk2' : KeptAdd s' (s'.listener.map fun l => Event.readMessage l h.opcode []).toList s2 := hk2
      have hlis : s'.listener = st.sock.listener := h6.listener
      rw [hlis] at hk2'
      have hr2 : RendersFor st.sock.listener B (chunkEvents st.sock.listener h.opcode chunks
          ++ (st.sock.listener.map fun l => Event.readMessage l h.opcode []).toList)
          [.data hd.opcode (applyKey? hd.maskKey (st.inp.bytes.take k)), .endOfMessage hd.opcode] := by
        refine RendersFor.append (d1 := [_]) (d2 := [_]) hr ?_
        rw [← hh.opcode]
        cases st.sock.listener with
        | none => rfl
        | some l => exact Renders.endOfMessage Renders.nil
      have hadd := h6'.trans hk2'.sockAdd
      have hfin' : hd.fin = true := by rw [← hh.fin]; exact hfin
      cases x with
      | ret u =>
        refine ⟨k, _, .next (openAfter o hd), _, ⟨s2, ⟨st.inp.bytes.drop k, sc⟩⟩, .ret (), h2, rfl, rfl, h7,
          fun all hp => ?_, hr2, hadd, ⟨⟨(), rfl, by simp⟩, ?_, ?_⟩⟩
        · have := OneFrame.data (isOpen := o) hp hdata hmay (by rw [hN, hlen]; exact hk)
          rw [hfin'] at this
          exact this
        · show OpenIs _ s2.lastOpcode
          rw [hk2'.lastOpcode, h6.lastOpcode]
          exact hopen
        · intro j hj
          exact (hheal j hj).mono (by simp)
      | throw e =>
        refine ⟨k, _, .over .interrupted, _, ⟨s2, ⟨st.inp.bytes.drop k, sc⟩⟩, .throw e, h2, rfl, rfl, h7,
          fun all hp => ?_, hr2, hadd, ⟨by simp, by rw [← hlis]; exact hx (by simp)⟩⟩
        exact OneFrame.interruptedEnd hp hdata hmay (by rw [hN, hlen]; exact hk) hfin'
      | block =>
        refine ⟨k, _, .over .interrupted, _, ⟨s2, ⟨st.inp.bytes.drop k, sc⟩⟩, .block, h2, rfl, rfl, h7,
          fun all hp => ?_, hr2, hadd, ⟨by simp, by rw [← hlis]; exact hx (by simp)⟩⟩
        exact OneFrame.interruptedEnd hp hdata hmay (by rw [hN, hlen]; exact hk) hfin'
      | ub u =>
        refine ⟨k, _, .over .interrupted, _, ⟨s2, ⟨st.inp.bytes.drop k, sc⟩⟩, .ub u, h2, rfl, rfl, h7,
          fun all hp => ?_, hr2, hadd, ⟨by simp, by rw [← hlis]; exact hx (by simp)⟩⟩
        exact OneFrame.interruptedEnd hp hdata hmay (by rw [hN, hlen]; exact hk) hfin'
    · have he : endMarker env h false = Pure.pure () := by
        unfold endMarker; rw [if_neg (by simp [hfin])]
      rw [he]
      refine ⟨k, _, .next (openAfter o hd), _, ⟨s', ⟨st.inp.bytes.drop k, sc⟩⟩, .ret (), h2, rfl, rfl, h7,
        fun all hp => ?_, hr, h6', ⟨⟨(), rfl, by simp⟩, ?_, ?_⟩⟩
      · have := OneFrame.data (isOpen := o) hp hdata hmay (by rw [hN, hlen]; exact hk)
        have hfin' : hd.fin = false := by rw [← hh.fin]; simpa using hfin
        rw [hfin'] at this
        exact this
      · show OpenIs _ s'.lastOpcode
        rw [h6.lastOpcode]
        exact hopen
      · intro j hj
        exact (hheal j hj).mono (by simp)
  · have hspec : ∀ all, parseHdr all = some (hd, st.inp.bytes.take k) →
        OneFrame o all [.data hd.opcode (applyKey? hd.maskKey (st.inp.bytes.take k))] (.over .incomplete) :=
      fun all hp => OneFrame.cutData hp hdata hmay (by rw [hN, hlen]; omega)
    rcases hst.exit with ⟨rfl, hb⟩ | rfl
    · exact ⟨k, _, .over .incomplete, _, ⟨s', ⟨st.inp.bytes.drop k, sc⟩⟩, .block, h2, rfl, rfl, h7, hspec, hr, h6',
        .inl ⟨rfl, hb⟩, hst.all⟩
    · exact ⟨k, _, .over .incomplete, _, ⟨s', ⟨st.inp.bytes.drop k, sc⟩⟩, .throw .connectionState, h2, rfl, rfl, h7,
        hspec, hr, h6', .inr ⟨.connectionState, trivial, rfl⟩, hst.all⟩
  · have hspec : ∀ all, parseHdr all = some (hd, st.inp.bytes.take k) →
        OneFrame o all [.data hd.opcode (applyKey? hd.maskKey (st.inp.bytes.take k))] (.over .interrupted) :=
      fun all hp => OneFrame.interruptedData hp hdata hmay (by rw [hlen]; exact hk) (by rw [hN, hlen]; omega)
    cases x with
    | ret a => exact absurd rfl (hx a)
    | throw e =>
      exact ⟨k, _, .over .interrupted, _, ⟨s', ⟨st.inp.bytes.drop k, sc⟩⟩, .throw e, h2, rfl, rfl, h7, hspec, hr, h6',
        by simp, hret⟩
    | block =>
      exact ⟨k, _, .over .interrupted, _, ⟨s', ⟨st.inp.bytes.drop k, sc⟩⟩, .block, h2, rfl, rfl, h7, hspec, hr, h6',
        by simp, hret⟩
    | ub u =>
      exact ⟨k, _, .over .interrupted, _, ⟨s', ⟨st.inp.bytes.drop k, sc⟩⟩, .ub u, h2, rfl, rfl, h7, hspec, hr, h6',
        by simp, hret⟩

/-- A control frame: collect the payload, then one callback. -/
theorem controlFrame_handles (env : Env) (ht : env.Tame) (hd : Hdr) (h : Header) (hh : HdrOf hd h) (st : St) (B : Nat)
    (hB : 0 < B) (hs : st.sock.config.readBufferSize = B) (o : Bool) (ho : OpenIs o st.sock.lastOpcode)
    (hc : isControlOpcode hd.opcode) (mk : List UInt8 → Nat → Event)
    (hmk : ∀ p l, Renders l B [mk p l] [controlDelivery hd.opcode p]) :
    Handles env B st (fun bs ds fe => ∀ all, parseHdr all = some (hd, bs) → OneFrame o all ds fe)
      (P.bind (readPayload env h true) (fun data => liftSock (callListener env (mk data))) st)
      (fun _ => if hd.opcode = 8 then some OPCODE_CLOSE else none) := by
  rw [P.bind_apply]
  have hN := effectiveLen_eq hh
  by_cases hl : h.payloadLength > 125
  · have e : readPayload env h true st = (.throw .controlTooLong, st) := by
      unfold readPayload
      rw [if_pos (by simp [hl])]
      rfl
    rw [e]
    refine ⟨0, [], .over .badControl, [], st, .throw .controlTooLong, by omega, rfl, by simp, by omega,
      fun all hp => ?_, RendersFor.nil _ _, (KeptAdd.refl _).sockAdd, rfl⟩
    exact OneFrame.badControl hp hc ((tooLong_iff hh).mp hl)
  · have hl' : effectiveLen hd.len ≤ 125 := by
      have := fun h => hl ((tooLong_iff hh).mpr h)
      omega
    rw [readPayload_short_eq _ _ _ (by omega) hl, show st.sock.config.readBufferSize.toNat = B by omega]
    obtain ⟨k, x, sc, h1, h2, h3, h4, h5⟩ := loop_short env h _ rfl B hB st.inp.sched st.inp.bytes st.sock hs 0 (by omega) []
    have hzero : ((0 : Nat) : Int) = (0 : Int) := rfl
    rw [hzero] at h3
    rw [h3]
    have hlen : (st.inp.bytes.take k).length = k := by rw [List.length_take]; omega
    rcases h5 with ⟨rfl, hk, hheal⟩ | ⟨hk, hst⟩
    · rw [decodeFrom_zero, hh.key, List.nil_append]
      simp only []
      generalize hp : applyKey? hd.maskKey (st.inp.bytes.take k) = p
      rw [liftSock]
      obtain ⟨x, s2, hcall, hk2, hx⟩ := callListener_kept env ht (mk p) st.sock
      rw [hcall]
      have hk2' : KeptAdd st.sock (st.sock.listener.map (mk p)).toList s2 := hk2
      have hr : RendersFor st.sock.listener B (st.sock.listener.map (mk p)).toList [controlDelivery hd.opcode p] := by
        cases st.sock.listener with
        | none => rfl
        | some l => exact hmk p l
      have hkl : (st.inp.bytes.take k).length = effectiveLen hd.len := by rw [hN, hlen]; exact hk
      have hint : ∀ all, parseHdr all = some (hd, st.inp.bytes.take k) →
          OneFrame o all [controlDelivery hd.opcode p] (.over .interrupted) := fun all hp' => by
        rw [← hp]; exact OneFrame.interruptedControl hp' hc hl' hkl
      cases x with
      | ret u =>
        by_cases h8 : hd.opcode = 8
        · refine ⟨k, _, .over .closed, _, ⟨s2, ⟨st.inp.bytes.drop k, sc⟩⟩, .ret (), h2, rfl, rfl, h4,
            fun all hp' => ?_, hr, hk2'.sockAdd, ⟨⟨(), rfl, ?_⟩, hk2'.lastOpcode⟩⟩
          · rw [← hp]; exact OneFrame.close hp' h8 hl' hkl
          · rw [if_pos h8]; exact .inr rfl
        · refine ⟨k, _, .next o, _, ⟨s2, ⟨st.inp.bytes.drop k, sc⟩⟩, .ret (), h2, rfl, rfl, h4,
            fun all hp' => ?_, hr, hk2'.sockAdd, ⟨⟨(), rfl, by rw [if_neg h8]; simp⟩, ?_, ?_⟩⟩
          · rw [← hp]; exact OneFrame.pingPong hp' (by unfold isControlOpcode at hc; omega) hl' hkl
          · show OpenIs o s2.lastOpcode
            rw [hk2'.lastOpcode]; exact ho
          · intro j hj
            exact (hheal j hj).mono (by simp)
      | throw e =>
        exact ⟨k, _, .over .interrupted, _, ⟨s2, ⟨st.inp.bytes.drop k, sc⟩⟩, .throw e, h2, rfl, rfl, h4, hint, hr,
          hk2'.sockAdd, by simp, hx (by simp)⟩
      | block =>
        exact ⟨k, _, .over .interrupted, _, ⟨s2, ⟨st.inp.bytes.drop k, sc⟩⟩, .block, h2, rfl, rfl, h4, hint, hr,
          hk2'.sockAdd, by simp, hx (by simp)⟩
      | ub u =>
        exact ⟨k, _, .over .interrupted, _, ⟨s2, ⟨st.inp.bytes.drop k, sc⟩⟩, .ub u, h2, rfl, rfl, h4, hint, hr,
          hk2'.sockAdd, by simp, hx (by simp)⟩
    · have hspec : ∀ all, parseHdr all = some (hd, st.inp.bytes.take k) → OneFrame o all [] (.over .incomplete) :=
        fun all hp => OneFrame.cutControl hp hc hl' (by rw [hN, hlen]; omega)
      rcases hst.exit with ⟨rfl, hb⟩ | rfl
      · exact ⟨k, _, .over .incomplete, [], ⟨st.sock, ⟨st.inp.bytes.drop k, sc⟩⟩, .block, h2, rfl, rfl, h4, hspec,
          RendersFor.nil _ _, (KeptAdd.refl _).sockAdd, .inl ⟨rfl, hb⟩, hst.all⟩
      · exact ⟨k, _, .over .incomplete, [], ⟨st.sock, ⟨st.inp.bytes.drop k, sc⟩⟩, .throw .connectionState, h2, rfl, rfl,
          h4, hspec, RendersFor.nil _ _, (KeptAdd.refl _).sockAdd, .inr ⟨.connectionState, trivial, rfl⟩, hst.all⟩

theorem closeArgs_eq (env : Env) (p : List UInt8) : controlDelivery 8 p
    = .close (closeArgs env p).1.toNat (closeArgs env p).2 := by
  unfold controlDelivery closeArgs
  match p with
  | [] => rfl
  | [_] => rfl
  | b0 :: b1 :: rest =>
    simp [fromBigEndian, hton16_load16]

theorem handleFrame_handles (env : Env) (ht : env.Tame) (hd : Hdr) (h : Header) (hh : HdrOf hd h) (st : St) (B : Nat)
    (hB : 0 < B) (hs : st.sock.config.readBufferSize = B) (o : Bool) (ho : OpenIs o st.sock.lastOpcode) :
    Handles env B st (fun bs ds fe => ∀ all, parseHdr all = some (hd, bs) → OneFrame o all ds fe)
      (handleFrame env h st) (fun _ => if hd.opcode = 8 then some OPCODE_CLOSE else none) := by
  have hop : ∀ c : UInt8, h.opcode = c ↔ hd.opcode = c.toNat := fun c => by
    rw [← hh.opcode]; exact ⟨fun e => by rw [e], fun e => UInt8.toNat_inj.mp e⟩
  have hweak : ∀ r, hd.opcode ≠ 8 → Handles env B st (fun bs ds fe => ∀ all, parseHdr all = some (hd, bs) →
      OneFrame o all ds fe) r (fun _ : Unit => none) → Handles env B st (fun bs ds fe => ∀ all,
      parseHdr all = some (hd, bs) → OneFrame o all ds fe) r
      (fun _ : Unit => if hd.opcode = 8 then some OPCODE_CLOSE else none) := by
    intro r h8 hr
    rw [if_neg h8]; exact hr
  have hrefuse : ∀ (r : Reason) (e : Err), (∀ all, parseHdr all = some (hd, []) → OneFrame o all [] (.over r)) →
      (∀ k, FrameExit (.over r) st st k env (.throw e : Exit Unit)
        (fun _ => if hd.opcode = 8 then some OPCODE_CLOSE else none)) →
      Handles env B st (fun bs ds fe => ∀ all, parseHdr all = some (hd, bs) → OneFrame o all ds fe)
        (.throw e, st) (fun _ : Unit => if hd.opcode = 8 then some OPCODE_CLOSE else none) := by
    intro r e h1 h2
    exact ⟨0, [], .over r, [], st, .throw e, by omega, rfl, by simp, by omega, h1, RendersFor.nil _ _,
      (KeptAdd.refl _).sockAdd, h2 0⟩
  unfold handleFrame
  by_cases c0 : h.opcode = OPCODE_CONTINUATION
  · rw [if_pos c0]
    have d0 : hd.opcode = 0 := (hop _).mp c0
    show Handles env B st _ ((if st.sock.lastOpcode < 0 then _ else _ : P St Unit) st) _
    by_cases hlast : st.sock.lastOpcode < 0
    · rw [if_pos hlast]
      have hof : o = false := by
        cases o
        · rfl
        · simp only [OpenIs, if_true] at ho; omega
      exact hrefuse .badContinuation .continuationState (fun all hp => .badContinuation hp d0 hof) (fun _ => rfl)
    · rw [if_neg hlast]
      have hot : o = true := by
        cases o
        · exfalso; simp only [OpenIs] at ho; simp at ho; omega
        · rfl
      refine hweak _ (by omega) ?_
      have := dataFrame_handles env ht hd h hh st B hB hs o (.inl d0) (by unfold mayStart; rw [if_pos d0]; exact hot)
        st.sock.lastOpcode (by unfold openAfter; rw [if_pos d0]; exact ho)
      exact this
  · rw [if_neg c0]
    -- text and binary
    have hstart : hd.opcode = 1 ∨ hd.opcode = 2 →
        Handles env B st (fun bs ds fe => ∀ all, parseHdr all = some (hd, bs) → OneFrame o all ds fe)
          (P.bind (liftSock (checkForContinuation h)) (fun ok =>
            if ok = true then P.bind (readPayload env h false) (fun _ => Pure.pure ())
            else P.fail .continuationExpected) st)
          (fun _ => if hd.opcode = 8 then some OPCODE_CLOSE else none) := by
      intro d12
      rw [P.bind_apply, liftSock, checkForContinuation]
      have h1 : ((OPCODE_TEXT.toNat : Nat) : Int) = 1 := rfl
      have h2 : ((OPCODE_BINARY.toNat : Nat) : Int) = 2 := rfl
      rw [h1, h2]
      by_cases hl : st.sock.lastOpcode = 1 ∨ st.sock.lastOpcode = 2
      · rw [if_pos hl]
        have hot : o = true := by
          cases o
          · simp only [OpenIs] at ho; simp at ho; omega
          · rfl
        exact hrefuse .badStart .continuationExpected (fun all hp => .badStart hp d12 hot) (fun _ => rfl)
      · rw [if_neg hl]
        have hof : o = false := by
          cases o
          · rfl
          · simp only [OpenIs, if_true] at ho; exact absurd ho hl
        have hmay : mayStart o hd.opcode := by unfold mayStart; rw [if_neg (by omega)]; exact hof
        have hdat : isDataOpcode hd.opcode := by unfold isDataOpcode; omega
        refine hweak _ (by omega) ?_
        by_cases hf : h.fin = true
        · rw [if_pos hf]
          refine dataFrame_handles env ht hd h hh st B hB hs o hdat hmay (-1) ?_
          unfold openAfter
          rw [if_neg (by omega), ← hh.fin, hf]
          rfl
        · rw [if_neg hf]
          refine dataFrame_handles env ht hd h hh st B hB hs o hdat hmay h.opcode.toNat ?_
          unfold openAfter
          rw [if_neg (by omega), ← hh.fin]
          simp only [hf]
          have := hh.opcode
          simp [OpenIs]
          omega
    by_cases c1 : h.opcode = OPCODE_TEXT
    · rw [if_pos c1]; exact hstart (.inl ((hop _).mp c1))
    · rw [if_neg c1]
      by_cases c2 : h.opcode = OPCODE_BINARY
      · rw [if_pos c2]; exact hstart (.inr ((hop _).mp c2))
      · rw [if_neg c2]
        by_cases c8 : h.opcode = OPCODE_CLOSE
        · rw [if_pos c8]
          have d8 : hd.opcode = 8 := (hop _).mp c8
          exact controlFrame_handles env ht hd h hh st B hB hs o ho (.inl d8)
            (fun data l => .onClose l (closeArgs env data).1 (closeArgs env data).2)
            (fun p l => by rw [d8, closeArgs_eq env]; exact Renders.close Renders.nil)
        · rw [if_neg c8]
          by_cases c9 : h.opcode = OPCODE_PING
          · rw [if_pos c9]
            have d9 : hd.opcode = 9 := (hop _).mp c9
            exact controlFrame_handles env ht hd h hh st B hB hs o ho (.inr (.inl d9)) (fun data l => .onPing l data)
              (fun p l => by rw [d9]; exact Renders.ping Renders.nil)
          · rw [if_neg c9]
            by_cases c10 : h.opcode = OPCODE_PONG
            · rw [if_pos c10]
              have d10 : hd.opcode = 10 := (hop _).mp c10
              exact controlFrame_handles env ht hd h hh st B hB hs o ho (.inr (.inr d10)) (fun data l => .onPong l data)
                (fun p l => by rw [d10]; exact Renders.pong Renders.nil)
            · rw [if_neg c10]
              have e0 := fun h => c0 ((hop _).mpr h)
              have e1 := fun h => c1 ((hop _).mpr h)
              have e2 := fun h => c2 ((hop _).mpr h)
              have e8 := fun h => c8 ((hop _).mpr h)
              have e9 := fun h => c9 ((hop _).mpr h)
              have e10 := fun h => c10 ((hop _).mpr h)
              exact hrefuse .badOpcode .unknownFrame
                (fun all hp => .badOpcode hp (by rintro (h | h | h) <;> contradiction)
                  (by rintro (h | h | h) <;> contradiction)) (fun _ => rfl)

/-- One call of `iterateFrame`. -/
theorem iterateFrame_handles (env : Env) (ht : env.Tame) (h : Header) (st : St) (B : Nat)
    (hB : 0 < B) (hs : st.sock.config.readBufferSize = B) (o : Bool) (ho : OpenIs o st.sock.lastOpcode) :
    Handles env B st (OneFrame o) (iterateFrame env h st) (fun h => some h.opcode) := by
  have he : iterateFrame env h st = P.bind (readFrameHeader env h)
      (fun h => P.bind (handleFrame env h) fun _ => Pure.pure h) st := rfl
  rw [he, P.bind_apply]
  rcases (readFrameHeader_reads env h st).outcome with ⟨k, hd, h', sc, hk, e, hp, hh, hs1, hs2, hheal⟩ |
    ⟨k, x, sc, hk, hsl, e, hx, hp, hall⟩
  · rw [e]
    simp only []
    rw [P.bind_apply]
    obtain ⟨k', ds, fe, evs, st', x, g1, g2, g3, g4, g5, g6, g7, g8⟩ :=
      handleFrame_handles env ht hd h' hh (st.read k sc) B hB hs o ho
    simp only [St.read_bytes, St.read_sched, St.read_sock, List.length_drop] at g1 g3 g4 g5 g6 g7
    have hone : OneFrame o (st.inp.bytes.take (k + k')) ds fe := by
      rw [List.take_add]
      exact g5 _ (hp _)
    rw [g2]
    have hop8 : h'.opcode = OPCODE_CLOSE ↔ hd.opcode = 8 := by
      rw [← hh.opcode]; exact ⟨fun e => by rw [e]; rfl, fun e => UInt8.toNat_inj.mp e⟩
    have hb : st'.inp.bytes = st.inp.bytes.drop (k + k') := by rw [g3, List.drop_drop]
    cases fe with
    | next o' =>
      obtain ⟨⟨a, rfl, ha⟩, g9, g10⟩ := g8
      refine ⟨k + k', ds, .next o', evs, st', .ret h', by omega, rfl, hb, by omega, hone, g6, g7, ⟨⟨h', rfl, ?_⟩, g9, ?_⟩⟩
      · intro h8
        injection h8 with h8
        rw [hop8] at h8
        exact ha (by rw [if_pos h8])
      · intro j hj
        refine g10 j ?_
        simp only [St.read_bytes, St.read_sched, List.length_drop]
        exact hheal j hj
    | over r =>
      cases r with
      | closed =>
        obtain ⟨⟨a, rfl, ha⟩, g9⟩ := g8
        refine ⟨k + k', ds, .over .closed, evs, st', .ret h', by omega, rfl, hb, by omega, hone, g6, g7, ⟨⟨h', rfl, ?_⟩, g9⟩⟩
        right
        by_cases h8 : hd.opcode = 8
        · exact congrArg some (hop8.mpr h8)
        · exfalso
          cases hone with
          | close hp' h8' => 
            have := hp (List.take k' (st.inp.bytes.drop k))
            rw [← List.take_add, hp'] at this
            injection this with this
            injection this with this
            rw [this] at h8'
            exact h8 h8'
      | stopped => exact absurd g8 (by simp [FrameExit])
      | incomplete =>
        obtain ⟨hx, hall⟩ := g8
        simp only [St.read_bytes, St.read_sched, List.length_drop] at hx hall
        have hall' : Healthy st.inp.bytes.length st.inp.sched → k + k' = st.inp.bytes.length := by
          intro hj
          have := hall (hheal 0 hj)
          omega
        rcases hx with ⟨rfl, hnb⟩ | ⟨er, her, rfl⟩
        · exact ⟨k + k', ds, .over .incomplete, evs, st', .block, by omega, rfl, hb, by omega, hone, g6, g7,
            .inl ⟨rfl, fun hj => hnb (hheal 1 hj)⟩, hall'⟩
        · exact ⟨k + k', ds, .over .incomplete, evs, st', .throw er, by omega, rfl, hb, by omega, hone, g6, g7,
            .inr ⟨er, her, rfl⟩, hall'⟩
      | badControl => 
        cases g8
        exact ⟨k + k', ds, .over .badControl, evs, st', _, by omega, rfl, hb, by omega, hone, g6, g7, rfl⟩
      | badContinuation =>
        cases g8
        exact ⟨k + k', ds, .over .badContinuation, evs, st', _, by omega, rfl, hb, by omega, hone, g6, g7, rfl⟩
      | badStart =>
        cases g8
        exact ⟨k + k', ds, .over .badStart, evs, st', _, by omega, rfl, hb, by omega, hone, g6, g7, rfl⟩
      | badOpcode =>
        cases g8
        exact ⟨k + k', ds, .over .badOpcode, evs, st', _, by omega, rfl, hb, by omega, hone, g6, g7, rfl⟩
      | interrupted =>
        obtain ⟨hx, hl, hr⟩ := g8
        cases x with
        | ret a => exact absurd rfl (hx a)
        | throw er => exact ⟨k + k', ds, .over .interrupted, evs, st', .throw er, by omega, rfl, hb, by omega, hone, g6, g7,
            by simp, hl, hr⟩
        | block => exact ⟨k + k', ds, .over .interrupted, evs, st', .block, by omega, rfl, hb, by omega, hone, g6, g7,
            by simp, hl, hr⟩
        | ub u => exact ⟨k + k', ds, .over .interrupted, evs, st', .ub u, by omega, rfl, hb, by omega, hone, g6, g7,
            by simp, hl, hr⟩
  · rw [e]
    have hone := OneFrame.noHeader (isOpen := o) hp
    rcases hx with ⟨rfl, hx⟩ | ⟨er, her, rfl⟩
    · exact ⟨k, [], .over .incomplete, [], st.read k sc, .block, hk, rfl, rfl, hsl, hone, RendersFor.nil _ _,
        (KeptAdd.refl _).sockAdd, .inl ⟨rfl, hx⟩, hall⟩
    · exact ⟨k, [], .over .incomplete, [], st.read k sc, .throw er, hk, rfl, rfl, hsl, hone, RendersFor.nil _ _,
        (KeptAdd.refl _).sockAdd, .inr ⟨er, her, rfl⟩, hall⟩

end OatWS
