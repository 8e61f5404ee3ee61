import Verif.Proofs.AsyncListen
/-! Listening with other tasks active: the steps. -/

namespace OatWS.Async
open RFC6455

variable {env : Env} {S : Settings} {o0 : Bool} {w0 : World}

theorem step_idle {l w fb ds evs o} (h1 : Past S o0 w0 fb ds evs o [] [] w) (h2 : OpenIs o w.st.sock.lastOpcode)
    (h3 : l.hdr.opcode ≠ OPCODE_CLOSE) : LOk env S o0 w0 (step env ⟨[.listen], l⟩ w) := by
  rw [step_cons]
  simp only [coStep, listenStep, if_pos h3, after]
  exact LAt.head h1 h2 (.act (by simp)) h1.sets.1

theorem step_closed {l w fb ds evs o cur fe d} (h1 : Past S o0 w0 fb ds evs o cur fe w) (h2 : OneFrame o cur d (.over .closed))
    (h3 : RendersMix S (evs ++ fe) (ds ++ d)) (h4 : l.hdr.opcode = OPCODE_CLOSE) : LOk env S o0 w0 (step env ⟨[.listen], l⟩ w) := by
  rw [step_cons]
  have : ¬ l.hdr.opcode ≠ OPCODE_CLOSE := fun h => h h4
  simp only [coStep, listenStep, if_neg this, after]
  exact h1.told h2 h3 rfl

theorem step_head {l w fb ds evs o cur c hl} (h1 : Past S o0 w0 fb ds evs o cur [] w) (h2 : OpenIs o w.st.sock.lastOpcode)
    (h3 : HeadAt env cur c l.hdr) (h4 : S.listener hl) :
    LOk env S o0 w0 (step env ⟨[.readFrame c, .handleFrame ⟨.act, hl⟩, .listen], l⟩ w) := by
  rw [step_cons]
  obtain ⟨nb, i, h', a, e1, e2, e3⟩ := head_step env h3 w
  rw [e2]
  have hp := h1.read e1 (w' := w.setInp i) rfl
  cases e3 with
  | more e => exact LAt.head hp h2 e h4
  | done e => exact LAt.handle hp h2 e h4
  | error e =>
    obtain ⟨w', e4, e5⟩ := after_error .io (.readFrame c) [.handleFrame ⟨.act, hl⟩, .listen] (noUser_handle _) { l with hdr := h' } (w.setInp i)
    rw [e4]
    exact .inl ⟨.incomplete, .inl rfl, hp.told_nil (.noHeader e) e5⟩
  | blocked e => exact .inl (hp.told_nil (.noHeader e) rfl)

theorem isControl_cases {op : Nat} (h : isControlOpcode op) : op = 8 ∨ op = 9 ∨ op = 10 := h

/-- `startPayload` for a data frame. -/
theorem after_data {l w fb ds evs o hb hd hl s} (h1 : Past S o0 w0 fb ds evs o hb [] w)
    (h3 : HeadDone hb hd l.hdr) (hdata : isDataOpcode hd.opcode) (hmay : mayStart o hd.opcode)
    (hopen : OpenIs (openAfter o hd) s) :
    LOk env S o0 w0 (after (.handleFrame ⟨.act, hl⟩) [.listen]
      (startPayload ⟨.act, hl⟩ false .done l (w.setSock { w.st.sock with lastOpcode := s }))) := by
  unfold startPayload readPayloadAsync
  rw [if_neg (by simp)]
  by_cases hneg : w.st.sock.config.readBufferSize < 0
  · have hneg' : (w.setSock { w.st.sock with lastOpcode := s }).st.sock.config.readBufferSize < 0 := hneg
    rw [if_pos hneg']
    obtain ⟨w', e4, e5⟩ := after_error (.thrown .badAlloc) (.handleFrame ⟨.act, hl⟩) [.listen] noUser_listen l
      (w.setSock { w.st.sock with lastOpcode := s })
    simp only [e4]
    exact .inr ⟨rfl, _, hneg, h1.sets.2⟩
  · have hneg' : ¬ (w.setSock { w.st.sock with lastOpcode := s }).st.sock.config.readBufferSize < 0 := hneg
    rw [if_neg hneg']
    have hp : ∀ to, Past S o0 w0 fb ds evs o (hb ++ []) (chunkEvents to l.hdr.opcode [] ++ []) w := by
      intro to
      rw [List.append_nil, List.append_nil]
      have : chunkEvents to l.hdr.opcode [] = [] := by cases to <;> rfl
      rw [this]
      exact h1
    refine LAt.data (ss := []) (pb := []) (chunks := []) ⟨h1.frames, h1.mix, (hp none).bytes, (hp _).trace, h1.sets⟩ h3 hdata hmay hopen (by simp)
      h1.sets.1 h1.sets.2 rfl (by simp) ?_
    refine .act (by simp) ?_ (by simp)
    have : ([] : List UInt8).length = (decodeFrom hd.maskKey 0 []).length := by rw [decodeFrom_length]
    exact (List.eq_nil_of_length_eq_zero this.symm).symm

/-- `startPayload` for a control frame. -/
theorem after_short {l : Local} {w fb ds evs o hb hd hl} (h1 : Past S o0 w0 fb ds evs o hb [] w) (h2 : OpenIs o w.st.sock.lastOpcode)
    (h3 : HeadDone hb hd l.hdr) (hc : isControlOpcode hd.opcode) (h4 : S.listener hl) :
    LOk env S o0 w0 (after (.handleFrame ⟨.act, hl⟩) [.listen]
      (startPayload ⟨.act, hl⟩ true (controlPc hd.opcode) { l with short := [] } w)) := by
  unfold startPayload readPayloadAsync
  by_cases hlong : l.hdr.payloadLength > 125
  · rw [if_pos ⟨rfl, hlong⟩]
    obtain ⟨w', e4, e5⟩ := after_error (.thrown .controlTooLong) (.handleFrame ⟨.act, hl⟩) [.listen] noUser_listen { l with short := [] } w
    simp only [e4]
    refine .inl ⟨.badControl, rfl, h1.told_nil (.badControl (h := hd) ?_ hc ((tooLong_iff h3.2).mp hlong)) e5⟩
    have := h3.1 []
    rwa [List.append_nil] at this
  · rw [if_neg (fun h => hlong h.2)]
    by_cases hneg : w.st.sock.config.readBufferSize < 0
    · rw [if_pos hneg]
      obtain ⟨w', e4, e5⟩ := after_error (.thrown .badAlloc) (.handleFrame ⟨.act, hl⟩) [.listen] noUser_listen { l with short := [] } w
      simp only [e4]
      exact .inr ⟨rfl, _, hneg, h1.sets.2⟩
    · rw [if_neg hneg]
      have hp : Past S o0 w0 fb ds evs o (hb ++ []) [] w := by rw [List.append_nil]; exact h1
      refine LAt.short (pb := []) (hp.st rfl) h2 h3 hc (by simp only []; omega) h4 ?_
      refine .act (by simp) ?_
      have : ([] : List UInt8).length = (decodeFrom hd.maskKey 0 []).length := by rw [decodeFrom_length]
      exact (List.eq_nil_of_length_eq_zero this.symm).symm

theorem opcode_eq {hd : Hdr} {h : Header} (hh : HdrOf hd h) (op : UInt8) : h.opcode = op ↔ hd.opcode = op.toNat := by
  rw [← hh.opcode]; exact UInt8.toNat_inj.symm

theorem step_handle {l w fb ds evs o hb hd hl} (h1 : Past S o0 w0 fb ds evs o hb [] w) (h2 : OpenIs o w.st.sock.lastOpcode)
    (h3 : HeadDone hb hd l.hdr) (h4 : S.listener hl) :
    LOk env S o0 w0 (step env ⟨[.handleFrame ⟨.act, hl⟩, .listen], l⟩ w) := by
  rw [step_cons]
  have hop := opcode_eq h3.2
  have hall : parseHdr hb = some (hd, []) := by have := h3.1 []; rwa [List.append_nil] at this
  have herr : ∀ e r (l' : Local), FailsLike r e → OneFrame o hb [] (.over r) →
      LOk env S o0 w0 (after (.handleFrame ⟨.act, hl⟩) [.listen] (.error e, l', w)) := by
    intro e r l' hf hr
    obtain ⟨w', e4, e5⟩ := after_error e (.handleFrame ⟨.act, hl⟩) [.listen] noUser_listen l' w
    rw [e4]
    exact .inl ⟨r, hf, h1.told_nil hr e5⟩
  have hself : w.setSock { w.st.sock with lastOpcode := w.st.sock.lastOpcode } = w := rfl
  have hstart : ∀ op : UInt8, (op.toNat = 1 ∨ op.toNat = 2) → l.hdr.opcode = op →
      LOk env S o0 w0 (after (.handleFrame ⟨.act, hl⟩) [.listen] (startData ⟨.act, hl⟩ l w)) := by
    intro op hv e
    have hv' : hd.opcode = 1 ∨ hd.opcode = 2 := by rw [(hop op).mp e]; exact hv
    unfold startData checkForContinuationA
    by_cases hlast : w.st.sock.lastOpcode = OPCODE_TEXT.toNat ∨ w.st.sock.lastOpcode = OPCODE_BINARY.toNat
    · rw [if_pos hlast]
      have ho : o = true := by
        cases o with
        | true => rfl
        | false =>
          have h2' : w.st.sock.lastOpcode = -1 := h2
          rw [h2'] at hlast
          rcases hlast with h | h <;> simp [OPCODE_TEXT, OPCODE_BINARY] at h
      exact herr _ .badStart _ rfl (.badStart hall hv' ho)
    · rw [if_neg hlast]
      have ho : o = false := by
        cases o with
        | false => rfl
        | true => exact absurd h2 hlast
      have hmay : mayStart o hd.opcode := by unfold mayStart; rw [if_neg (by omega)]; exact ho
      have hafter : openAfter o hd = !hd.fin := by unfold openAfter; rw [if_neg (by omega)]
      by_cases hfin : l.hdr.fin = true
      · rw [if_pos hfin]
        refine after_data h1 h3 (.inr hv') hmay ?_
        rw [hafter, ← h3.2.fin, hfin]
        rfl
      · rw [if_neg hfin]
        have hfin' : hd.fin = false := by rw [← h3.2.fin]; simpa using hfin
        refine after_data h1 h3 (.inr hv') hmay ?_
        rw [hafter, hfin', h3.2.opcode]
        show _ = _ ∨ _ = _
        rcases hv' with h | h <;> rw [h] <;> simp
  simp only [coStep, handleFrameStep]
  by_cases c0 : l.hdr.opcode = OPCODE_CONTINUATION
  · rw [if_pos c0]
    have h0 : hd.opcode = 0 := (hop _).mp c0
    by_cases hlast : w.st.sock.lastOpcode < 0
    · rw [if_pos hlast]
      have ho : o = false := by
        cases o with
        | false => rfl
        | true => rcases h2 with h | h <;> rw [h] at hlast <;> simp at hlast
      exact herr _ .badContinuation _ rfl (.badContinuation hall h0 ho)
    · rw [if_neg hlast]
      have ho : o = true := by
        cases o with
        | true => rfl
        | false =>
          have h2' : w.st.sock.lastOpcode = -1 := h2
          rw [h2'] at hlast
          simp at hlast
      have := after_data (env := env) (hl := hl) (s := w.st.sock.lastOpcode) h1 h3 (.inl h0)
        (by unfold mayStart; rw [if_pos h0]; exact ho) (by unfold openAfter; rw [if_pos h0]; exact h2)
      rwa [hself] at this
  rw [if_neg c0]
  by_cases c1 : l.hdr.opcode = OPCODE_TEXT
  · rw [if_pos c1]; exact hstart OPCODE_TEXT (.inl rfl) c1
  rw [if_neg c1]
  by_cases c2 : l.hdr.opcode = OPCODE_BINARY
  · rw [if_pos c2]; exact hstart OPCODE_BINARY (.inr rfl) c2
  rw [if_neg c2]
  by_cases c8 : l.hdr.opcode = OPCODE_CLOSE
  · rw [if_pos c8]
    have h8 : hd.opcode = 8 := (hop _).mp c8
    have := after_short (env := env) h1 h2 h3 (.inl h8) h4
    rwa [show controlPc hd.opcode = .onClose by rw [h8]; rfl] at this
  rw [if_neg c8]
  by_cases c9 : l.hdr.opcode = OPCODE_PING
  · rw [if_pos c9]
    have h9 : hd.opcode = 9 := (hop _).mp c9
    have := after_short (env := env) h1 h2 h3 (.inr (.inl h9)) h4
    rwa [show controlPc hd.opcode = .onPing by rw [h9]; rfl] at this
  rw [if_neg c9]
  by_cases c10 : l.hdr.opcode = OPCODE_PONG
  · rw [if_pos c10]
    have h10 : hd.opcode = 10 := (hop _).mp c10
    have := after_short (env := env) h1 h2 h3 (.inr (.inr h10)) h4
    rwa [show controlPc hd.opcode = .onPong by rw [h10]; rfl] at this
  rw [if_neg c10]
  refine herr _ .badOpcode _ rfl (.badOpcode hall ?_ ?_)
  · rintro (h | h | h)
    · exact c0 ((hop _).mpr h)
    · exact c1 ((hop _).mpr h)
    · exact c2 ((hop _).mpr h)
  · rintro (h | h | h)
    · exact c8 ((hop _).mpr h)
    · exact c9 ((hop _).mpr h)
    · exact c10 ((hop _).mpr h)

end OatWS.Async
