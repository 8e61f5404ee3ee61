import Verif.Proofs.AsyncHeader
/-! Simulation of reading a payload. -/

namespace OatWS.Async

/-- `ReadPayloadCoroutine` at some function. -/
abbrev rp (pc : ReadPayloadPc) (to : Option Nat) (short : Bool) (cap buf : Nat) (progress want : Int) (got : List UInt8) : Co :=
  .readPayload ⟨pc, to, short, cap, buf, progress, want, got⟩

/-- The number of bytes wanted. -/
def wanted (h : Header) (s : Sock) (progress : Int) : Int :=
  if s.config.readBufferSize > h.payloadLength - progress then h.payloadLength - progress else s.config.readBufferSize

theorem Leads.back {env t w} : Leads env (Async.step env t w) (.run t, w) := fun _ _ h => runs_iff.mp h

/-- The loop. -/
theorem mirror_loop (env : Env) (hp : PlainListener env) (h : Header) (short : Bool) (cap buf : Nat) (to : Option Nat)
    (rest : List Co) (hr : NoCatch rest) (sched : List IoOutcome) :
    ∀ (bytes : List UInt8) (s : Sock) (progress want : Int) (got acc : List UInt8) (l : Local) (w : World),
      w.st = ⟨s, ⟨bytes, sched⟩⟩ → l.hdr = h → (short = true → l.short = acc) → s.listener = to → 0 < s.config.readBufferSize →
      Mirrors env (.run ⟨rp .act to short cap buf progress want got :: rest, l⟩, w)
        (readPayloadLoop env h short cap sched bytes s progress acc)
        (fun acc' st' => ∃ p' want' got' l' w', ¬ p' < h.payloadLength ∧
          Leads env (.run ⟨rp .act to short cap buf progress want got :: rest, l⟩, w)
            (.run ⟨rp .act to short cap buf p' want' got' :: rest, l'⟩, w') ∧
          w'.st = st' ∧ l'.hdr = h ∧ (short = true → l'.short = acc') ∧ Same s st'.sock) := by
  induction sched with
  | nil =>
    intro bytes s progress want got acc l w hw hh hacc hto hB
    unfold readPayloadLoop
    by_cases hlt : progress < h.payloadLength
    · rw [if_pos hlt]
      simp only []
      have hs : s = w.st.sock := by rw [hw]
      have hl : Leads env (.run ⟨rp .act to short cap buf progress want got :: rest, l⟩, w)
          (.run ⟨rp .readData to short cap buf progress (wanted h s progress) [] :: rest, l⟩, w) := by
        refine leads_co ?_
        simp only [coStep, readPayloadStep, hh, if_pos hlt, wanted, hs, after]
        exact Leads.refl
      have hpos : ¬ wanted h s progress ≤ 0 := by unfold wanted; split <;> omega
      refine ⟨w, hl _ _ (leads_co Leads.refl _ _ ?_), hw⟩
      simp only [coStep, readPayloadStep, if_neg hpos, hw, after]
      exact ⟨rfl, rfl⟩
    · rw [if_neg hlt]
      exact ⟨progress, want, got, l, w, hlt, Leads.refl, hw, hh, hacc, Same.refl _⟩
  | cons o sched ih =>
    intro bytes s progress want got acc l w hw hh hacc hto hB
    unfold readPayloadLoop
    by_cases hlt : progress < h.payloadLength
    case neg =>
      rw [if_neg hlt]
      exact ⟨progress, want, got, l, w, hlt, Leads.refl, hw, hh, hacc, Same.refl _⟩
    rw [if_pos hlt]
    simp only []
    have hs : s = w.st.sock := by rw [hw]
    have hl : Leads env (.run ⟨rp .act to short cap buf progress want got :: rest, l⟩, w)
        (.run ⟨rp .readData to short cap buf progress (wanted h s progress) [] :: rest, l⟩, w) := by
      refine leads_co ?_
      simp only [coStep, readPayloadStep, hh, if_pos hlt, wanted, hs, after]
      exact Leads.refl
    have hpos : ¬ wanted h s progress ≤ 0 := by unfold wanted; split <;> omega
    have hd : (if s.config.readBufferSize > h.payloadLength - progress then h.payloadLength - progress
        else s.config.readBufferSize) = wanted h s progress := rfl
    rw [hd, if_neg (by omega)]
    rcases hlr : lowRead o bytes (wanted h s progress).toNat with ⟨(bs | _ | _ | _), bytes'⟩ <;> simp only []
    · -- data
      have hne : bs ≠ [] := by
        obtain ⟨-, -, -, -, this, -⟩ := lowRead_data hlr
        intro e; rw [e] at this; simp at this
      by_cases hov : bs.length > cap
      · rw [if_pos hov]
        refine ⟨w.setInp ⟨bytes', sched⟩, hl _ _ (leads_co Leads.refl _ _ ?_), by rw [hs]; rfl⟩
        simp only [coStep, readPayloadStep, if_neg hpos, hw, hlr, if_pos hov, after]
        exact ⟨rfl, rfl⟩
      · rw [if_neg hov]
        -- the state after the read
        obtain ⟨w1, hw1⟩ : ∃ w1, w1 = (w.setInp ⟨bytes', sched⟩).store buf bs := ⟨_, rfl⟩
        have hw1st : w1.st = ⟨s, ⟨bytes', sched⟩⟩ := by rw [hw1, hs]; rfl
        have hl1 : Leads env (.run ⟨rp .act to short cap buf progress want got :: rest, l⟩, w)
            (.run ⟨rp .onDataRead to short cap buf progress (wanted h s progress) bs :: rest, l⟩, w1) := by
          refine hl.trans (leads_co ?_)
          simp only [coStep, readPayloadStep, if_neg hpos, hw, hlr, if_neg hov, after]
          rw [hw1]
          exact Leads.refl
        generalize hwant : wanted h s progress = want1 at hl1
        obtain ⟨chunk, hchunk⟩ : ∃ chunk, chunk = if h.hasMask = true then xorMask h.mask progress.toNat bs else bs := ⟨_, rfl⟩
        rw [← hchunk]
        cases short with
        | true =>
          rw [if_pos rfl]
          have hl2 : Leads env (.run ⟨rp .act to true cap buf progress want got :: rest, l⟩, w)
              (.run ⟨rp .act to true cap buf (progress + bs.length) want1 bs :: rest, { l with short := l.short ++ chunk }⟩, w1) := by
            refine hl1.trans (leads_co ?_)
            simp only [coStep, readPayloadStep, if_pos hne, hh]
            by_cases hm : h.hasMask = true
            · rw [if_pos hm] at hchunk; subst hchunk; simp only [if_pos hm, if_pos, after]; exact Leads.refl
            · rw [if_neg hm] at hchunk; subst hchunk; simp only [if_neg hm, if_pos, after]; exact Leads.refl
          refine Mirrors.leads hl2 (Mirrors.mono (ih bytes' s _ _ _ (acc ++ chunk) _ w1 hw1st hh (fun _ => by rw [hacc rfl]) hto hB) ?_)
          rintro acc' st' ⟨p', want', got', l', w', h1, h2, h3⟩
          exact ⟨p', want', got', l', w', h1, hl2.trans h2, h3⟩
        | false =>
          rw [if_neg (by simp)]
          cases to with
          | none =>
            have hc : callListener env (fun l => .readMessage l h.opcode chunk) s = (.ret (), s) := by
              unfold callListener; rw [hto]
            rw [hc]
            simp only []
            have hl2 : Leads env (.run ⟨rp .act none false cap buf progress want got :: rest, l⟩, w)
                (.run ⟨rp .act none false cap buf (progress + bs.length) want1 bs :: rest, l⟩, w1) := by
              refine hl1.trans (leads_co ?_)
              simp only [coStep, readPayloadStep, if_pos hne, hh]
              by_cases hm : h.hasMask = true
              · simp only [if_pos hm]; exact Leads.refl
              · simp only [if_neg hm]; exact Leads.refl
            refine Mirrors.leads hl2 (Mirrors.mono (ih bytes' s _ _ _ acc _ w1 hw1st hh nofun hto hB) ?_)
            rintro acc' st' ⟨p', want', got', l', w', h1, h2, h3⟩
            exact ⟨p', want', got', l', w', h1, hl2.trans h2, h3⟩
          | some t =>
            -- the callback
            have hcb : ∃ ptr wc w2, wc.st = w1.st ∧ w2.st = (callback env (.readMessage t h.opcode chunk) ptr chunk wc).2.st ∧
                Leads env (.run ⟨rp .act (some t) false cap buf progress want got :: rest, l⟩, w)
                (.run ⟨(callback env (.readMessage t h.opcode chunk) ptr chunk wc).1 ::
                  rp .act (some t) false cap buf (progress + bs.length) want1 bs :: rest, l⟩, w2) := by
              by_cases hm : h.hasMask = true
              · rw [if_pos hm] at hchunk
                subst hchunk
                refine ⟨some w1.nextBuf, (w1.alloc (xorMask h.mask progress.toNat bs)).2, World.free (callback env (.readMessage t h.opcode (xorMask h.mask progress.toNat bs))
                  (some w1.nextBuf) (xorMask h.mask progress.toNat bs) (w1.alloc (xorMask h.mask progress.toNat bs)).2).2 w1.nextBuf, rfl, rfl, hl1.trans (leads_co ?_)⟩
                simp only [coStep, readPayloadStep, if_pos hne, hh, if_pos hm]
                exact Leads.refl
              · rw [if_neg hm] at hchunk
                subst hchunk
                refine ⟨some buf, w1, (callback env (.readMessage t h.opcode chunk) (some buf) chunk w1).2, rfl, rfl, hl1.trans (leads_co ?_)⟩
                simp only [coStep, readPayloadStep, if_pos hne, hh, if_neg hm]
                exact Leads.refl
            obtain ⟨ptr, wc, w2, hwc, hw2, hl2⟩ := hcb
            have hm := mirror_callback env hp (fun l => .readMessage l h.opcode chunk) t ptr chunk
              (rp .act (some t) false cap buf (progress + bs.length) want1 bs :: rest) (hr.cons (fun u hu => by cases hu)) l wc
              (by rw [hwc, hw1st]; exact hto) w2 hw2
            rw [hwc, hw1st] at hm
            replace hm := Mirrors.leads hl2 hm
            unfold liftSock at hm
            simp only [] at hm
            revert hm
            rcases callListener env (fun l => .readMessage l h.opcode chunk) s with ⟨(a | e | _ | u), s'⟩ <;> intro hm <;> simp only []
            · obtain ⟨w3, h1, h2, h3, h4⟩ := hm
              refine Mirrors.leads (hl2.trans h1) (Mirrors.mono (ih bytes' s' _ _ _ acc _ w3 (by rw [h2]) hh nofun (h3.listener.trans hto) (h3.buffer hB)) ?_)
              rintro acc' st' ⟨p', want', got', l', w', h5, h6, h7, h8, h9, h10⟩
              exact ⟨p', want', got', l', w', h5, (hl2.trans h1).trans h6, h7, h8, h9, h3.trans h10⟩
            all_goals exact hm
    · -- retry
      have hl1 : Leads env (.run ⟨rp .readData to short cap buf progress (wanted h s progress) [] :: rest, l⟩, w)
          (.run ⟨rp .readData to short cap buf progress (wanted h s progress) [] :: rest, l⟩, w.setInp ⟨bytes', sched⟩) := by
        refine leads_co ?_
        simp only [coStep, readPayloadStep, if_neg hpos, hw, hlr, after]
        exact Leads.refl
      -- the loop from `act` goes through the same state
      have hl2 : Leads env (.run ⟨rp .readData to short cap buf progress (wanted h s progress) [] :: rest, l⟩, w.setInp ⟨bytes', sched⟩)
          (.run ⟨rp .act to short cap buf progress want got :: rest, l⟩, w.setInp ⟨bytes', sched⟩) := by
        have := Leads.back (env := env) (t := ⟨rp .act to short cap buf progress want got :: rest, l⟩) (w := w.setInp ⟨bytes', sched⟩)
        rw [step_cons] at this
        have hs' : (w.setInp ⟨bytes', sched⟩).st.sock = s := hs.symm
        simp only [coStep, readPayloadStep, hh, if_pos hlt, hs', after] at this
        exact this
      have hl3 := hl.trans (hl1.trans hl2)
      refine Mirrors.leads hl3 (Mirrors.mono (ih bytes' s _ _ _ acc _ _ (by rw [hs]; rfl) hh hacc hto hB) ?_)
      rintro acc' st' ⟨p', want', got', l', w', h1, h2, h3⟩
      exact ⟨p', want', got', l', w', h1, hl3.trans h2, h3⟩
    · -- zero
      refine Mirrors.leads (hl.trans (leads_co ?_ (q := (.run ⟨rp .onDataRead to short cap buf progress (wanted h s progress) [] :: rest, l⟩, w.setInp ⟨bytes', sched⟩)))) ?_
      · simp only [coStep, readPayloadStep, if_neg hpos, hw, hlr, after]
        exact Leads.refl
      · refine Mirrors.leads (leads_co Leads.refl) ?_
        have : (⟨s, ⟨bytes', sched⟩⟩ : St) = (w.setInp ⟨bytes', sched⟩).st := by rw [hs]; rfl
        rw [this]
        exact mirrors_error hr (.same (by decide))
    · -- broken
      refine Mirrors.leads (hl.trans (leads_co Leads.refl)) ?_
      have : (⟨s, ⟨bytes', sched⟩⟩ : St) = (w.setInp ⟨bytes', sched⟩).st := by rw [hs]; rfl
      rw [this]
      simp only [coStep, readPayloadStep, if_neg hpos, hw, hlr]
      exact mirrors_error hr (.io rfl)

/-- `readPayload`, started by `HandleFrameCoroutine`. -/
theorem mirror_readPayload (env : Env) (hp : PlainListener env) (short : Bool) (rest : List Co) (hr : NoCatch rest)
    (l : Local) (w w0 : World) (hst : w0.st = w.st) (buf : Nat)
    (hshort : short = true → l.short = []) (hB : 0 < w.st.sock.config.readBufferSize) (hlong : ¬ (short = true ∧ l.hdr.payloadLength > 125)) :
    Mirrors env (.run ⟨rp .act w.st.sock.listener short w.st.sock.config.readBufferSize.toNat buf 0 0 [] :: rest, l⟩, w0)
      (readPayload env l.hdr short w.st)
      (fun acc' st' => ∃ l' w',
        Leads env (.run ⟨rp .act w.st.sock.listener short w.st.sock.config.readBufferSize.toNat buf 0 0 [] :: rest, l⟩, w0)
          (.run ⟨rest, l'⟩, w') ∧
        w'.st = st' ∧ l'.hdr = l.hdr ∧ (short = true → l'.short = acc') ∧ Same w.st.sock st'.sock) := by
  have hx : readPayload env l.hdr short w.st = P.bind (runPayloadLoop env l.hdr short)
      (fun acc => P.bind (endMarker env l.hdr short) (fun _ => Pure.pure acc)) w.st := by
    unfold readPayload
    rw [if_neg hlong]
    simp only [P.bind_def]
    rw [P.bind_apply]
    simp only [P.get]
    rw [if_neg (by omega)]
  rw [hx]
  generalize hto : w.st.sock.listener = to
  generalize hcap : w.st.sock.config.readBufferSize.toNat = cap
  have hloop := mirror_loop env hp l.hdr short cap buf to rest hr w.st.inp.sched w.st.inp.bytes w.st.sock 0 0 [] [] l w0 hst rfl hshort hto hB
  refine Mirrors.bind (m := runPayloadLoop env l.hdr short) (st := w.st) (by
    unfold runPayloadLoop; rw [hcap]; exact hloop) ?_
  rintro acc' _ ⟨p', want', got', l', w', h1, h2, rfl, h4, h5, h6⟩
  refine Mirrors.leads h2 ?_
  have hto' : w'.st.sock.listener = to := h6.listener.trans hto
  by_cases he : (!short) = true ∧ l.hdr.fin = true
  · have hem : endMarker env l.hdr short = liftSock (callListener env fun t => .readMessage t l.hdr.opcode []) := by
      unfold endMarker; rw [if_pos he]
    rw [hem]
    cases to with
    | none =>
      have hc : liftSock (callListener env fun t => .readMessage t l.hdr.opcode []) w'.st = (.ret (), w'.st) := by
        unfold liftSock callListener; rw [hto']
      rw [P.bind_apply, hc]
      refine ⟨l', w'.free buf, h2.trans (leads_co ?_), rfl, h4, h5, h6⟩
      simp only [coStep, readPayloadStep, h4, if_neg h1]
      exact leads_finish env _ rest l' w'
    | some t =>
      have hl1 : Leads env (.run ⟨rp .act (some t) short cap buf p' want' got' :: rest, l'⟩, w')
          (.run ⟨(callback env (.readMessage t l.hdr.opcode []) none [] w').1 ::
            rp .done (some t) short cap buf p' want' got' :: rest, l'⟩, (callback env (.readMessage t l.hdr.opcode []) none [] w').2) := by
        refine leads_co ?_
        simp only [coStep, readPayloadStep, h4, if_neg h1, if_pos he]
        exact Leads.refl
      have hm := mirror_callback env hp (fun t => .readMessage t l.hdr.opcode []) t none []
        (rp .done (some t) short cap buf p' want' got' :: rest) (hr.cons (fun u hu => by cases hu)) l' w' hto' _ rfl
      refine Mirrors.leads hl1 (Mirrors.bind hm ?_)
      rintro _ _ ⟨w3, h7, rfl, h8, h9⟩
      exact ⟨l', w3.free buf, h2.trans (hl1.trans (h7.trans (leads_co (leads_finish env _ rest l' w3)))), rfl, h4, h5, h6.trans h8⟩
  · have hem : endMarker env l.hdr short = Pure.pure () := by
      unfold endMarker; rw [if_neg he]
    rw [hem]
    refine ⟨l', w'.free buf, h2.trans (leads_co ?_), rfl, h4, h5, h6⟩
    simp only [coStep, readPayloadStep, h4, if_neg h1]
    cases to with
    | none => exact leads_finish env _ rest l' w'
    | some t =>
      simp only [if_neg he]
      exact leads_finish env _ rest l' w'

/-- `HandleFrameCoroutine` at some function. -/
abbrev hf (pc : HandleFramePc) (to : Option Nat) : Co := .handleFrame ⟨pc, to⟩

/-- `readPayload`, including its checks. -/
theorem mirror_start (env : Env) (hp : PlainListener env) (short : Bool) (pc pc0 : HandleFramePc) (to : Option Nat) (rest : List Co) (hr : NoCatch rest)
    (l : Local) (w : World) (hshort : short = true → l.short = []) (hB : 0 < w.st.sock.config.readBufferSize) :
    Mirrors env (after (hf pc0 to) rest (startPayload ⟨pc0, to⟩ short pc l w)) (readPayload env l.hdr short w.st)
      (fun acc' st' => ∃ l' w', Leads env (after (hf pc0 to) rest (startPayload ⟨pc0, to⟩ short pc l w)) (.run ⟨hf pc to :: rest, l'⟩, w') ∧
        w'.st = st' ∧ l'.hdr = l.hdr ∧ (short = true → l'.short = acc') ∧ Same w.st.sock st'.sock) := by
  by_cases hlong : short = true ∧ l.hdr.payloadLength > 125
  · have hx : readPayload env l.hdr short w.st = (.throw .controlTooLong, w.st) := by
      unfold readPayload; rw [if_pos hlong]; rfl
    have hs : startPayload ⟨pc0, to⟩ short pc l w = (.error (.thrown .controlTooLong), l, w) := by
      unfold startPayload readPayloadAsync; rw [if_pos hlong]
    rw [hx, hs]
    exact mirrors_error hr (.same (by decide))
  · have hs : startPayload ⟨pc0, to⟩ short pc l w = (.call [rp .act w.st.sock.listener short w.st.sock.config.readBufferSize.toNat w.nextBuf 0 0 []]
        (hf pc to), l, (w.alloc []).2) := by
      unfold startPayload readPayloadAsync; rw [if_neg hlong, if_neg (by omega)]; rfl
    rw [hs]
    exact mirror_readPayload env hp short (hf pc to :: rest) (hr.cons (fun u hu => by cases hu)) l w (w.alloc []).2 rfl w.nextBuf hshort hB hlong

/-- A data frame. -/
theorem mirror_data (env : Env) (hp : PlainListener env) (to : Option Nat) (rest : List Co) (hr : NoCatch rest)
    (l : Local) (w : World) (hB : 0 < w.st.sock.config.readBufferSize) :
    Mirrors env (after (hf .act to) rest (startPayload ⟨.act, to⟩ false .done l w)) (P.bind (readPayload env l.hdr false) (fun _ => Pure.pure ()) w.st)
      (fun _ st' => ∃ l' w', Leads env (after (hf .act to) rest (startPayload ⟨.act, to⟩ false .done l w)) (.run ⟨rest, l'⟩, w') ∧
        w'.st = st' ∧ l'.hdr = l.hdr ∧ w.st.sock.listener = st'.sock.listener ∧ w.st.sock.listening = st'.sock.listening ∧ 0 < st'.sock.config.readBufferSize) := by
  refine Mirrors.bind (mirror_start env hp false .done .act to rest hr l w nofun hB) ?_
  rintro _ _ ⟨l', w', h1, rfl, h2, -, h3⟩
  exact ⟨l', w', h1.trans (leads_co (leads_finish env _ rest l' w')), rfl, h2, h3.listener.symm, h3.listening.symm, h3.buffer hB⟩

/-- A text or binary frame. -/
theorem mirror_startData (env : Env) (hp : PlainListener env) (to : Option Nat) (rest : List Co) (hr : NoCatch rest)
    (l : Local) (w : World) (hB : 0 < w.st.sock.config.readBufferSize) :
    Mirrors env (after (hf .act to) rest (startData ⟨.act, to⟩ l w)) (P.bind (liftSock (checkForContinuation l.hdr)) (fun ok =>
        if ok = true then P.bind (readPayload env l.hdr false) (fun _ => Pure.pure ()) else P.fail .continuationExpected) w.st)
      (fun _ st' => ∃ l' w', Leads env (after (hf .act to) rest (startData ⟨.act, to⟩ l w)) (.run ⟨rest, l'⟩, w') ∧
        w'.st = st' ∧ l'.hdr = l.hdr ∧ w.st.sock.listener = st'.sock.listener ∧ w.st.sock.listening = st'.sock.listening ∧ 0 < st'.sock.config.readBufferSize) := by
  have hc : checkForContinuation l.hdr w.st.sock = (.ret (checkForContinuationA l.hdr w.st.sock).1, (checkForContinuationA l.hdr w.st.sock).2) := by
    unfold checkForContinuation checkForContinuationA
    split
    · rfl
    · split <;> rfl
  have hk : (checkForContinuationA l.hdr w.st.sock).2.listener = w.st.sock.listener ∧
      (checkForContinuationA l.hdr w.st.sock).2.listening = w.st.sock.listening ∧
      (checkForContinuationA l.hdr w.st.sock).2.config = w.st.sock.config := by
    unfold checkForContinuationA
    split
    · exact ⟨rfl, rfl, rfl⟩
    · split <;> exact ⟨rfl, rfl, rfl⟩
  rw [P.bind_apply]
  unfold liftSock startData
  rw [hc]
  rcases hx : checkForContinuationA l.hdr w.st.sock with ⟨(_ | _), s1⟩ <;> rw [hx] at hk <;> simp only []
  · exact mirrors_error (w := w.setSock s1) hr (.same (by decide))
  · simp only [if_pos]
    refine Mirrors.mono (mirror_data env hp to rest hr l (w.setSock s1) (show 0 < s1.config.readBufferSize from (congrArg (fun c => 0 < c.readBufferSize) hk.2.2).mpr hB)) ?_
    rintro _ _ ⟨l', w', h1, h2, h3, h4, h5, h6⟩
    exact ⟨l', w', h1, h2, h3, hk.1.symm.trans h4, hk.2.1.symm.trans h5, h6⟩

/-- A control frame. -/
theorem mirror_control (env : Env) (hp : PlainListener env) (pc : HandleFramePc) (mk : List UInt8 → Nat → Event)
    (hpc : ∀ to l w, coStep env (hf pc to) l w = controlCallback env ⟨pc, to⟩ (mk l.short) l w)
    (to : Option Nat) (rest : List Co) (hr : NoCatch rest)
    (l : Local) (w : World) (hto : w.st.sock.listener = to) (hB : 0 < w.st.sock.config.readBufferSize) :
    Mirrors env (after (hf .act to) rest (startPayload ⟨.act, to⟩ true pc { l with short := [] } w))
      (P.bind (readPayload env l.hdr true) (fun data => liftSock (callListener env (mk data))) w.st)
      (fun _ st' => ∃ l' w', Leads env (after (hf .act to) rest (startPayload ⟨.act, to⟩ true pc { l with short := [] } w)) (.run ⟨rest, l'⟩, w') ∧
        w'.st = st' ∧ l'.hdr = l.hdr ∧ w.st.sock.listener = st'.sock.listener ∧ w.st.sock.listening = st'.sock.listening ∧ 0 < st'.sock.config.readBufferSize) := by
  refine Mirrors.bind (mirror_start env hp true pc .act to rest hr { l with short := [] } w (fun _ => rfl) hB) ?_
  rintro data _ ⟨l', w', h1, rfl, h2, h3, h4⟩
  refine Mirrors.leads h1 ?_
  have hto' : w'.st.sock.listener = to := h4.listener.trans hto
  have hd : l'.short = data := h3 rfl
  cases to with
  | none =>
    have hc : liftSock (callListener env (mk data)) w'.st = (.ret (), w'.st) := by
      unfold liftSock callListener; rw [hto']
    rw [hc]
    refine ⟨l', w', h1.trans (leads_co ?_), rfl, h2, h4.listener.symm, h4.listening.symm, h4.buffer hB⟩
    rw [hpc]
    exact leads_finish env _ rest l' w'
  | some t =>
    have hl1 : Leads env (.run ⟨hf pc (some t) :: rest, l'⟩, w')
        (.run ⟨(callback env (mk data t) none [] w').1 :: hf .done (some t) :: rest, l'⟩, (callback env (mk data t) none [] w').2) := by
      refine leads_co ?_
      rw [hpc, hd]
      exact Leads.refl
    refine Mirrors.leads hl1 (Mirrors.mono (mirror_callback env hp (mk data) t none [] (hf .done (some t) :: rest)
      (hr.cons (fun u hu => by cases hu)) l' w' hto' _ rfl) ?_)
    rintro _ _ ⟨w3, h7, rfl, h8, -⟩
    have h9 := h4.trans h8
    exact ⟨l', w3, h1.trans (hl1.trans (h7.trans (leads_co (leads_finish env _ rest l' w3)))), rfl, h2, h9.listener.symm,
      h9.listening.symm, h9.buffer hB⟩

/-- One frame after its header. -/
theorem mirror_handleFrame (env : Env) (hp : PlainListener env) (rest : List Co) (hr : NoCatch rest)
    (l : Local) (w : World) (hB : 0 < w.st.sock.config.readBufferSize) :
    Mirrors env (.run ⟨hf .act w.st.sock.listener :: rest, l⟩, w) (handleFrame env l.hdr w.st)
      (fun _ st' => ∃ l' w', Leads env (.run ⟨hf .act w.st.sock.listener :: rest, l⟩, w) (.run ⟨rest, l'⟩, w') ∧
        w'.st = st' ∧ l'.hdr = l.hdr ∧ w.st.sock.listener = st'.sock.listener ∧ w.st.sock.listening = st'.sock.listening ∧ 0 < st'.sock.config.readBufferSize) := by
  have key : ∀ {q} {r : Exit Unit × St}, Async.after (hf .act w.st.sock.listener) rest (coStep env (hf .act w.st.sock.listener) l w) = q →
      Mirrors env q r (fun _ st' => ∃ l' w', Leads env q (.run ⟨rest, l'⟩, w') ∧ w'.st = st' ∧ l'.hdr = l.hdr ∧
        w.st.sock.listener = st'.sock.listener ∧ w.st.sock.listening = st'.sock.listening ∧ 0 < st'.sock.config.readBufferSize) →
      Mirrors env (.run ⟨hf .act w.st.sock.listener :: rest, l⟩, w) r
        (fun _ st' => ∃ l' w', Leads env (.run ⟨hf .act w.st.sock.listener :: rest, l⟩, w) (.run ⟨rest, l'⟩, w') ∧
        w'.st = st' ∧ l'.hdr = l.hdr ∧ w.st.sock.listener = st'.sock.listener ∧ w.st.sock.listening = st'.sock.listening ∧ 0 < st'.sock.config.readBufferSize) := by
    rintro q r rfl h
    have hl : Leads env (.run ⟨hf .act w.st.sock.listener :: rest, l⟩, w) _ := leads_co Leads.refl
    refine Mirrors.leads hl (Mirrors.mono h ?_)
    rintro _ _ ⟨l', w', h1, h2⟩
    exact ⟨l', w', hl.trans h1, h2⟩
  unfold handleFrame
  by_cases h0 : l.hdr.opcode = OPCODE_CONTINUATION
  · rw [if_pos h0]
    simp only [P.bind_def]
    rw [P.bind_apply]
    simp only [P.get]
    by_cases hl : w.st.sock.lastOpcode < 0
    · rw [if_pos hl]
      refine key (q := Async.after (hf .act w.st.sock.listener) rest (.error (.thrown .continuationState), l, w)) ?_ (mirrors_error hr (.same (by decide)))
      simp only [coStep, handleFrameStep, if_pos h0, if_pos hl]
    · rw [if_neg hl]
      refine key ?_ (mirror_data env hp w.st.sock.listener rest hr l w hB)
      simp only [coStep, handleFrameStep, if_pos h0, if_neg hl]
  rw [if_neg h0]
  by_cases h1 : l.hdr.opcode = OPCODE_TEXT
  · rw [if_pos h1]
    refine key ?_ (mirror_startData env hp w.st.sock.listener rest hr l w hB)
    simp only [coStep, handleFrameStep, if_neg h0, if_pos h1]
  rw [if_neg h1]
  by_cases h2 : l.hdr.opcode = OPCODE_BINARY
  · rw [if_pos h2]
    refine key ?_ (mirror_startData env hp w.st.sock.listener rest hr l w hB)
    simp only [coStep, handleFrameStep, if_neg h0, if_neg h1, if_pos h2]
  rw [if_neg h2]
  by_cases h8 : l.hdr.opcode = OPCODE_CLOSE
  · rw [if_pos h8]
    refine key ?_ (mirror_control env hp .onClose (fun data to => .onClose to (closeArgs env data).1 (closeArgs env data).2)
      (fun _ _ _ => rfl) _ rest hr l w rfl hB)
    simp only [coStep, handleFrameStep, if_neg h0, if_neg h1, if_neg h2, if_pos h8]
  rw [if_neg h8]
  by_cases h9 : l.hdr.opcode = OPCODE_PING
  · rw [if_pos h9]
    refine key ?_ (mirror_control env hp .onPing (fun data to => .onPing to data) (fun _ _ _ => rfl) _ rest hr l w rfl hB)
    simp only [coStep, handleFrameStep, if_neg h0, if_neg h1, if_neg h2, if_neg h8, if_pos h9]
  rw [if_neg h9]
  by_cases h10 : l.hdr.opcode = OPCODE_PONG
  · rw [if_pos h10]
    refine key ?_ (mirror_control env hp .onPong (fun data to => .onPong to data) (fun _ _ _ => rfl) _ rest hr l w rfl hB)
    simp only [coStep, handleFrameStep, if_neg h0, if_neg h1, if_neg h2, if_neg h8, if_neg h9, if_pos h10]
  rw [if_neg h10]
  refine key (q := Async.after (hf .act w.st.sock.listener) rest (.error (.thrown .unknownFrame), l, w)) ?_ (mirrors_error hr (.same (by decide)))
  simp only [coStep, handleFrameStep, if_neg h0, if_neg h1, if_neg h2, if_neg h8, if_neg h9, if_neg h10]

/-- One frame. -/
theorem mirror_frame (env : Env) (hp : PlainListener env) (l : Local) (w : World) (hB : 0 < w.st.sock.config.readBufferSize)
    (hop : l.hdr.opcode ≠ OPCODE_CLOSE) :
    Mirrors env (.run ⟨[.listen], l⟩, w) (iterateFrame env l.hdr w.st)
      (fun h st' => ∃ l' w', Leads env (.run ⟨[.listen], l⟩, w) (.run ⟨[.listen], l'⟩, w') ∧
        w'.st = st' ∧ l'.hdr = h ∧ w.st.sock.listening = st'.sock.listening ∧ 0 < st'.sock.config.readBufferSize) := by
  have hl : Leads env (.run ⟨[.listen], l⟩, w) (.run ⟨[.readFrame {}, hf .act w.st.sock.listener, .listen], l⟩, w) := by
    refine leads_co ?_
    simp only [coStep, listenStep, if_pos hop]
    exact Leads.refl
  have hn : NoCatch [.listen] := NoCatch.nil.cons (fun u hu => by cases hu)
  unfold iterateFrame
  simp only [P.bind_def]
  refine Mirrors.leads hl (Mirrors.bind (mirror_readFrame env _ (hn.cons (fun u hu => by cases hu)) l w) ?_)
  rintro h _ ⟨w1, h1, rfl, h2⟩
  have hx := mirror_handleFrame env hp [.listen] hn (l.withHdr h) w1 (by rw [h2]; exact hB)
  rw [h2] at hx
  refine Mirrors.leads h1 (Mirrors.bind hx ?_)
  rintro _ _ ⟨l', w2, h3, rfl, h4, -, h5, h6⟩
  exact ⟨l', w2, hl.trans (h1.trans h3), rfl, h4, h5, h6⟩

/-- Listening. -/
theorem mirror_listening (env : Env) (hp : PlainListener env) {h st n x st'} (hL : Listening env h st n x st') :
    ∀ (l : Local) (w : World), w.st = st → l.hdr = h → h.opcode ≠ OPCODE_CLOSE → st.sock.listening = true →
    0 < st.sock.config.readBufferSize →
    ∃ o w', Runs env ⟨[.listen], l⟩ w o w' ∧ EndMatch x o ∧ SameSt w'.st st' := by
  induction hL with
  | throws e =>
    rintro l w rfl rfl hop hl hB
    have := mirror_frame env hp l w hB hop
    rw [e] at this
    obtain ⟨ae, w', h1, h2, h3⟩ := this
    exact ⟨.failed ae, w', h1, h3, h2⟩
  | blocks e =>
    rintro l w rfl rfl hop hl hB
    have := mirror_frame env hp l w hB hop
    rw [e] at this
    obtain ⟨w', h1, h2⟩ := this
    exact ⟨.blocked, w', h1, trivial, by rw [h2]; exact SameSt.refl _⟩
  | undefined e =>
    rintro l w rfl rfl hop hl hB
    have := mirror_frame env hp l w hB hop
    rw [e] at this
    obtain ⟨w', h1, h2⟩ := this
    exact ⟨.ub _, w', h1, rfl, by rw [h2]; exact SameSt.refl _⟩
  | closed e hc =>
    rintro l w rfl rfl hop hl hB
    have := mirror_frame env hp l w hB hop
    rw [e] at this
    obtain ⟨l', w', h1, h2, h3, h4⟩ := this
    refine ⟨.finished, w', h1 _ _ (leads_co Leads.refl _ _ ?_), trivial, by rw [h2]; exact SameSt.refl _⟩
    simp only [coStep, listenStep, h3]
    rw [if_neg (by simp [hc, OPCODE_CLOSE])]
    exact ⟨rfl, rfl⟩
  | stopped e hc =>
    rintro l w rfl rfl hop hl hB
    have := mirror_frame env hp l w hB hop
    rw [e] at this
    obtain ⟨l', w', h1, h2, h3, h4, h5⟩ := this
    rw [hl, hc] at h4
    cases h4
  | next e hc hs _ ih =>
    rintro l w rfl rfl hop hl hB
    have := mirror_frame env hp l w hB hop
    rw [e] at this
    obtain ⟨l', w', h1, h2, h3, h4, h5⟩ := this
    obtain ⟨o, w'', h6, h7, h8⟩ := ih l' w' h2 h3 hc hs h5
    exact ⟨o, w'', h1 _ _ h6, h7, h8⟩

end OatWS.Async
