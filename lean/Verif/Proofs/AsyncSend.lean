import Verif.Proofs.AsyncBase
/-! Simulation of the send functions. -/

namespace OatWS.Async

theorem mirror_write (env : Env) (mk : List UInt8 → Co) (rest : List Co) (l : Local) (cont : Act)
    (hstep : ∀ left w, coStep env (mk left) l w = writeStep left l w mk cont) (hd : ∀ g w, destroy (mk g) w = w)
    (hr : NoCatch rest) (data : List UInt8) (n : Nat) (hn : data.length = n) (e : Err) (he : isIoErr e = true) (w : World) :
    Mirrors env (.run ⟨mk data :: rest, l⟩, w) (liftSock (writeExpect data n e) w.st) (fun _ st' => ∃ g w',
      Leads env (.run ⟨mk data :: rest, l⟩, w) (after (mk g) rest (cont, l, w')) ∧ w'.st = st') := by
  have h := write_loop env mk rest l cont hstep hd _ data w 0 rfl
  have hx : liftSock (writeExpect data n e) w.st = match writeExact w.st.sock.out.sched w.st.sock.out.written data 0 with
      | (.wrote k, out) => if k ≠ n then (.throw e, (w.setOut out).st) else (.ret (), (w.setOut out).st)
      | (.blocked, out) => (.block, (w.setOut out).st) := by
    unfold liftSock writeExpect
    rw [P.bind_def, P.bind_apply, connWriteExact_eq]
    rcases writeExact _ _ _ _ with ⟨(k | _), out⟩
    · by_cases hk : k ≠ n
      · simp only [if_pos hk]; rfl
      · simp only [if_neg hk]; rfl
    · rfl
  rw [hx]
  revert h
  rcases writeExact w.st.sock.out.sched w.st.sock.out.written data 0 with ⟨(k | _), out⟩ <;> simp only []
  · rintro ⟨g, hg⟩
    by_cases hk : k = n
    · subst hk
      rw [if_pos (by omega)] at hg
      rw [if_neg (by simp)]
      exact ⟨g, _, hg, rfl⟩
    · rw [if_neg (by omega)] at hg
      rw [if_pos hk]
      exact (mirrors_error hr (.io he)).leads hg
  · rintro ⟨w', h1, rfl⟩
    exact ⟨_, h1, rfl⟩

theorem liftSock_pure {α} (a : α) (st : St) : liftSock (Pure.pure a : P Sock α) st = (.ret a, st) := rfl

theorem store16_length (e x) : (store16 e x).length = 2 := by cases e <;> rfl
theorem store32_length (e x) : (store32 e x).length = 4 := by cases e <;> rfl

/-- `WriteFrameCoroutine` at some function. -/
abbrev wf (pc : WriteFramePc) (h : Header) (left : List UInt8) : Co := .writeFrame ⟨pc, h, (packHeaderBits h).2, left⟩

/-- Writing a header. -/
theorem mirror_writeFrame (env : Env) (h : Header) (rest : List Co) (hr : NoCatch rest) (l : Local) (w : World) :
    Mirrors env (.run ⟨newWriteFrame env h :: rest, l⟩, w) (liftSock (writeFrameHeader env h) w.st) (fun _ st' => ∃ w',
      Leads env (.run ⟨newWriteFrame env h :: rest, l⟩, w) (.run ⟨rest, l⟩, w') ∧ w'.st = st') := by
  unfold writeFrameHeader
  simp only [P.bind_def]
  rw [liftSock_bind]
  refine Mirrors.bind (mirror_write env (fun g => wf .act h (g)) rest l
    (.goto (wf .onBbWritten h ([])))
    (fun _ _ => rfl) (fun _ _ => rfl) hr _ 2 (store16_length _ _) _ rfl w) ?_
  rintro _ _ ⟨g, w1, h1, rfl⟩
  refine Mirrors.leads h1 ?_
  rw [liftSock_bind]
  refine Mirrors.mono (K := fun _ st' => ∃ w', Leads env (after (wf .act h g) rest
      (.goto (wf .onBbWritten h ([])), l, w1))
      (.run ⟨rest, l⟩, w') ∧ w'.st = st') ?_ (fun _ _ ⟨w', h2, e⟩ => ⟨w', h1.trans h2, e⟩)
  simp only [after]
  generalize hp : (Outcome.run { stack := wf .onBbWritten h ([]) :: rest, loc := l }, w1) = p
  -- the length
  have hlen : Mirrors env p (liftSock (writeLength env h (packHeaderBits h).2) w1.st) (fun _ st' => ∃ g w',
      Leads env p (.run ⟨wf .onLenWritten h (g) :: rest, l⟩, w') ∧
      w'.st = st') := by
    rw [← hp]
    unfold writeLength
    by_cases h2 : (packHeaderBits h).2 = 2
    · rw [if_pos h2]
      have hl : Leads env (.run ⟨wf .onBbWritten h ([]) :: rest, l⟩, w1)
          (.run ⟨wf .writeMessageLen h (store16 env.host (hton16 env.host (UInt16.ofNat (h.payloadLength % 65536).toNat))) :: rest, l⟩, w1) := by
        refine leads_co ?_
        simp only [coStep, writeFrameStep, if_pos h2, after]
        exact Leads.refl
      refine Mirrors.leads hl ?_
      refine Mirrors.mono (mirror_write env (fun g => wf .writeMessageLen h (g)) rest l
        (.goto (wf .onLenWritten h ([])))
        (fun _ _ => rfl) (fun _ _ => rfl) hr _ 2 (store16_length _ _) _ rfl w1) ?_
      rintro _ _ ⟨g, w', h3, e⟩
      exact ⟨_, w', hl.trans h3, e⟩
    · rw [if_neg h2]
      by_cases h3 : (packHeaderBits h).2 = 3
      · rw [if_pos h3]
        have hl : Leads env (.run ⟨wf .onBbWritten h ([]) :: rest, l⟩, w1)
            (.run ⟨wf .writeMessageLen h (store32 env.host (hton32 env.host (UInt32.ofNat (h.payloadLength / 4294967296 % 4294967296).toNat)) ++
                store32 env.host (hton32 env.host (UInt32.ofNat (h.payloadLength % 4294967296).toNat))) :: rest, l⟩, w1) := by
          refine leads_co ?_
          simp only [coStep, writeFrameStep, if_neg h2, if_pos h3, after]
          exact Leads.refl
        refine Mirrors.leads hl ?_
        refine Mirrors.mono (mirror_write env (fun g => wf .writeMessageLen h (g)) rest l
          (.goto (wf .onLenWritten h ([])))
          (fun _ _ => rfl) (fun _ _ => rfl) hr _ 8 (by rw [List.length_append, store32_length, store32_length]) _ rfl w1) ?_
        rintro _ _ ⟨g, w', h3, e⟩
        exact ⟨_, w', hl.trans h3, e⟩
      · rw [if_neg h3]
        refine ⟨[], w1, ?_, rfl⟩
        refine leads_co ?_
        simp only [coStep, writeFrameStep, if_neg h2, if_neg h3, after]
        exact Leads.refl
  refine Mirrors.bind hlen ?_
  rintro _ _ ⟨g2, w2, h2, rfl⟩
  refine Mirrors.leads h2 ?_
  unfold writeMask
  by_cases hm : h.hasMask = true
  · rw [if_pos hm]
    have hl : Leads env (.run ⟨wf .onLenWritten h (g2) :: rest, l⟩, w2)
        (.run ⟨wf .writeMask h (h.mask.bytes) :: rest, l⟩, w2) := by
      refine leads_co ?_
      simp only [coStep, writeFrameStep, hm, if_pos, after]
      exact Leads.refl
    refine Mirrors.leads hl ?_
    refine Mirrors.mono (mirror_write env (fun g => wf .writeMask h (g)) rest l
      .finish (fun _ _ => rfl) (fun _ _ => rfl) hr _ 4 rfl _ rfl w2) ?_
    rintro _ _ ⟨g, w', h3, e⟩
    exact ⟨w', h2.trans (hl.trans (h3.trans (leads_finish env _ rest l w'))), e⟩
  · rw [if_neg hm]
    refine ⟨w2, h2.trans (leads_co ?_), rfl⟩
    simp only [coStep, writeFrameStep, if_neg hm]
    exact leads_finish env _ rest l w2

/-- `sendOneFrame`, with the result `false` turned into an exception. -/
def sendChecked (env : Env) (fin : Bool) (opcode : UInt8) (message : Option (List UInt8)) : P Sock Unit :=
  P.bind (sendOneFrame env fin opcode message) fun ok => if ok then Pure.pure () else P.fail .sendFailed

theorem sendFrameHeader_async (env : Env) (h : Header) (fin : Bool) (opcode : UInt8) (n : Int) (w : World) :
    ∃ h' w', sendFrameHeaderAsync env h fin opcode n w = (h', newWriteFrame env h', w') ∧
      liftSock (sendFrameHeader env h fin opcode n) w.st
        = P.bind (liftSock (writeFrameHeader env h')) (fun _ => Pure.pure h') w'.st ∧
      w'.heap = w.heap ∧ w'.nextBuf = w.nextBuf ∧ w'.calls = w.calls := by
  have key : ∀ h', liftSock (P.bind (writeFrameHeader env h') (fun _ => (Pure.pure h' : P Sock Header)))
        = P.bind (liftSock (writeFrameHeader env h')) (fun _ => Pure.pure h') := fun h' => liftSock_bind _ _
  unfold sendFrameHeaderAsync
  simp only []
  split <;> rename_i hm
  · refine ⟨_, _, rfl, ?_, rfl, rfl, rfl⟩
    rw [← key]
    unfold liftSock
    simp only [World.setSock]
    unfold sendFrameHeader
    rw [P.bind_def, P.bind_apply]
    simp only [P.get, hm, if_pos]
    rw [P.bind_def, P.bind_apply]
    simp only [generateMaskForFrame]
    rfl
  · refine ⟨_, _, rfl, ?_, rfl, rfl, rfl⟩
    rw [← key]
    unfold liftSock
    unfold sendFrameHeader
    rw [P.bind_def, P.bind_apply]
    simp only [P.get, hm]
    rfl

theorem mirror_body (env : Env) (c : SendFrameCo) (data : List UInt8) (rest : List Co) (hr : NoCatch rest) (l : Local) (w : World)
    (n : Nat) (hn : data.length = n) :
    Mirrors env (.run ⟨.sendFrame { c with pc := .writeMessage, left := data } :: rest, l⟩, w)
      (liftSock (P.bind (P.bind (connWriteExact data) fun res => Pure.pure (decide (res = n)))
        fun ok => if ok then Pure.pure () else P.fail .sendFailed) w.st)
      (fun _ st' => ∃ w', Leads env (.run ⟨.sendFrame { c with pc := .writeMessage, left := data } :: rest, l⟩, w) (.run ⟨rest, l⟩, w') ∧ w'.st = st') := by
  have hx : liftSock (P.bind (P.bind (connWriteExact data) fun res => Pure.pure (decide (res = n)))
        fun ok => if ok then Pure.pure () else P.fail .sendFailed) w.st = liftSock (writeExpect data n .sendFailed) w.st := by
    unfold liftSock writeExpect
    rw [P.bind_def, P.bind_apply, P.bind_apply, P.bind_apply]
    rcases connWriteExact data w.st.sock with ⟨(k | _ | _ | _), s'⟩
    · by_cases hk : k = n
      · subst hk; simp only []; rw [if_neg (by simp)]; simp [Pure.pure, P.pure]
      · simp only [hk, decide_false]; rw [if_pos hk]; simp [Pure.pure, P.pure, P.fail]
    all_goals rfl
  rw [hx]
  refine Mirrors.mono (mirror_write env (fun g => .sendFrame { c with pc := .writeMessage, left := g }) rest l
      .finish (fun _ _ => rfl) (fun _ _ => rfl) hr _ n hn .sendFailed rfl w) ?_
  rintro _ _ ⟨g, w', h3, e⟩
  exact ⟨w', h3.trans (leads_finish env _ rest l w'), e⟩

theorem P.bind_assoc' {σ α β γ : Type} (m : P σ α) (f : α → P σ β) (g : β → P σ γ) :
    P.bind (P.bind m f) g = P.bind m (fun a => P.bind (f a) g) := by
  funext s
  simp only [P.bind_apply]
  rcases m s with ⟨(_ | _ | _ | _), s'⟩ <;> rfl

theorem Mirrors.congr {α} {env p} {r r' : Exit α × St} {K} (h : r' = r) (hm : Mirrors env p r K) : Mirrors env p r' K := h ▸ hm

/-- Sending one frame. -/
theorem mirror_send (env : Env) (fin : Bool) (opcode : UInt8) (message : Option (List UInt8)) (rest : List Co)
    (hr : NoCatch rest) (l : Local) (w : World) :
    Mirrors env (.run ⟨sendOneFrameAsync fin opcode message :: rest, l⟩, w) (liftSock (sendChecked env fin opcode message) w.st)
      (fun _ st' => ∃ w', Leads env (.run ⟨sendOneFrameAsync fin opcode message :: rest, l⟩, w) (.run ⟨rest, l⟩, w') ∧ w'.st = st') := by
  have hempty : (∀ b bs, message ≠ some (b :: bs)) →
      Mirrors env (.run ⟨sendOneFrameAsync fin opcode message :: rest, l⟩, w) (liftSock (sendChecked env fin opcode message) w.st)
      (fun _ st' => ∃ w', Leads env (.run ⟨sendOneFrameAsync fin opcode message :: rest, l⟩, w) (.run ⟨rest, l⟩, w') ∧ w'.st = st') := by
    intro hne
    obtain ⟨h', w', e1, e2, -⟩ := sendFrameHeader_async env default fin opcode 0 w
    have hl : Leads env (.run ⟨sendOneFrameAsync fin opcode message :: rest, l⟩, w)
        (.run ⟨newWriteFrame env h' :: .sendFrame { pc := .done, fin, opcode, message, hdr := h' } :: rest, l⟩, w') := by
      refine leads_co ?_
      have : coStep env (sendOneFrameAsync fin opcode message) l w =
          (.call [newWriteFrame env h'] (.sendFrame { pc := .done, fin, opcode, message, hdr := h' }), l, w') := by
        simp only [coStep, sendOneFrameAsync, sendFrameStep]
        cases message with
        | none => simp only [e1]
        | some m => cases m with
          | nil => simp only [e1]
          | cons b bs => exact absurd rfl (hne b bs)
      rw [this]
      exact Leads.refl
    have hx : liftSock (sendChecked env fin opcode message) w.st = P.bind (liftSock (writeFrameHeader env h')) (fun _ => Pure.pure ()) w'.st := by
      have hs : sendChecked env fin opcode message = P.bind (sendFrameHeader env default fin opcode 0) (fun _ => Pure.pure ()) := by
        unfold sendChecked sendOneFrame
        cases message with
        | none => simp only [P.bind_def]; rw [P.bind_assoc']; rfl
        | some m => cases m with
          | nil => simp only [P.bind_def]; rw [P.bind_assoc']; rfl
          | cons b bs => exact absurd rfl (hne b bs)
      rw [hs, liftSock_bind]
      rw [P.bind_apply, e2]
      simp only [P.bind_apply]
      rcases liftSock (writeFrameHeader env h') w'.st with ⟨(_ | _ | _ | _), s'⟩ <;> rfl
    rw [hx]
    refine Mirrors.leads hl (Mirrors.bind (mirror_writeFrame env h' _ (hr.cons (fun u hu => by cases hu)) l w') ?_)
    rintro _ _ ⟨w2, h2, rfl⟩
    exact ⟨w2, hl.trans (h2.trans (leads_co (leads_finish env _ rest l w2))), rfl⟩
  match message with
  | none => exact hempty nofun
  | some [] => exact hempty nofun
  | some (b :: bs) =>
    obtain ⟨h', w', e1, e2, -⟩ := sendFrameHeader_async env default fin opcode (b :: bs).length w
    have hl : Leads env (.run ⟨sendOneFrameAsync fin opcode (some (b :: bs)) :: rest, l⟩, w)
        (.run ⟨newWriteFrame env h' :: .sendFrame { pc := .prepareWriteMessage, fin, opcode, message := some (b :: bs), hdr := h' } :: rest, l⟩, w') := by
      refine leads_co ?_
      have : coStep env (sendOneFrameAsync fin opcode (some (b :: bs))) l w =
          (.call [newWriteFrame env h'] (.sendFrame { pc := .prepareWriteMessage, fin, opcode, message := some (b :: bs), hdr := h' }), l, w') := by
        simp only [coStep, sendOneFrameAsync, sendFrameStep, e1]
      rw [this]
      exact Leads.refl
    have hx : liftSock (sendChecked env fin opcode (some (b :: bs))) w.st = P.bind (liftSock (writeFrameHeader env h')) (fun _ =>
        liftSock (if h'.hasMask = true then
            if (b :: bs).length ≥ 2 ^ 31 then P.undef .indexOverflow
            else P.bind (P.bind (connWriteExact (xorMask h'.mask 0 (b :: bs))) fun res => Pure.pure (decide (res = (b :: bs).length)))
              fun ok => if ok then Pure.pure () else P.fail .sendFailed
          else P.bind (P.bind (connWriteExact (b :: bs)) fun res => Pure.pure (decide (res = (b :: bs).length)))
              fun ok => if ok then Pure.pure () else P.fail .sendFailed)) w'.st := by
      unfold sendChecked sendOneFrame
      simp only [P.bind_def]
      rw [P.bind_assoc', liftSock_bind, P.bind_apply, e2]
      simp only [P.bind_apply]
      rcases liftSock (writeFrameHeader env h') w'.st with ⟨(_ | _ | _ | _), s'⟩ <;> try rfl
      simp only [Pure.pure, P.pure]
      cases h'.hasMask with
      | true =>
        simp only [if_pos]
        by_cases hbig : (b :: bs).length ≥ 2 ^ 31
        · simp only [if_pos hbig]; rfl
        · simp only [if_neg hbig]
      | false => rfl
    rw [hx]
    refine Mirrors.leads hl (Mirrors.bind (mirror_writeFrame env h' _ (hr.cons (fun u hu => by cases hu)) l w') ?_)
    rintro _ _ ⟨w2, h2, rfl⟩
    refine Mirrors.mono (K := fun _ st' => ∃ w', Leads env (.run ⟨.sendFrame { pc := .prepareWriteMessage, fin, opcode, message := some (b :: bs), hdr := h' } :: rest, l⟩, w2)
      (.run ⟨rest, l⟩, w') ∧ w'.st = st') ?_ (fun _ _ ⟨w', h3, e⟩ => ⟨w', hl.trans (h2.trans h3), e⟩)
    refine Mirrors.leads h2 ?_
    by_cases hm : h'.hasMask = true
    · rw [if_pos hm]
      by_cases hbig : (b :: bs).length ≥ 2 ^ 31
      · rw [if_pos hbig]
        refine ⟨w2, ?_, rfl⟩
        refine leads_co Leads.refl _ _ ?_
        simp only [coStep, sendFrameStep, Option.getD_some, if_pos hm, if_pos hbig, after]
        exact ⟨rfl, rfl⟩
      · rw [if_neg hbig]
        have hl3 : Leads env (.run ⟨.sendFrame { pc := .prepareWriteMessage, fin, opcode, message := some (b :: bs), hdr := h' } :: rest, l⟩, w2)
            (.run ⟨.sendFrame { pc := .writeMessage, fin, opcode, message := some (b :: bs), hdr := h', left := xorMask h'.mask 0 (b :: bs) } :: rest, l⟩, w2) := by
          refine leads_co ?_
          simp only [coStep, sendFrameStep, Option.getD_some, if_pos hm, if_neg hbig, after]
          exact Leads.refl
        refine Mirrors.leads hl3 ?_
        refine Mirrors.mono (mirror_body env { fin, opcode, message := some (b :: bs), hdr := h' } _ rest hr l w2 _ (xorMask_length _ _ _)) ?_
        rintro _ _ ⟨w', h3, e⟩
        exact ⟨w', hl3.trans h3, e⟩
    · rw [if_neg hm]
      have hl3 : Leads env (.run ⟨.sendFrame { pc := .prepareWriteMessage, fin, opcode, message := some (b :: bs), hdr := h' } :: rest, l⟩, w2)
          (.run ⟨.sendFrame { pc := .writeMessage, fin, opcode, message := some (b :: bs), hdr := h', left := b :: bs } :: rest, l⟩, w2) := by
        refine leads_co ?_
        simp only [coStep, sendFrameStep, Option.getD_some, if_neg hm, after]
        exact Leads.refl
      refine Mirrors.leads hl3 ?_
      refine Mirrors.mono (mirror_body env { fin, opcode, message := some (b :: bs), hdr := h' } _ rest hr l w2 _ rfl) ?_
      rintro _ _ ⟨w', h3, e⟩
      exact ⟨w', hl3.trans h3, e⟩

end OatWS.Async
