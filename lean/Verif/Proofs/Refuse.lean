import Verif.Spec.Refusal
import Verif.Proofs.Loop
/-! # Refused frames, for every listener, configuration and schedule -/

namespace OatWS
open RFC6455

/-- Not a protocol error. -/
def Exit.Plain {α} : Exit α → Prop
  | .throw e => ¬ e.isProtocol
  | _ => True

def PlainP {σ α} (m : P σ α) : Prop := ∀ s, (m s).1.Plain

theorem PlainP.pure {σ α} (a : α) : PlainP (Pure.pure a : P σ α) := fun _ => trivial
theorem PlainP.fail {σ α} {e : Err} (h : ¬ e.isProtocol) : PlainP (P.fail e : P σ α) := fun _ => h
theorem PlainP.get {σ} : PlainP (P.get : P σ σ) := fun _ => trivial
theorem PlainP.modify {σ} (f : σ → σ) : PlainP (P.modify f : P σ Unit) := fun _ => trivial
theorem PlainP.undef {σ α} (u : UB) : PlainP (P.undef u : P σ α) := fun _ => trivial

theorem PlainP.bind {σ α β} {m : P σ α} {f : α → P σ β} (h : PlainP m) (h' : ∀ a, PlainP (f a)) : PlainP (m >>= f) := by
  intro s
  have h1 := h s
  rw [P.bind_def, P.bind_apply]
  rcases hm : m s with ⟨(a | _ | _ | _), s'⟩ <;> rw [hm] at h1 <;> simp only []
  · exact h' a s'
  all_goals exact h1

theorem PlainP.ite {σ α} {c : Prop} [Decidable c] {a b : P σ α} (ha : PlainP a) (hb : PlainP b) : PlainP (if c then a else b) := by
  split
  · exact ha
  · exact hb

theorem connWriteExact_plain (d) : PlainP (connWriteExact d) := by
  intro s; unfold connWriteExact; split <;> trivial

theorem writeExpect_plain (d n e) (h : ¬ e.isProtocol) : PlainP (writeExpect d n e) := by
  unfold writeExpect
  exact (connWriteExact_plain d).bind fun _ => .ite (.fail h) (.pure _)

theorem writeFrameHeader_plain (env h) : PlainP (writeFrameHeader env h) := by
  unfold writeFrameHeader
  refine (writeExpect_plain _ _ _ id).bind fun _ => PlainP.bind ?_ fun _ => ?_
  · unfold writeLength
    exact .ite (writeExpect_plain _ _ _ id) (.ite (writeExpect_plain _ _ _ id) (.pure _))
  · unfold writeMask
    exact .ite (writeExpect_plain _ _ _ id) (.pure _)

theorem sendFrameHeader_plain (env h fin op n) : PlainP (sendFrameHeader env h fin op n) := by
  unfold sendFrameHeader
  refine PlainP.get.bind fun a => ?_
  intro s
  simp only []
  split
  · have hg : ∀ h, PlainP (generateMaskForFrame env h) := fun _ _ => trivial
    exact (hg _).bind (fun h => (writeFrameHeader_plain env h).bind fun _ => .pure _) s
  · exact PlainP.bind (.pure _) (fun h => (writeFrameHeader_plain env h).bind fun _ => .pure _) s

theorem sendOneFrame_plain (env fin op m) : PlainP (sendOneFrame env fin op m) := by
  intro s
  unfold sendOneFrame
  split
  · exact (sendFrameHeader_plain env _ _ _ _).bind (fun h => .ite (.ite (.undef _) ((connWriteExact_plain _).bind fun _ => .pure _))
      ((connWriteExact_plain _).bind fun _ => .pure _)) s
  · exact (sendFrameHeader_plain env _ _ _ _).bind (fun _ => .pure _) s

theorem sendOrStop_plain (env op m) : PlainP (sendOrStop env op m) := by
  unfold sendOrStop
  exact (sendOneFrame_plain env _ _ _).bind fun ok => .ite (.pure _) ((PlainP.modify _).bind fun _ => .fail id)

theorem send_plain (env call) : PlainP (send env call) := by
  cases call with
  | oneFrame fin op m => exact (sendOneFrame_plain env _ _ _).bind fun _ => .pure _
  | _ => exact sendOrStop_plain env _ _

theorem runUserOp_plain (env op) : PlainP (runUserOp env op) := by
  cases op with
  | send call catches =>
    intro s
    have := send_plain env call s
    unfold runUserOp
    rcases hs : send env call s with ⟨(_ | _ | _ | _), s'⟩ <;> rw [hs] at this <;> simp only [hs]
    · trivial
    · split
      · trivial
      · exact this
    · trivial
    · trivial
  | throw => exact .fail id
  | _ => exact fun _ => trivial

theorem runUserOps_plain (env) (ops : List UserOp) : PlainP (runUserOps env ops) := by
  induction ops with
  | nil => exact .pure _
  | cons op ops ih => exact (runUserOp_plain env op).bind fun _ => ih

theorem callListener_plain (env mk) : PlainP (callListener env mk) := by
  intro s
  unfold callListener
  split
  · trivial
  · exact runUserOps_plain env _ _

theorem PlainP.lift {α} {m : P Sock α} (h : PlainP m) : PlainP (liftSock m) := fun st => h st.sock

theorem loop_plain (env : Env) (h : Header) (short cap) (sched : List IoOutcome) : ∀ bytes s p acc,
    (readPayloadLoop env h short cap sched bytes s p acc).1.Plain := by
  induction sched with
  | nil =>
    intro bytes s p acc
    unfold readPayloadLoop
    split <;> trivial
  | cons o sched ih =>
    intro bytes s p acc
    unfold readPayloadLoop
    split
    · simp only []
      generalize (if s.config.readBufferSize > h.payloadLength - p then h.payloadLength - p else s.config.readBufferSize) = want
      split
      · trivial
      · split
        · split
          · trivial
          · split
            · exact ih _ _ _ _
            · have := fun d => callListener_plain env (fun l => .readMessage l h.opcode d) s
              split
              · exact ih _ _ _ _
              · rename_i hc; exact (congrArg (fun r => Exit.Plain r.1) hc).mp (this _)
              · trivial
              · trivial
        · exact ih _ _ _ _
        · exact id
        · exact id
    · trivial

theorem readPayload_plain (env : Env) (h : Header) (short : Bool) (hl : ¬ (short = true ∧ h.payloadLength > 125)) :
    PlainP (readPayload env h short) := by
  unfold readPayload
  rw [if_neg (by simpa using hl)]
  refine PlainP.get.bind fun st => .ite (.fail id) (PlainP.bind ?_ fun acc => PlainP.bind ?_ fun _ => .pure _)
  · exact fun st => loop_plain _ _ _ _ _ _ _ _ _
  · unfold endMarker
    exact .ite (.lift (callListener_plain env _)) (.pure _)

theorem HdrOf.opcode_iff {hd : Hdr} {h : Header} (hh : HdrOf hd h) (c : UInt8) : h.opcode = c ↔ hd.opcode = c.toNat := by
  rw [← hh.opcode]; exact ⟨fun e => by rw [e], fun e => UInt8.toNat_inj.mp e⟩

theorem takeN_prefix {n : Nat} {bs a r : List UInt8} (h : takeN n bs = some (a, r)) : bs = a ++ r ∧ ∀ y, takeN n (a ++ y) = some (a, y) := by
  obtain ⟨h1, h2⟩ := takeN_eq h
  refine ⟨h1, fun y => ?_⟩
  unfold takeN
  rw [if_pos (by rw [List.length_append]; omega), ← h2, List.take_left, List.drop_left]

theorem parseLength_prefix {l bs n r} (h : parseLength l bs = some (n, r)) : ∃ a, bs = a ++ r ∧ ∀ y, parseLength l (a ++ y) = some (n, y) := by
  unfold parseLength at *
  split at h
  · rename_i hl
    injection h with h; injection h with h1 h2
    exact ⟨[], by simp [h2], fun y => by rw [if_pos hl, h1]; rfl⟩
  · rename_i hl
    split at h <;> rename_i hl2
    · rcases ht : takeN 2 bs with _ | ⟨a, r'⟩ <;> rw [ht] at h
      · cases h
      · simp only [Option.map_some, Option.some.injEq, Prod.mk.injEq] at h
        exact ⟨a, by rw [← h.2]; exact (takeN_prefix ht).1, fun y => by rw [if_neg hl, if_pos hl2, (takeN_prefix ht).2, ← h.1]; rfl⟩
    · rcases ht : takeN 8 bs with _ | ⟨a, r'⟩ <;> rw [ht] at h
      · cases h
      · simp only [Option.map_some, Option.some.injEq, Prod.mk.injEq] at h
        exact ⟨a, by rw [← h.2]; exact (takeN_prefix ht).1, fun y => by rw [if_neg hl, if_neg hl2, (takeN_prefix ht).2, ← h.1]; rfl⟩

theorem parseKey_prefix {m bs k r} (h : parseKey m bs = some (k, r)) : ∃ a, bs = a ++ r ∧ ∀ y, parseKey m (a ++ y) = some (k, y) := by
  unfold parseKey at *
  split at h <;> rename_i hm
  · rcases ht : takeN 4 bs with _ | ⟨a, r'⟩ <;> rw [ht] at h
    · cases h
    · simp only [Option.map_some, Option.some.injEq, Prod.mk.injEq] at h
      exact ⟨a, by rw [← h.2]; exact (takeN_prefix ht).1, fun y => by rw [if_pos hm, (takeN_prefix ht).2, ← h.1]; rfl⟩
  · injection h with h; injection h with h1 h2
    exact ⟨[], by simp [h2], fun y => by rw [if_neg hm, h1]; rfl⟩

/-- The header bytes alone determine the header. -/
theorem parseHdr_prefix {bs h r} (hp : parseHdr bs = some (h, r)) : ∃ a, bs = a ++ r ∧ ∀ y, parseHdr (a ++ y) = some (h, y) := by
  match bs, hp with
  | b0 :: b1 :: rest, hp =>
    simp only [parseHdr] at hp
    rcases hl : parseLength (b1.toNat % 128) rest with _ | ⟨n, r1⟩ <;> rw [hl] at hp
    · cases hp
    · simp only [Option.bind_some] at hp
      rcases hk : parseKey (decide (128 ≤ b1.toNat)) r1 with _ | ⟨k, r2⟩ <;> rw [hk] at hp
      · cases hp
      · simp only [Option.map_some, Option.some.injEq, Prod.mk.injEq] at hp
        obtain ⟨a1, e1, h1⟩ := parseLength_prefix hl
        obtain ⟨a2, e2, h2⟩ := parseKey_prefix hk
        refine ⟨b0 :: b1 :: (a1 ++ a2), by rw [e1, e2, ← hp.2]; simp, fun y => ?_⟩
        simp only [parseHdr, List.cons_append, List.append_assoc, h1, h2, Option.bind_some, Option.map_some, hp.1]

/-- Handling a refused frame: the error, and nothing else. -/
theorem handleFrame_refused (env : Env) {hd : Hdr} {h : Header} (hh : HdrOf hd h) (st : St) {o : Bool} (ho : OpenIs o st.sock.lastOpcode)
    {e : Err} (hr : refusal o hd = some e) : handleFrame env h st = (.throw e, st) := by
  have h0 := hh.opcode_iff OPCODE_CONTINUATION
  have h1 := hh.opcode_iff OPCODE_TEXT
  have h2 := hh.opcode_iff OPCODE_BINARY
  have h8 := hh.opcode_iff OPCODE_CLOSE
  have h9 := hh.opcode_iff OPCODE_PING
  have hA := hh.opcode_iff OPCODE_PONG
  rw [show OPCODE_CONTINUATION.toNat = 0 from rfl] at h0
  rw [show OPCODE_TEXT.toNat = 1 from rfl] at h1
  rw [show OPCODE_BINARY.toNat = 2 from rfl] at h2
  rw [show OPCODE_CLOSE.toNat = 8 from rfl] at h8
  rw [show OPCODE_PING.toNat = 9 from rfl] at h9
  rw [show OPCODE_PONG.toNat = 10 from rfl] at hA
  have hlong : 126 ≤ hd.len ∧ hd.len < 2 ^ 63 ↔ h.payloadLength > 125 := by
    rw [tooLong_iff hh]; unfold effectiveLen; split <;> omega
  have hcheck : o = true → checkForContinuation h st.sock = (.ret false, st.sock) := by
    intro eo
    subst eo
    unfold checkForContinuation
    rw [if_pos]
    simpa [OpenIs, OPCODE_TEXT, OPCODE_BINARY] using ho
  have hctl : ∀ (f : List UInt8 → P St Unit), hlong.mpr = hlong.mpr → h.payloadLength > 125 →
      P.bind (readPayload env h true) f st = (.throw .controlTooLong, st) := by
    intro f _ hl
    rw [P.bind_apply]
    unfold readPayload
    rw [if_pos ⟨rfl, hl⟩]
    rfl
  unfold refusal at hr
  unfold handleFrame
  by_cases c0 : hd.opcode = 0
  · rw [if_pos c0] at hr
    rw [if_pos (h0.mpr c0)]
    cases o with
    | true => cases hr
    | false =>
      cases hr
      show (if st.sock.lastOpcode < 0 then _ else _ : P St Unit) st = _
      rw [if_pos]
      · rfl
      · have : st.sock.lastOpcode = -1 := ho
        omega
  rw [if_neg c0] at hr
  rw [if_neg (fun x => c0 (h0.mp x))]
  by_cases c1 : hd.opcode = 1 ∨ hd.opcode = 2
  · rw [if_pos c1] at hr
    cases o with
    | false => cases hr
    | true =>
      cases hr
      have e1 : ∀ (f : P St Unit), P.bind (liftSock (checkForContinuation h)) (fun b => if b = true then f else P.fail .continuationExpected) st
          = (.throw .continuationExpected, st) := by
        intro f
        rw [P.bind_apply, liftSock, hcheck rfl]
        rfl
      by_cases c1' : hd.opcode = 1
      · rw [if_pos (h1.mpr c1')]; exact e1 _
      · rw [if_neg (fun x => c1' (h1.mp x)), if_pos (h2.mpr (by omega))]; exact e1 _
  rw [if_neg c1] at hr
  rw [if_neg (fun x => c1 (.inl (h1.mp x))), if_neg (fun x => c1 (.inr (h2.mp x)))]
  by_cases c8 : hd.opcode = 8 ∨ hd.opcode = 9 ∨ hd.opcode = 10
  · rw [if_pos c8] at hr
    split at hr
    · rename_i hl
      cases hr
      have hl := hlong.mp hl
      by_cases c8' : hd.opcode = 8
      · rw [if_pos (h8.mpr c8')]; exact hctl _ rfl hl
      · rw [if_neg (fun x => c8' (h8.mp x))]
        by_cases c9 : hd.opcode = 9
        · rw [if_pos (h9.mpr c9)]; exact hctl _ rfl hl
        · rw [if_neg (fun x => c9 (h9.mp x)), if_pos (hA.mpr (by omega))]; exact hctl _ rfl hl
    · cases hr
  rw [if_neg c8] at hr
  cases hr
  rw [if_neg (fun x => c8 (.inl (h8.mp x))), if_neg (fun x => c8 (.inr (.inl (h9.mp x)))), if_neg (fun x => c8 (.inr (.inr (hA.mp x))))]
  rfl

/-- Handling a frame that is not refused: no protocol error. -/
theorem handleFrame_plain (env : Env) {hd : Hdr} {h : Header} (hh : HdrOf hd h) (st : St) {o : Bool} (ho : OpenIs o st.sock.lastOpcode)
    (hr : refusal o hd = none) : (handleFrame env h st).1.Plain := by
  have h0 := hh.opcode_iff OPCODE_CONTINUATION
  have h1 := hh.opcode_iff OPCODE_TEXT
  have h2 := hh.opcode_iff OPCODE_BINARY
  have h8 := hh.opcode_iff OPCODE_CLOSE
  have h9 := hh.opcode_iff OPCODE_PING
  have hA := hh.opcode_iff OPCODE_PONG
  rw [show OPCODE_CONTINUATION.toNat = 0 from rfl] at h0
  rw [show OPCODE_TEXT.toNat = 1 from rfl] at h1
  rw [show OPCODE_BINARY.toNat = 2 from rfl] at h2
  rw [show OPCODE_CLOSE.toNat = 8 from rfl] at h8
  rw [show OPCODE_PING.toNat = 9 from rfl] at h9
  rw [show OPCODE_PONG.toNat = 10 from rfl] at hA
  have hlong : 126 ≤ hd.len ∧ hd.len < 2 ^ 63 ↔ h.payloadLength > 125 := by
    rw [tooLong_iff hh]; unfold effectiveLen; split <;> omega
  have hdata : PlainP (do let _ ← readPayload env h false : P St Unit) :=
    (readPayload_plain env h false (by simp)).bind fun _ => .pure _
  have hcheck : o = false → ∃ s', checkForContinuation h st.sock = (.ret true, s') := by
    intro eo
    subst eo
    unfold checkForContinuation
    rw [if_neg]
    · split <;> exact ⟨_, rfl⟩
    · have : st.sock.lastOpcode = -1 := ho
      rw [this]; decide
  have hctl : ∀ (mk : List UInt8 → Nat → Event), ¬ h.payloadLength > 125 →
      PlainP (P.bind (readPayload env h true) (fun data => liftSock (callListener env (mk data)))) := by
    intro mk hl
    exact (readPayload_plain env h true (fun x => hl x.2)).bind fun d => .lift (callListener_plain env _)
  unfold refusal at hr
  unfold handleFrame
  by_cases c0 : hd.opcode = 0
  · rw [if_pos c0] at hr
    rw [if_pos (h0.mpr c0)]
    cases o with
    | false => cases hr
    | true =>
      show ((if st.sock.lastOpcode < 0 then _ else _ : P St Unit) st).1.Plain
      rw [if_neg]
      · exact hdata st
      · have : st.sock.lastOpcode = 1 ∨ st.sock.lastOpcode = 2 := by simpa [OpenIs] using ho
        omega
  rw [if_neg c0] at hr
  rw [if_neg (fun x => c0 (h0.mp x))]
  by_cases c1 : hd.opcode = 1 ∨ hd.opcode = 2
  · rw [if_pos c1] at hr
    cases o with
    | true => cases hr
    | false =>
      obtain ⟨s', hs'⟩ := hcheck rfl
      have e1 : (P.bind (liftSock (checkForContinuation h)) (fun b => if b = true then (do let _ ← readPayload env h false : P St Unit)
          else P.fail .continuationExpected) st).1.Plain := by
        rw [P.bind_apply, liftSock, hs']
        exact hdata _
      by_cases c1' : hd.opcode = 1
      · rw [if_pos (h1.mpr c1')]; exact e1
      · rw [if_neg (fun x => c1' (h1.mp x)), if_pos (h2.mpr (by omega))]; exact e1
  rw [if_neg c1] at hr
  rw [if_neg (fun x => c1 (.inl (h1.mp x))), if_neg (fun x => c1 (.inr (h2.mp x)))]
  by_cases c8 : hd.opcode = 8 ∨ hd.opcode = 9 ∨ hd.opcode = 10
  · rw [if_pos c8] at hr
    split at hr
    · cases hr
    · rename_i hl
      have hl : ¬ h.payloadLength > 125 := fun x => hl (hlong.mpr x)
      by_cases c8' : hd.opcode = 8
      · rw [if_pos (h8.mpr c8')]; exact hctl (fun d l => .onClose l (closeArgs env d).1 (closeArgs env d).2) hl st
      · rw [if_neg (fun x => c8' (h8.mp x))]
        by_cases c9 : hd.opcode = 9
        · rw [if_pos (h9.mpr c9)]; exact hctl (fun d l => .onPing l d) hl st
        · rw [if_neg (fun x => c9 (h9.mp x)), if_pos (hA.mpr (by omega))]; exact hctl (fun d l => .onPong l d) hl st
  · rw [if_neg c8] at hr
    cases hr

/-- The whole of `iterateFrame`: either the header could not be read, or it was and the frame is handled. -/
theorem iterateFrame_header (env : Env) (h : Header) (st : St) :
    (∃ k hd h' sc, k ≤ st.inp.bytes.length ∧ (∀ tail, parseHdr (st.inp.bytes.take k ++ tail) = some (hd, tail)) ∧ HdrOf hd h' ∧
      iterateFrame env h st = P.bind (handleFrame env h') (fun _ => Pure.pure h') (st.read k sc)) ∨
    (∃ k x sc, k ≤ st.inp.bytes.length ∧ iterateFrame env h st = (x, st.read k sc) ∧ parseHdr (st.inp.bytes.take k) = none ∧
      (x = .block ∧ ¬ Healthy (st.inp.bytes.length + 1) st.inp.sched ∨ ∃ e, e.isRead ∧ x = .throw e) ∧
      (Healthy st.inp.bytes.length st.inp.sched → k = st.inp.bytes.length)) := by
  have he : iterateFrame env h st = P.bind (readFrameHeader env h)
      (fun h => P.bind (handleFrame env h) fun _ => Pure.pure h) st := rfl
  rw [he, P.bind_apply]
  rcases (readFrameHeader_reads env h st).outcome with ⟨k, hd, h', sc, hk, e, hp, hh, _⟩ | ⟨k, x, sc, hk, hsl, e, hx, hp, hall⟩
  · rw [e]
    exact .inl ⟨k, hd, h', sc, hk, hp, hh, rfl⟩
  · rw [e]
    refine .inr ⟨k, ?_, sc, hk, ?_⟩
    · exact match x with
      | .block => .block
      | .throw e => .throw e
      | .ret _ => .block
      | .ub u => .ub u
    · rcases hx with ⟨rfl, hx⟩ | ⟨er, her, rfl⟩
      · exact ⟨rfl, hp, .inl ⟨rfl, hx⟩, hall⟩
      · exact ⟨rfl, hp, .inr ⟨er, her, rfl⟩, hall⟩

end OatWS
