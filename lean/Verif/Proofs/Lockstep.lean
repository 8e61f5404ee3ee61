import Verif.Proofs.Follow
/-! # Two runs in lock-step -/

namespace OatWS

/-- The view `V` of the socket, under `env0`, does what the socket does under `env`. -/
structure Lockstep (V : Sock → Sock) (env env0 : Env) : Prop where
  config : ∀ s, (V s).config = s.config
  lastOpcode : ∀ s, (V s).lastOpcode = s.lastOpcode
  setLast : ∀ s o, V { s with lastOpcode := o } = { V s with lastOpcode := o }
  host : env0.host = env.host
  call : ∀ mk s, callListener env0 mk (V s) = ((callListener env mk s).1, V (callListener env mk s).2)

/-- A pair of programs in lock-step. -/
def Locked {α} (V : Sock → Sock) (m m0 : P St α) : Prop :=
  ∀ st : St, m0 { st with sock := V st.sock } = ((m st).1, { (m st).2 with sock := V (m st).2.sock })

variable {V : Sock → Sock} {env env0 : Env}

theorem Locked.pure {α} (a : α) : Locked V (Pure.pure a : P St α) (Pure.pure a) := fun _ => rfl
theorem Locked.fail {α} (e : Err) : Locked V (P.fail e : P St α) (P.fail e) := fun _ => rfl

theorem Locked.bind {α β} {m m0 : P St α} {f f0 : α → P St β} (h : Locked V m m0) (h' : ∀ a, Locked V (f a) (f0 a)) :
    Locked V (m >>= f) (m0 >>= f0) := by
  intro st
  rw [P.bind_def, P.bind_def, P.bind_apply, P.bind_apply, h st]
  rcases m st with ⟨(a | _ | _ | _), st'⟩ <;> simp only []
  exact h' a st'

theorem Locked.ite {α} {c : Prop} [Decidable c] {a b a0 b0 : P St α} (ha : Locked V a a0) (hb : Locked V b b0) :
    Locked V (if c then a else b) (if c then a0 else b0) := by
  split
  · exact ha
  · exact hb

theorem Locked.getIte {α} {c : St → Prop} [∀ st, Decidable (c st)] {a b a0 b0 : P St α}
    (hc : ∀ st : St, c { st with sock := V st.sock } ↔ c st) (ha : Locked V a a0) (hb : Locked V b b0) :
    Locked V (P.get >>= fun st => if c st then a else b) (P.get >>= fun st => if c st then a0 else b0) := by
  intro st
  rw [P.bind_def, P.bind_def, P.bind_apply, P.bind_apply]
  simp only [P.get]
  by_cases h : c st
  · rw [if_pos h, if_pos ((hc st).mpr h)]; exact ha st
  · rw [if_neg h, if_neg (fun e => h ((hc st).mp e))]; exact hb st

theorem Lockstep.liftCall (L : Lockstep V env env0) (mk : Nat → Event) :
    Locked V (liftSock (callListener env mk)) (liftSock (callListener env0 mk)) := by
  intro st
  simp only [liftSock, L.call]

theorem Lockstep.loop (L : Lockstep V env env0) (h : Header) (short : Bool) (cap : Nat) (sched : List IoOutcome)
    (bytes : List UInt8) (s : Sock) (p : Int) (acc : List UInt8) :
    readPayloadLoop env0 h short cap sched bytes (V s) p acc =
      ((readPayloadLoop env h short cap sched bytes s p acc).1,
        { (readPayloadLoop env h short cap sched bytes s p acc).2 with sock := V (readPayloadLoop env h short cap sched bytes s p acc).2.sock }) := by
  induction sched generalizing bytes s p acc with
  | nil =>
    unfold readPayloadLoop
    split <;> rfl
  | cons o sched ih =>
    unfold readPayloadLoop
    split
    · simp only [L.config]
      generalize (if s.config.readBufferSize > h.payloadLength - p then h.payloadLength - p
        else s.config.readBufferSize) = want
      split
      · rfl
      · rcases lowRead o bytes want.toNat with ⟨(bs | _ | _ | _), bytes'⟩ <;> simp only []
        · split
          · rfl
          · split
            · exact ih _ _ _ _
            · rw [L.call]
              rcases callListener env (fun l => .readMessage l h.opcode
                (if h.hasMask = true then xorMask h.mask p.toNat bs else bs)) s with ⟨(a | _ | _ | _), s'⟩ <;> simp only []
              exact ih _ _ _ _
        · exact ih _ _ _ _
    · rfl

theorem Lockstep.readPayload (L : Lockstep V env env0) (h short) : Locked V (readPayload env h short) (readPayload env0 h short) := by
  unfold OatWS.readPayload
  refine .ite (.fail _) (.getIte (fun st => by simp only [L.config]) (.fail _) (Locked.bind ?_ fun acc => Locked.bind ?_ fun _ => .pure _))
  · intro st
    unfold runPayloadLoop
    simp only [L.config]
    exact L.loop ..
  · unfold endMarker; exact .ite (L.liftCall _) (.pure _)

theorem Lockstep.closeArgs (L : Lockstep V env env0) (d : List UInt8) : OatWS.closeArgs env0 d = OatWS.closeArgs env d := by
  unfold OatWS.closeArgs
  rw [L.host]

theorem Lockstep.handleFrame (L : Lockstep V env env0) (h) : Locked V (handleFrame env h) (handleFrame env0 h) := by
  have hc : Locked V (liftSock (checkForContinuation h)) (liftSock (checkForContinuation h)) := by
    intro st
    simp only [liftSock, checkForContinuation, L.lastOpcode]
    split
    · rfl
    · split
      · exact congrArg (fun s => (Exit.ret true, ({ sock := s, inp := st.inp } : St))) (L.setLast st.sock _).symm
      · exact congrArg (fun s => (Exit.ret true, ({ sock := s, inp := st.inp } : St))) (L.setLast st.sock _).symm
  unfold OatWS.handleFrame
  refine .ite (.getIte (fun st => by simp only [L.lastOpcode]) (.fail _) (Locked.bind (L.readPayload h _) fun _ => .pure _)) ?_
  refine .ite (Locked.bind hc fun b => .ite (Locked.bind (L.readPayload h _) fun _ => .pure _) (.fail _)) ?_
  refine .ite (Locked.bind hc fun b => .ite (Locked.bind (L.readPayload h _) fun _ => .pure _) (.fail _)) ?_
  refine .ite (Locked.bind (L.readPayload h _) fun d => ?_) ?_
  · simp only [L.closeArgs]
    exact L.liftCall _
  refine .ite (Locked.bind (L.readPayload h _) fun _ => L.liftCall _) ?_
  exact .ite (Locked.bind (L.readPayload h _) fun _ => L.liftCall _) (.fail _)

theorem connReadExact_locked (n) : Locked V (connReadExact n) (connReadExact n) := by
  intro st
  unfold connReadExact
  simp only []
  rcases readExact st.inp.sched st.inp.bytes n [] with ⟨(_ | _), inp'⟩ <;> rfl

theorem Lockstep.readFrameHeader (L : Lockstep V env env0) (h) : Locked V (readFrameHeader env h) (readFrameHeader env0 h) := by
  have hlen : ∀ l, Locked V (readLength env l) (readLength env0 l) := by
    intro l
    unfold readLength
    rw [L.host]
    refine .ite (.pure _) (.ite (Locked.bind (connReadExact_locked _) fun a => ?_) (Locked.bind (connReadExact_locked _) fun a => ?_))
    · split
      · exact .pure _
      · exact .fail _
    · split
      · exact .pure _
      · exact .fail _
  unfold OatWS.readFrameHeader
  rw [L.host]
  refine Locked.bind (connReadExact_locked _) fun a => ?_
  split
  · simp only [unpackHeaderBits]
    refine Locked.bind (hlen _) fun len => ?_
    refine .ite (Locked.bind (connReadExact_locked _) fun a => ?_) (.pure _)
    split
    · exact .pure _
    · exact .fail _
  · exact .fail _

theorem Lockstep.iterateFrame (L : Lockstep V env env0) (h) : Locked V (iterateFrame env h) (iterateFrame env0 h) := by
  unfold OatWS.iterateFrame
  exact Locked.bind (L.readFrameHeader h) fun h => Locked.bind (L.handleFrame h) fun _ => .pure _

end OatWS
