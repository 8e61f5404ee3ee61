import Verif.Proofs.Follow
/-! With a listener that only looks, the run is the same as without a listener, except for the callbacks. -/

namespace OatWS

/-- Forget listener and callbacks. -/
def Sock.mute (s : Sock) : Sock := { s with listener := none, trace := [] }
def St.mute (st : St) : St := { st with sock := st.sock.mute }

/-- The program does the same with and without a listener. -/
def Mutes {α} (m : P St α) : Prop := ∀ st, (m st.mute).1 = (m st).1 ∧ (m st.mute).2 = (m st).2.mute

theorem Mutes.pure {α} (a : α) : Mutes (Pure.pure a : P St α) := fun _ => ⟨rfl, rfl⟩
theorem Mutes.fail {α} (e : Err) : Mutes (P.fail e : P St α) := fun _ => ⟨rfl, rfl⟩

theorem Mutes.bind {α β} {m : P St α} {f : α → P St β} (h : Mutes m) (h' : ∀ a, Mutes (f a)) : Mutes (m >>= f) := by
  intro s
  have h1 := h s
  rw [P.bind_def, P.bind_apply, P.bind_apply]
  rcases hm : m s with ⟨(a | _ | _ | _), s'⟩ <;> rcases hn : m s.mute with ⟨(b | _ | _ | _), s''⟩ <;>
    rw [hm, hn] at h1 <;> obtain ⟨h1, h2⟩ := h1 <;> simp only [] at h1 h2 ⊢ <;> cases h1 <;> subst h2
  · exact h' a s'
  all_goals first | exact ⟨rfl, rfl⟩ | exact ⟨trivial, rfl⟩

theorem Mutes.ite {α} {c : Prop} [Decidable c] {a b : P St α} (ha : Mutes a) (hb : Mutes b) : Mutes (if c then a else b) := by
  split
  · exact ha
  · exact hb

theorem callListener_quiet {env : Env} (hq : env.Quiet) (mk) (s : Sock) : ∃ s', callListener env mk s = (.ret (), s') ∧
    s'.mute = s.mute := by
  cases hl : s.listener with
  | none => rw [callListener_none hl]; exact ⟨s, rfl, rfl⟩
  | some l => rw [callListener_some hl, hq]; exact ⟨_, rfl, rfl⟩

theorem callListener_muted {env : Env} (mk) (s : Sock) : callListener env mk s.mute = (.ret (), s.mute) := callListener_none rfl

theorem Mutes.call {env : Env} (hq : env.Quiet) (mk) : Mutes (liftSock (callListener env mk)) := by
  intro st
  obtain ⟨s', e, h⟩ := callListener_quiet hq mk st.sock
  unfold liftSock
  have : st.mute.sock = st.sock.mute := rfl
  rw [this, callListener_muted, e]
  exact ⟨rfl, by show ({ sock := st.sock.mute, inp := st.inp } : St) = { sock := s'.mute, inp := st.inp }; rw [h]⟩

theorem loop_mutes {env : Env} (hq : env.Quiet) (h : Header) (short : Bool) (cap : Nat) (sched : List IoOutcome)
    (bytes : List UInt8) (s : Sock) (p : Int) (acc : List UInt8) :
    (readPayloadLoop env h short cap sched bytes s.mute p acc).1 = (readPayloadLoop env h short cap sched bytes s p acc).1 ∧
    (readPayloadLoop env h short cap sched bytes s.mute p acc).2 = (readPayloadLoop env h short cap sched bytes s p acc).2.mute := by
  induction sched generalizing bytes s p acc with
  | nil =>
    unfold readPayloadLoop
    split <;> exact ⟨rfl, rfl⟩
  | cons o sched ih =>
    unfold readPayloadLoop
    have hc : s.mute.config = s.config := rfl
    split
    · simp only [hc]
      generalize (if s.config.readBufferSize > h.payloadLength - p then h.payloadLength - p
        else s.config.readBufferSize) = want
      split
      · exact ⟨rfl, rfl⟩
      · rcases lowRead o bytes want.toNat with ⟨(bs | _ | _ | _), bytes'⟩ <;> simp only []
        · split
          · exact ⟨rfl, rfl⟩
          · split
            · exact ih _ _ _ _
            · obtain ⟨s', e, hm⟩ := callListener_quiet hq (fun l => .readMessage l h.opcode
                (if h.hasMask = true then xorMask h.mask p.toNat bs else bs)) s
              rw [callListener_muted, e]
              simp only []
              rw [← hm]
              exact ih _ _ _ _
        · exact ih _ _ _ _
        · exact ⟨trivial, rfl⟩
        · exact ⟨trivial, rfl⟩
    · exact ⟨rfl, rfl⟩

theorem get_ite_mutes {α} {c : St → Prop} [∀ st, Decidable (c st)] {a b : P St α} (hc : ∀ st, c st.mute ↔ c st) (ha : Mutes a)
    (hb : Mutes b) : Mutes (P.get >>= fun st => if c st then a else b) := by
  intro st
  rw [P.bind_def, P.bind_apply, P.bind_apply]
  simp only [P.get]
  by_cases h : c st
  · rw [if_pos h, if_pos ((hc st).mpr h)]; exact ha st
  · rw [if_neg h, if_neg (fun e => h ((hc st).mp e))]; exact hb st

theorem readPayload_mutes {env : Env} (hq : env.Quiet) (h short) : Mutes (readPayload env h short) := by
  unfold readPayload
  refine .ite (.fail _) (get_ite_mutes (fun _ => Iff.rfl) (.fail _) (Mutes.bind ?_ fun acc => Mutes.bind ?_ fun _ => .pure _))
  · intro st; exact loop_mutes hq ..
  · unfold endMarker; exact .ite (.call hq _) (.pure _)

theorem handleFrame_mutes {env : Env} (hq : env.Quiet) (h) : Mutes (handleFrame env h) := by
  have hc : Mutes (liftSock (checkForContinuation h)) := by
    intro st
    have e : st.mute.sock.lastOpcode = st.sock.lastOpcode := rfl
    simp only [liftSock, checkForContinuation, e]
    split
    · exact ⟨rfl, rfl⟩
    · split <;> exact ⟨rfl, rfl⟩
  unfold handleFrame
  refine .ite (get_ite_mutes (fun _ => Iff.rfl) (.fail _) (Mutes.bind (readPayload_mutes hq h _) fun _ => .pure _)) ?_
  refine .ite (Mutes.bind hc fun b => .ite (Mutes.bind (readPayload_mutes hq h _) fun _ => .pure _) (.fail _)) ?_
  refine .ite (Mutes.bind hc fun b => .ite (Mutes.bind (readPayload_mutes hq h _) fun _ => .pure _) (.fail _)) ?_
  refine .ite (Mutes.bind (readPayload_mutes hq h _) fun _ => Mutes.call hq _) ?_
  refine .ite (Mutes.bind (readPayload_mutes hq h _) fun _ => Mutes.call hq _) ?_
  exact .ite (Mutes.bind (readPayload_mutes hq h _) fun _ => Mutes.call hq _) (.fail _)

theorem connReadExact_mutes (n) : Mutes (connReadExact n) := by
  intro st
  unfold connReadExact
  have e : st.mute.inp = st.inp := rfl
  rw [e]
  rcases readExact st.inp.sched st.inp.bytes n [] with ⟨(_ | _), inp'⟩ <;> exact ⟨rfl, rfl⟩

theorem readFrameHeader_mutes (env : Env) (h) : Mutes (readFrameHeader env h) := by
  have hlen : ∀ l, Mutes (readLength env l) := by
    intro l
    unfold readLength
    refine .ite (.pure _) (.ite (Mutes.bind (connReadExact_mutes _) fun a => ?_) (Mutes.bind (connReadExact_mutes _) fun a => ?_))
    · split
      · exact .pure _
      · exact .fail _
    · split
      · exact .pure _
      · exact .fail _
  unfold readFrameHeader
  refine Mutes.bind (connReadExact_mutes _) fun a => ?_
  split
  · simp only [unpackHeaderBits]
    refine Mutes.bind (hlen _) fun len => ?_
    refine .ite (Mutes.bind (connReadExact_mutes _) fun a => ?_) (.pure _)
    split
    · exact .pure _
    · exact .fail _
  · exact .fail _

theorem iterateFrame_mutes {env : Env} (hq : env.Quiet) (h) : Mutes (iterateFrame env h) := by
  unfold iterateFrame
  exact Mutes.bind (readFrameHeader_mutes env h) fun h => Mutes.bind (handleFrame_mutes hq h) fun _ => .pure _

theorem listenLoop_mutes {env : Env} (hq : env.Quiet) (fuel h) : Mutes (listenLoop env fuel h) := by
  induction fuel generalizing h with
  | zero => exact fun _ => ⟨rfl, rfl⟩
  | succ fuel ih =>
    intro st
    simp only [listenLoop]
    have h1 := iterateFrame_mutes hq h st
    rcases hm : iterateFrame env h st with ⟨(a | _ | _ | _), s'⟩ <;> rcases hn : iterateFrame env h st.mute with ⟨(b | _ | _ | _), s''⟩ <;>
      rw [hm, hn] at h1 <;> obtain ⟨h1, h2⟩ := h1 <;> simp only [] at h1 h2 ⊢ <;> cases h1 <;> subst h2
    · have : s'.mute.sock.listening = s'.sock.listening := rfl
      rw [this]
      split
      · exact ih a s'
      · exact ⟨rfl, rfl⟩
    all_goals first | exact ⟨rfl, rfl⟩ | exact ⟨trivial, rfl⟩

end OatWS
