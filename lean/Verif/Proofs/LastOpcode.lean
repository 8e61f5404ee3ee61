import Verif.Proofs.Refuse
import Verif.Spec.Loop
/-! # The fragmentation state, for every listener -/

namespace OatWS
open RFC6455

def LastP {α} (m : P St α) : Prop := ∀ st, (m st).2.sock.lastOpcode = st.sock.lastOpcode

theorem LastP.pure {α} (a : α) : LastP (Pure.pure a : P St α) := fun _ => rfl
theorem LastP.fail {α} (e : Err) : LastP (P.fail e : P St α) := fun _ => rfl
theorem LastP.get : LastP (P.get : P St St) := fun _ => rfl

theorem LastP.bind {α β} {m : P St α} {f : α → P St β} (h : LastP m) (h' : ∀ a, LastP (f a)) : LastP (m >>= f) := by
  intro s
  have h1 := h s
  rw [P.bind_def, P.bind_apply]
  rcases hm : m s with ⟨(a | _ | _ | _), s'⟩ <;> rw [hm] at h1 <;> simp only []
  · exact (h' a s').trans h1
  all_goals exact h1

theorem LastP.ite {α} {c : Prop} [Decidable c] {a b : P St α} (ha : LastP a) (hb : LastP b) : LastP (if c then a else b) := by
  split
  · exact ha
  · exact hb

theorem runUserOp_last (env : Env) (op s) : (runUserOp env op s).2.lastOpcode = s.lastOpcode := by
  cases op with
  | send call catches =>
    have := (send_keeps env call s).lastOpcode
    unfold runUserOp
    rcases hs : send env call s with ⟨(_ | _ | _ | _), s'⟩ <;> rw [hs] at this <;> simp only [hs]
    · exact this
    · split <;> exact this
    all_goals exact this
  | _ => rfl

theorem runUserOps_last (env : Env) (ops s) : (runUserOps env ops s).2.lastOpcode = s.lastOpcode :=
  userOps_follow (env := env) (fun _ s s' => s'.lastOpcode = s.lastOpcode) (fun _ => rfl) (fun h1 h2 => h2.trans h1) ops
    (fun op _ s => runUserOp_last env op s) s

theorem callListener_last (env : Env) (mk) (s : Sock) : (callListener env mk s).2.lastOpcode = s.lastOpcode := by
  unfold callListener
  split
  · rfl
  · exact runUserOps_last env _ _

theorem LastP.call (env : Env) (mk) : LastP (liftSock (callListener env mk)) := fun st => callListener_last env mk st.sock

theorem loop_last (env : Env) (h : Header) (short cap) (sched : List IoOutcome) : ∀ bytes s p acc,
    (readPayloadLoop env h short cap sched bytes s p acc).2.sock.lastOpcode = s.lastOpcode := by
  induction sched with
  | nil =>
    intro bytes s p acc
    unfold readPayloadLoop
    split <;> rfl
  | cons o sched ih =>
    intro bytes s p acc
    unfold readPayloadLoop
    split
    · simp only []
      generalize (if s.config.readBufferSize > h.payloadLength - p then h.payloadLength - p else s.config.readBufferSize) = want
      split
      · rfl
      · split
        · split
          · rfl
          · split
            · exact ih _ _ _ _
            · have := fun d => callListener_last env (fun l => .readMessage l h.opcode d) s
              split
              all_goals
                rename_i hc
                have hc := (congrArg (fun r => r.2.lastOpcode = s.lastOpcode) hc).mp (this _)
              · exact (ih _ _ _ _).trans hc
              all_goals exact hc
        · exact ih _ _ _ _
        · rfl
        · rfl
    · rfl

theorem readPayload_last (env h short) : LastP (readPayload env h short) := by
  unfold readPayload
  refine .ite (.fail _) (LastP.bind .get fun st => .ite (.fail _) (LastP.bind ?_ fun acc => LastP.bind ?_ fun _ => .pure _))
  · intro st; exact loop_last _ _ _ _ _ _ _ _ _
  · unfold endMarker; exact .ite (.call _ _) (.pure _)

/-- What a frame with this header leaves behind, whatever else happens. -/
theorem handleFrame_last (env : Env) (h : Header) (st : St) : (handleFrame env h st).2.sock.lastOpcode =
    if (h.opcode = 1 ∨ h.opcode = 2) ∧ ¬ (st.sock.lastOpcode = 1 ∨ st.sock.lastOpcode = 2) then
      (if h.fin then -1 else (h.opcode.toNat : Int)) else st.sock.lastOpcode := by
  have hdata : LastP (do let _ ← readPayload env h false : P St Unit) := (readPayload_last env h _).bind fun _ => .pure _
  have hctl : ∀ (mk : List UInt8 → Nat → Event), LastP (P.bind (readPayload env h true) (fun data => liftSock (callListener env (mk data)))) :=
    fun mk => (readPayload_last env h _).bind fun _ => .call _ _
  have hchk : (h.opcode = 1 ∨ h.opcode = 2) →
      (P.bind (liftSock (checkForContinuation h)) (fun b => if b = true then (do let _ ← readPayload env h false : P St Unit)
        else P.fail .continuationExpected) st).2.sock.lastOpcode =
      if (h.opcode = 1 ∨ h.opcode = 2) ∧ ¬ (st.sock.lastOpcode = 1 ∨ st.sock.lastOpcode = 2) then
        (if h.fin then -1 else (h.opcode.toNat : Int)) else st.sock.lastOpcode := by
    intro hop
    rw [P.bind_apply]
    by_cases c : st.sock.lastOpcode = 1 ∨ st.sock.lastOpcode = 2
    · have e : checkForContinuation h st.sock = (.ret false, st.sock) := by
        unfold checkForContinuation; exact if_pos c
      rw [liftSock, e, if_neg (fun x => x.2 c)]; rfl
    · rw [if_pos ⟨hop, c⟩]
      have e : checkForContinuation h st.sock = (.ret true, { st.sock with lastOpcode := if h.fin then -1 else (h.opcode.toNat : Int) }) := by
        unfold checkForContinuation
        refine (if_neg c).trans ?_
        cases h.fin <;> rfl
      rw [liftSock, e]
      exact hdata _
  unfold handleFrame
  by_cases c0 : h.opcode = OPCODE_CONTINUATION
  · rw [if_pos c0]
    refine Eq.trans ?_ (if_neg (fun x => by rw [c0] at x; revert x; simp [OPCODE_CONTINUATION])).symm
    exact (LastP.bind LastP.get fun s => .ite (.fail _) hdata) st
  rw [if_neg c0]
  by_cases c1 : h.opcode = OPCODE_TEXT
  · rw [if_pos c1]; exact hchk (.inl c1)
  rw [if_neg c1]
  by_cases c2 : h.opcode = OPCODE_BINARY
  · rw [if_pos c2]; exact hchk (.inr c2)
  have hn : ¬ ((h.opcode = 1 ∨ h.opcode = 2) ∧ ¬ (st.sock.lastOpcode = 1 ∨ st.sock.lastOpcode = 2)) := fun x => x.1.elim c1 c2
  rw [if_neg c2]
  refine Eq.trans ?_ (if_neg hn).symm
  by_cases c8 : h.opcode = OPCODE_CLOSE
  · rw [if_pos c8]; exact hctl (fun d l => .onClose l (closeArgs env d).1 (closeArgs env d).2) st
  rw [if_neg c8]
  by_cases c9 : h.opcode = OPCODE_PING
  · rw [if_pos c9]; exact hctl (fun d l => .onPing l d) st
  rw [if_neg c9]
  by_cases cA : h.opcode = OPCODE_PONG
  · rw [if_pos cA]; exact hctl (fun d l => .onPong l d) st
  rw [if_neg cA]
  rfl

end OatWS
