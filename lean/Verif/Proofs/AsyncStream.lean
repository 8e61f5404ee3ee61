import Verif.Spec.AsyncStream
import Verif.Proofs.Mask
/-!
# Frames that a coroutine of the application writes itself are sends

First: a step does not depend on the outcomes of writes that come later (`step_sch`).
-/

namespace OatWS.Async

@[simp] theorem sch_inp (w : World) (s : List IoOutcome) : (w.sch s).st.inp = w.st.inp := rfl
@[simp] theorem sch_config (w : World) (s : List IoOutcome) : (w.sch s).st.sock.config = w.st.sock.config := rfl
@[simp] theorem sch_listener (w : World) (s : List IoOutcome) : (w.sch s).st.sock.listener = w.st.sock.listener := rfl
@[simp] theorem sch_lastOpcode (w : World) (s : List IoOutcome) : (w.sch s).st.sock.lastOpcode = w.st.sock.lastOpcode := rfl
@[simp] theorem sch_written (w : World) (s : List IoOutcome) : (w.sch s).st.sock.out.written = w.st.sock.out.written := rfl
@[simp] theorem sch_rngPos (w : World) (s : List IoOutcome) : (w.sch s).st.sock.rngPos = w.st.sock.rngPos := rfl
@[simp] theorem sch_sched (w : World) (s : List IoOutcome) : (w.sch s).st.sock.out.sched = s := rfl
@[simp] theorem sch_sch (w : World) (s s' : List IoOutcome) : (w.sch s).sch s' = w.sch s' := rfl
@[simp] theorem sch_self (w : World) : w.sch w.st.sock.out.sched = w := rfl
theorem sch_setInp (w : World) (s : List IoOutcome) (i : InStream) : (w.sch s).setInp i = (w.setInp i).sch s := rfl
theorem sch_free (w : World) (s : List IoOutcome) (i : Nat) : (w.sch s).free i = (w.free i).sch s := rfl
theorem sch_store (w : World) (s : List IoOutcome) (i : Nat) (b : List UInt8) : (w.sch s).store i b = (w.store i b).sch s := rfl
theorem sch_setOut (w : World) (s : List IoOutcome) (o : OutStream) : (w.sch s).setOut o = w.setOut o := rfl

/-- What a step gives, but for the outcomes of the coming writes. -/
def mapSch (s : List IoOutcome) (x : Act × Local × World) : Act × Local × World := (x.1, x.2.1, x.2.2.sch s)

theorem readStep_sch (need : Nat) (got : List UInt8) (l : Local) (w : World) (again : List UInt8 → Co) (cont : List UInt8 → World → Act × Local × World) (s : List IoOutcome)
    (h : ∀ g w, cont g (w.sch s) = mapSch s (cont g w)) : readStep need got l (w.sch s) again cont = mapSch s (readStep need got l w again cont) := by
  unfold readStep
  rw [sch_inp]
  split
  · rfl
  · rename_i i _; exact h _ (w.setInp i)
  · rfl
  · rfl

theorem readFrameStep_sch (env : Env) (c : ReadFrameCo) (l : Local) (w : World) (s : List IoOutcome) : readFrameStep env c l (w.sch s) = mapSch s (readFrameStep env c l w) := by
  unfold readFrameStep
  split
  · exact readStep_sch _ _ _ _ _ _ _ (fun _ _ => rfl)
  · split
    · split
      split
      · rfl
      · split <;> rfl
    · rfl
  · exact readStep_sch _ _ _ _ _ _ _ (fun _ _ => rfl)
  · simp only []
    split <;> rfl
  · refine readStep_sch _ _ _ _ _ _ _ (fun g w => ?_)
    split <;> rfl

theorem callback_sch (env : Env) (ev : Event) (ptr : Option Nat) (data : List UInt8) (w : World) (s : List IoOutcome) :
    callback env ev ptr data (w.sch s) = ((callback env ev ptr data w).1, (callback env ev ptr data w).2.sch s) := rfl

theorem userStep_sch (env : Env) (c : UserCo) (l : Local) (w : World) (s : List IoOutcome) : userStep env c l (w.sch s) = mapSch s (userStep env c l w) := by
  unfold userStep
  split <;> rfl

theorem readPayloadStep_sch (env : Env) (c : ReadPayloadCo) (l : Local) (w : World) (s : List IoOutcome) : readPayloadStep env c l (w.sch s) = mapSch s (readPayloadStep env c l w) := by
  unfold readPayloadStep
  split
  · split
    · rfl
    · split
      · split <;> rfl
      · rfl
  · split
    · rfl
    · rw [sch_inp]
      split
      · rfl
      · split
        · split <;> rfl
        · rfl
        · rfl
        · rfl
  · split
    · simp only []
      split
      · split
        · rfl
        · split <;> rfl
      · split
        · rfl
        · split <;> rfl
    · rfl
  · rfl

theorem startPayload_sch (c : HandleFrameCo) (short : Bool) (pc : HandleFramePc) (l : Local) (w : World) (s : List IoOutcome) :
    startPayload c short pc l (w.sch s) = mapSch s (startPayload c short pc l w) := by
  unfold startPayload readPayloadAsync
  rw [sch_config]
  by_cases h1 : short = true ∧ l.hdr.payloadLength > 125
  · rw [if_pos h1, if_pos h1]; rfl
  · rw [if_neg h1, if_neg h1]
    by_cases h2 : w.st.sock.config.readBufferSize < 0
    · rw [if_pos h2, if_pos h2]; rfl
    · rw [if_neg h2, if_neg h2]; rfl

theorem startData_sch (c : HandleFrameCo) (l : Local) (w : World) (s : List IoOutcome) : startData c l (w.sch s) = mapSch s (startData c l w) := by
  unfold startData checkForContinuationA
  rw [sch_lastOpcode]
  by_cases h1 : w.st.sock.lastOpcode = OPCODE_TEXT.toNat ∨ w.st.sock.lastOpcode = OPCODE_BINARY.toNat
  · rw [if_pos h1, if_pos h1]; rfl
  · rw [if_neg h1, if_neg h1]
    by_cases h2 : l.hdr.fin = true
    · rw [if_pos h2, if_pos h2]; exact startPayload_sch _ _ _ _ (w.setSock { w.st.sock with lastOpcode := -1 }) s
    · rw [if_neg h2, if_neg h2]; exact startPayload_sch _ _ _ _ (w.setSock { w.st.sock with lastOpcode := l.hdr.opcode.toNat }) s

theorem controlCallback_sch (env : Env) (c : HandleFrameCo) (mk : Nat → Event) (l : Local) (w : World) (s : List IoOutcome) :
    controlCallback env c mk l (w.sch s) = mapSch s (controlCallback env c mk l w) := by
  unfold controlCallback
  split <;> rfl

theorem handleFrameStep_sch (env : Env) (c : HandleFrameCo) (l : Local) (w : World) (s : List IoOutcome) : handleFrameStep env c l (w.sch s) = mapSch s (handleFrameStep env c l w) := by
  unfold handleFrameStep
  split
  · split
    · rw [sch_lastOpcode]
      split
      · rfl
      · exact startPayload_sch ..
    · split
      · exact startData_sch ..
      · split
        · exact startData_sch ..
        · split
          · exact startPayload_sch ..
          · split
            · exact startPayload_sch ..
            · split
              · exact startPayload_sch ..
              · rfl
  · exact controlCallback_sch ..
  · exact controlCallback_sch ..
  · exact controlCallback_sch ..
  · rfl

theorem listenStep_sch (l : Local) (w : World) (s : List IoOutcome) : listenStep l (w.sch s) = mapSch s (listenStep l w) := by
  unfold listenStep
  split <;> rfl

/-- A write that takes `k ≥ 1` bytes, or none. -/
theorem writeInline_sch (left : List UInt8) (w : World) {r : Io (List UInt8)} {o : OutStream} (h : writeInline left w.st.sock.out = (r, o)) (hb : r ≠ .blocked) (s' : List IoOutcome) :
    ∃ s, writeInline left (w.sch s).st.sock.out = (r, ⟨o.written, s'⟩) := by
  unfold writeInline at h ⊢
  cases left with
  | nil =>
    simp only [Prod.mk.injEq] at h
    exact ⟨s', by rw [← h.1, ← h.2]; rfl⟩
  | cons b bs =>
    cases hs : w.st.sock.out.sched with
    | nil => rw [hs] at h; simp only [Prod.mk.injEq] at h; exact absurd h.1.symm hb
    | cons x sched =>
      refine ⟨x :: s', ?_⟩
      rw [hs] at h
      rw [sch_sched]
      cases x with
      | upTo m =>
        simp only [] at h ⊢
        rw [sch_written]
        by_cases hk : List.drop (min (m + 1) (b :: bs).length) (b :: bs) = []
        · rw [if_pos hk] at h ⊢
          simp only [Prod.mk.injEq] at h
          rw [← h.1, ← h.2]
        · rw [if_neg hk] at h ⊢
          simp only [Prod.mk.injEq] at h
          rw [← h.1, ← h.2]
      | retry => simp only [Prod.mk.injEq] at h; rw [← h.1, ← h.2]; rfl
      | zero => simp only [Prod.mk.injEq] at h; rw [← h.1, ← h.2]; rfl
      | broken => simp only [Prod.mk.injEq] at h; rw [← h.1, ← h.2]; rfl

theorem writeStep_sch (left : List UInt8) (l : Local) (w : World) (again : List UInt8 → Co) (cont : Act) {a : Act} {l' : Local} {w' : World}
    (h : writeStep left l w again cont = (a, l', w')) (hb : a ≠ .blocked) (s' : List IoOutcome) : ∃ s, writeStep left l (w.sch s) again cont = (a, l', w'.sch s') := by
  unfold writeStep at h ⊢
  rcases hr : writeInline left w.st.sock.out with ⟨r, o⟩
  rw [hr] at h
  have hnb : r ≠ .blocked := by
    rintro rfl
    simp only [Prod.mk.injEq] at h
    exact hb h.1.symm
  obtain ⟨s, hs⟩ := writeInline_sch left w hr hnb s'
  refine ⟨s, ?_⟩
  rw [hs]
  cases r with
  | again g => simp only [Prod.mk.injEq] at h ⊢; exact ⟨h.1, h.2.1, by rw [← h.2.2]; rfl⟩
  | done g => simp only [Prod.mk.injEq] at h ⊢; exact ⟨h.1, h.2.1, by rw [← h.2.2]; rfl⟩
  | failed => simp only [Prod.mk.injEq] at h ⊢; exact ⟨h.1, h.2.1, by rw [← h.2.2]; rfl⟩
  | blocked => exact absurd rfl hnb

theorem writeFrameStep_sch (env : Env) (c : WriteFrameCo) (l : Local) (w : World) {a : Act} {l' : Local} {w' : World} (h : writeFrameStep env c l w = (a, l', w')) (hb : a ≠ .blocked)
    (s' : List IoOutcome) : ∃ s, writeFrameStep env c l (w.sch s) = (a, l', w'.sch s') := by
  unfold writeFrameStep at h ⊢
  cases hc : c.pc <;> rw [hc] at h <;> dsimp only at h ⊢
  · exact writeStep_sch _ _ _ _ _ h hb s'
  · refine ⟨s', ?_⟩
    by_cases h1 : c.scenario = 2
    · rw [if_pos h1] at h ⊢; cases h; rfl
    · rw [if_neg h1] at h ⊢
      by_cases h2 : c.scenario = 3
      · rw [if_pos h2] at h ⊢; cases h; rfl
      · rw [if_neg h2] at h ⊢; cases h; rfl
  · exact writeStep_sch _ _ _ _ _ h hb s'
  · refine ⟨s', ?_⟩
    by_cases h1 : c.hdr.hasMask = true
    · rw [if_pos h1] at h ⊢; cases h; rfl
    · rw [if_neg h1] at h ⊢; cases h; rfl
  · exact writeStep_sch _ _ _ _ _ h hb s'

theorem sendFrameHeaderAsync_sch (env : Env) (h : Header) (fin : Bool) (opcode : UInt8) (n : Int) (w : World) (s : List IoOutcome) :
    sendFrameHeaderAsync env h fin opcode n (w.sch s) = ((sendFrameHeaderAsync env h fin opcode n w).1, (sendFrameHeaderAsync env h fin opcode n w).2.1, (sendFrameHeaderAsync env h fin opcode n w).2.2.sch s) := by
  unfold sendFrameHeaderAsync
  by_cases hm : w.st.sock.config.maskOutgoingMessages = true
  · have hm' : (w.sch s).st.sock.config.maskOutgoingMessages = true := hm
    simp only [if_pos hm, if_pos hm']; rfl
  · have hm' : ¬ (w.sch s).st.sock.config.maskOutgoingMessages = true := hm
    simp only [if_neg hm, if_neg hm']; rfl

theorem sendFrameStep_sch (env : Env) (c : SendFrameCo) (l : Local) (w : World) {a : Act} {l' : Local} {w' : World} (h : sendFrameStep env c l w = (a, l', w')) (hb : a ≠ .blocked)
    (s' : List IoOutcome) : ∃ s, sendFrameStep env c l (w.sch s) = (a, l', w'.sch s') := by
  unfold sendFrameStep at h ⊢
  cases hc : c.pc <;> rw [hc] at h <;> dsimp only at h ⊢
  · refine ⟨s', ?_⟩
    cases hm : c.message with
    | none =>
      rw [hm] at h
      dsimp only at h ⊢
      rw [sendFrameHeaderAsync_sch]
      simp only [Prod.mk.injEq] at h ⊢
      exact ⟨h.1, h.2.1, by rw [← h.2.2]⟩
    | some m =>
      rw [hm] at h
      cases m <;> dsimp only at h ⊢ <;> rw [sendFrameHeaderAsync_sch] <;> simp only [Prod.mk.injEq] at h ⊢ <;> exact ⟨h.1, h.2.1, by rw [← h.2.2]⟩
  · refine ⟨s', ?_⟩
    by_cases h1 : c.hdr.hasMask = true
    · rw [if_pos h1] at h ⊢
      by_cases h2 : (c.message.getD []).length ≥ 2 ^ 31
      · rw [if_pos h2] at h ⊢; cases h; rfl
      · rw [if_neg h2] at h ⊢; cases h; rfl
    · rw [if_neg h1] at h ⊢; cases h; rfl
  · exact writeStep_sch _ _ _ _ _ h hb s'
  · exact ⟨s', by cases h; rfl⟩

theorem coStep_sch (env : Env) (c : Co) (l : Local) (w : World) {a : Act} {l' : Local} {w' : World} (h : coStep env c l w = (a, l', w')) (hb : a ≠ .blocked) (s' : List IoOutcome) :
    ∃ s, coStep env c l (w.sch s) = (a, l', w'.sch s') := by
  cases c with
  | listen => exact ⟨s', by show listenStep l (w.sch s') = _; rw [listenStep_sch, show listenStep l w = _ from h]; rfl⟩
  | readFrame c => exact ⟨s', by show readFrameStep env c l (w.sch s') = _; rw [readFrameStep_sch, show readFrameStep env c l w = _ from h]; rfl⟩
  | handleFrame c => exact ⟨s', by show handleFrameStep env c l (w.sch s') = _; rw [handleFrameStep_sch, show handleFrameStep env c l w = _ from h]; rfl⟩
  | readPayload c => exact ⟨s', by show readPayloadStep env c l (w.sch s') = _; rw [readPayloadStep_sch, show readPayloadStep env c l w = _ from h]; rfl⟩
  | user c => exact ⟨s', by show userStep env c l (w.sch s') = _; rw [userStep_sch, show userStep env c l w = _ from h]; rfl⟩
  | sendFrame c => exact sendFrameStep_sch env c l w h hb s'
  | writeFrame c => exact writeFrameStep_sch env c l w h hb s'

theorem destroy_sch (c : Co) (w : World) (s : List IoOutcome) : destroy c (w.sch s) = (destroy c w).sch s := by
  cases c <;> rfl

theorem unwind_sch (e : AErr) (cs : List Co) (l : Local) (w : World) (s : List IoOutcome) : unwind e cs l (w.sch s) = ((unwind e cs l w).1, (unwind e cs l w).2.sch s) := by
  induction cs generalizing w with
  | nil => rfl
  | cons c cs ih =>
    cases c with
    | user u =>
      simp only [unwind]
      split
      · rfl
      · exact ih w
    | _ => simp only [unwind]; rw [destroy_sch]; exact ih _

theorem step_sch (env : Env) (t : Task) (w : World) {o : Outcome} {w' : World} (h : step env t w = (o, w')) (hb : o ≠ .blocked) (s' : List IoOutcome) :
    ∃ s, step env t (w.sch s) = (o, w'.sch s') ∧ ∀ c rest, t.stack = c :: rest → (coStep env c t.loc (w.sch s)).1 = (coStep env c t.loc w).1 := by
  unfold step at h ⊢
  cases ht : t.stack with
  | nil => rw [ht] at h; cases h; exact ⟨s', rfl, fun _ _ e => by cases e⟩
  | cons c rest =>
    rw [ht] at h
    rcases hc : coStep env c t.loc w with ⟨a, l, w1⟩
    dsimp only at h ⊢
    rw [hc] at h
    have hnb : a ≠ .blocked := by rintro rfl; cases h; exact hb rfl
    obtain ⟨s, hs⟩ := coStep_sch env c t.loc w hc hnb s'
    refine ⟨s, ?_, fun _ _ e => by cases e; rw [hs, hc]⟩
    rw [hs]
    cases a with
    | goto c' => cases h; rfl
    | call cs c' => cases h; rfl
    | finish =>
      dsimp only at h ⊢
      cases rest with
      | nil => cases h; dsimp only; rw [destroy_sch]
      | cons d ds => cases h; dsimp only; rw [destroy_sch]
    | error e => dsimp only at h ⊢; rw [destroy_sch, unwind_sch, h]
    | blocked => exact absurd rfl hnb
    | ub u => cases h; rfl

end OatWS.Async
