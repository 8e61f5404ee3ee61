import Verif.Proofs.AsyncBase
/-! # The async socket never uses `m_listening` -/

namespace OatWS.Async

/-- The same world, with another value of `m_listening`. -/
def World.flag (b : Bool) (w : World) : World := w.setSock { w.st.sock with listening := b }

theorem flag_setInp (b : Bool) (w : World) (i : InStream) : (w.flag b).setInp i = (w.setInp i).flag b := rfl

theorem flag_setOut (b : Bool) (w : World) (o : OutStream) : (w.flag b).setOut o = (w.setOut o).flag b := rfl

/-- The result of a step, with another value of `m_listening`. -/
def flagged (b : Bool) (r : Act × Local × World) : Act × Local × World := (r.1, r.2.1, r.2.2.flag b)

theorem readStep_flag (b : Bool) (need : Nat) (got : List UInt8) (l : Local) (w : World) (again : List UInt8 → Co) (cont : List UInt8 → World → Act × Local × World)
    (hc : ∀ g w, cont g (w.flag b) = flagged b (cont g w)) :
    readStep need got l (w.flag b) again cont = flagged b (readStep need got l w again cont) := by
  unfold readStep
  rw [show (w.flag b).st.inp = w.st.inp from rfl]
  rcases readInline need got w.st.inp with ⟨(_ | _ | _ | _), i⟩
  · rfl
  · exact hc _ (w.setInp i)
  · rfl
  · rfl

theorem writeStep_flag (b : Bool) (left : List UInt8) (l : Local) (w : World) (again : List UInt8 → Co) (cont : Act) :
    writeStep left l (w.flag b) again cont = flagged b (writeStep left l w again cont) := by
  unfold writeStep
  rw [show (w.flag b).st.sock.out = w.st.sock.out from rfl]
  rcases writeInline left w.st.sock.out with ⟨(_ | _ | _ | _), i⟩ <;> rfl

theorem readFrameStep_flag (env : Env) (b : Bool) (c : ReadFrameCo) (l : Local) (w : World) : readFrameStep env c l (w.flag b) = flagged b (readFrameStep env c l w) := by
  unfold readFrameStep
  rcases c with ⟨pc, lt, need, got⟩
  cases pc <;> simp only []
  · exact readStep_flag _ _ _ _ _ _ _ fun _ _ => rfl
  · split
    · split <;> (try split) <;> rfl
    · rfl
  · exact readStep_flag _ _ _ _ _ _ _ fun _ _ => rfl
  · split <;> rfl
  · refine readStep_flag _ _ _ _ _ _ _ fun _ _ => ?_
    split <;> rfl

theorem writeFrameStep_flag (env : Env) (b : Bool) (c : WriteFrameCo) (l : Local) (w : World) : writeFrameStep env c l (w.flag b) = flagged b (writeFrameStep env c l w) := by
  unfold writeFrameStep
  split
  · exact writeStep_flag ..
  · split <;> (try split) <;> rfl
  · exact writeStep_flag ..
  · split <;> rfl
  · exact writeStep_flag ..

theorem sendFrameHeaderAsync_flag (env : Env) (b : Bool) (h : Header) (fin : Bool) (op : UInt8) (n : Int) (w : World) :
    sendFrameHeaderAsync env h fin op n (w.flag b) =
      ((sendFrameHeaderAsync env h fin op n w).1, (sendFrameHeaderAsync env h fin op n w).2.1, (sendFrameHeaderAsync env h fin op n w).2.2.flag b) := by
  unfold sendFrameHeaderAsync
  simp only []
  rw [show (w.flag b).st.sock.config = w.st.sock.config from rfl]
  split <;> rfl

theorem sendFrameStep_flag (env : Env) (b : Bool) (c : SendFrameCo) (l : Local) (w : World) : sendFrameStep env c l (w.flag b) = flagged b (sendFrameStep env c l w) := by
  unfold sendFrameStep
  split
  · split
    · rw [sendFrameHeaderAsync_flag]; rfl
    · rw [sendFrameHeaderAsync_flag]; rfl
  · simp only []
    split
    · split <;> rfl
    · rfl
  · exact writeStep_flag ..
  · rfl

theorem userStep_flag (env : Env) (b : Bool) (c : UserCo) (l : Local) (w : World) : userStep env c l (w.flag b) = flagged b (userStep env c l w) := by
  unfold userStep
  rcases c.ops with _ | ⟨op, ops⟩
  · rfl
  · cases op <;> rfl

theorem readPayloadStep_flag (env : Env) (b : Bool) (c : ReadPayloadCo) (l : Local) (w : World) : readPayloadStep env c l (w.flag b) = flagged b (readPayloadStep env c l w) := by
  unfold readPayloadStep
  rw [show (w.flag b).st.sock.config = w.st.sock.config from rfl, show (w.flag b).st.inp = w.st.inp from rfl]
  cases c.pc <;> simp only []
  · split
    · rfl
    · cases c.listener <;> simp only []
      · rfl
      · split <;> rfl
  · split
    · rfl
    · cases w.st.inp.sched with
      | nil => rfl
      | cons o sched =>
        simp only []
        rcases lowRead o w.st.inp.bytes c.want.toNat with ⟨(_ | _ | _ | _), bytes⟩ <;> simp only []
        · split <;> rfl
        · rfl
        · rfl
        · rfl
  · split
    · split
      · split
        · rfl
        · cases c.listener <;> rfl
      · split
        · rfl
        · cases c.listener <;> rfl
    · rfl
  · rfl

theorem startPayload_flag (b : Bool) (c : HandleFrameCo) (short : Bool) (pc : HandleFramePc) (l : Local) (w : World) :
    startPayload c short pc l (w.flag b) = flagged b (startPayload c short pc l w) := by
  unfold startPayload readPayloadAsync
  rw [show (w.flag b).st.sock.config = w.st.sock.config from rfl]
  by_cases h1 : short ∧ l.hdr.payloadLength > 125
  · simp only [if_pos h1]; rfl
  · simp only [if_neg h1]
    by_cases h2 : w.st.sock.config.readBufferSize < 0
    · simp only [if_pos h2]; rfl
    · simp only [if_neg h2]; rfl

theorem startData_flag (b : Bool) (c : HandleFrameCo) (l : Local) (w : World) : startData c l (w.flag b) = flagged b (startData c l w) := by
  unfold startData checkForContinuationA
  rw [show (w.flag b).st.sock.lastOpcode = w.st.sock.lastOpcode from rfl]
  by_cases h1 : w.st.sock.lastOpcode = OPCODE_TEXT.toNat ∨ w.st.sock.lastOpcode = OPCODE_BINARY.toNat
  · simp only [if_pos h1]; rfl
  · simp only [if_neg h1]
    cases l.hdr.fin
    · exact startPayload_flag b c false .done l (w.setSock { w.st.sock with lastOpcode := l.hdr.opcode.toNat })
    · exact startPayload_flag b c false .done l (w.setSock { w.st.sock with lastOpcode := -1 })

theorem controlCallback_flag (env : Env) (b : Bool) (c : HandleFrameCo) (mk : Nat → Event) (l : Local) (w : World) :
    controlCallback env c mk l (w.flag b) = flagged b (controlCallback env c mk l w) := by
  unfold controlCallback
  cases c.listener <;> rfl

theorem handleFrameStep_flag (env : Env) (b : Bool) (c : HandleFrameCo) (l : Local) (w : World) : handleFrameStep env c l (w.flag b) = flagged b (handleFrameStep env c l w) := by
  unfold handleFrameStep
  rw [show (w.flag b).st.sock.lastOpcode = w.st.sock.lastOpcode from rfl]
  cases c.pc <;> simp only [controlCallback_flag]
  · split
    · split
      · rfl
      · exact startPayload_flag ..
    · repeat' split
      all_goals first | exact startData_flag .. | exact startPayload_flag .. | rfl
  · rfl

theorem listenStep_flag (b : Bool) (l : Local) (w : World) : listenStep l (w.flag b) = flagged b (listenStep l w) := by
  unfold listenStep
  split <;> rfl

theorem coStep_flag (env : Env) (b : Bool) (c : Co) (l : Local) (w : World) : coStep env c l (w.flag b) = flagged b (coStep env c l w) := by
  cases c with
  | listen => exact listenStep_flag b l w
  | readFrame c => exact readFrameStep_flag ..
  | handleFrame c => exact handleFrameStep_flag ..
  | readPayload c => exact readPayloadStep_flag ..
  | user c => exact userStep_flag ..
  | sendFrame c => exact sendFrameStep_flag ..
  | writeFrame c => exact writeFrameStep_flag ..

theorem destroy_flag (b : Bool) (c : Co) (w : World) : destroy c (w.flag b) = (destroy c w).flag b := by cases c <;> rfl

theorem unwind_flag (b : Bool) (e : AErr) (cs : List Co) (l : Local) (w : World) : unwind e cs l (w.flag b) = ((unwind e cs l w).1, (unwind e cs l w).2.flag b) := by
  induction cs generalizing w with
  | nil => rfl
  | cons c cs ih =>
    cases c <;> simp only [unwind, destroy_flag, ih]
    split <;> rfl

/-- A step of a task does not depend on `m_listening`, and does not change it. -/
theorem step_flag (env : Env) (b : Bool) (t : Task) (w : World) : step env t (w.flag b) = ((step env t w).1, (step env t w).2.flag b) := by
  unfold step
  cases t.stack with
  | nil => rfl
  | cons c rest =>
    simp only [coStep_flag]
    rcases coStep env c t.loc w with ⟨(_ | _ | _ | _ | _ | _), l, w'⟩ <;> simp only [flagged, destroy_flag, unwind_flag]
    cases rest <;> rfl

theorem Runs.flag {env t w o w'} (b : Bool) (h : Runs env t w o w') : Runs env t (w.flag b) o (w'.flag b) := by
  induction h with
  | last e hn => exact .last (by rw [step_flag, e]) hn
  | next e _ ih => exact .next (by rw [step_flag, e]) ih

end OatWS.Async
