import Verif.Spec.AsyncProcess
import Verif.Proofs.AsyncCases
import Verif.Proofs.ProcessJobs
/-! What the coroutines of the library do in one step, whatever user code does in callbacks. -/

namespace OatWS.AsyncProcess
open Async
open Process (withReact)

/-- Coroutines of a send. -/
def isOut : Co → Bool
  | .sendFrame _ => true
  | .writeFrame _ => true
  | _ => false

/-- Coroutines that receive. -/
def isIn : Co → Bool
  | .listen => true
  | .readFrame _ => true
  | .handleFrame _ => true
  | .readPayload _ => true
  | _ => false

/-- The coroutines that the step continues with are of this kind. -/
def Within (P : Co → Bool) : Act → Prop
  | .goto c => P c = true
  | .call cs c => (∀ x ∈ cs, P x = true) ∧ P c = true
  | _ => True

theorem out_step (env : Env) (c : Co) (hc : isOut c = true) (w : World) : ∃ a w', (∀ r l, coStep (withReact env r) c l w = (a, l, w')) ∧ Within isOut a ∧ w'.st.sock.trace = w.st.sock.trace := by
  have hw : ∀ left again cont, (∀ g, isOut (again g) = true) → Within isOut cont → ∃ a w', (∀ l, writeStep left l w again cont = (a, l, w')) ∧ Within isOut a ∧ w'.st.sock.trace = w.st.sock.trace := by
    intro left again cont h1 h2
    unfold writeStep
    rcases writeInline left w.st.sock.out with ⟨(g | g | _ | _), o⟩
    · exact ⟨_, _, fun l => rfl, h1 g, rfl⟩
    · exact ⟨_, _, fun l => rfl, h2, rfl⟩
    · exact ⟨_, _, fun l => rfl, trivial, rfl⟩
    · exact ⟨_, _, fun l => rfl, trivial, rfl⟩
  cases c with
  | writeFrame c =>
    have hr : ∀ r l, coStep (withReact env r) (.writeFrame c) l w = writeFrameStep env c l w := fun _ _ => rfl
    simp only [hr]
    unfold writeFrameStep
    obtain ⟨pc, hdr, scenario, left⟩ := c
    cases pc with
    | act =>
      obtain ⟨a, w', h1, h2, h3⟩ := hw left (fun g => .writeFrame ⟨_, hdr, scenario, g⟩) (.goto (.writeFrame ⟨.onBbWritten, hdr, scenario, []⟩)) (fun _ => rfl) rfl
      exact ⟨a, w', fun r l => h1 l, h2, h3⟩
    | onBbWritten =>
      dsimp only
      by_cases h2 : scenario = 2
      · exact ⟨_, w, fun r l => by rw [if_pos h2], (by rfl), rfl⟩
      · by_cases h3 : scenario = 3
        · exact ⟨_, w, fun r l => by rw [if_neg h2, if_pos h3], (by rfl), rfl⟩
        · exact ⟨_, w, fun r l => by rw [if_neg h2, if_neg h3], (by rfl), rfl⟩
    | writeMessageLen =>
      obtain ⟨a, w', h1, h2, h3⟩ := hw left (fun g => .writeFrame ⟨_, hdr, scenario, g⟩) (.goto (.writeFrame ⟨.onLenWritten, hdr, scenario, []⟩)) (fun _ => rfl) rfl
      exact ⟨a, w', fun r l => h1 l, h2, h3⟩
    | onLenWritten =>
      dsimp only
      by_cases h2 : hdr.hasMask = true
      · exact ⟨_, w, fun r l => by rw [if_pos h2], (by rfl), rfl⟩
      · exact ⟨_, w, fun r l => by rw [if_neg h2], (by trivial), rfl⟩
    | writeMask =>
      obtain ⟨a, w', h1, h2, h3⟩ := hw left (fun g => .writeFrame ⟨_, hdr, scenario, g⟩) .finish (fun _ => rfl) trivial
      exact ⟨a, w', fun r l => h1 l, h2, h3⟩
  | sendFrame c =>
    have hr : ∀ r l, coStep (withReact env r) (.sendFrame c) l w = sendFrameStep env c l w := fun _ _ => rfl
    simp only [hr]
    unfold sendFrameStep
    obtain ⟨pc, fin, opcode, message, hdr, left⟩ := c
    cases pc with
    | act =>
      have hs : ∀ n, ∃ h co w', sendFrameHeaderAsync env hdr fin opcode n w = (h, co, w') ∧ isOut co = true ∧ w'.st.sock.trace = w.st.sock.trace := by
        intro n
        unfold sendFrameHeaderAsync
        dsimp only
        split
        · exact ⟨_, _, _, rfl, rfl, rfl⟩
        · exact ⟨_, _, _, rfl, rfl, rfl⟩
      dsimp only
      split
      · rename_i b bs
        obtain ⟨h, co, w', h1, h2, h3⟩ := hs (b :: bs).length
        refine ⟨_, w', fun r l => by rw [h1], ?_, h3⟩
        exact ⟨fun x hx => by rw [List.mem_singleton.mp hx]; exact h2, rfl⟩
      · obtain ⟨h, co, w', h1, h2, h3⟩ := hs 0
        refine ⟨_, w', fun r l => by rw [h1], ?_, h3⟩
        exact ⟨fun x hx => by rw [List.mem_singleton.mp hx]; exact h2, rfl⟩
    | prepareWriteMessage =>
      dsimp only
      by_cases h2 : hdr.hasMask = true
      · by_cases h3 : (message.getD []).length ≥ 2 ^ 31
        · exact ⟨_, w, fun r l => by rw [if_pos h2, if_pos h3], (by trivial), rfl⟩
        · exact ⟨_, w, fun r l => by rw [if_pos h2, if_neg h3], (by rfl), rfl⟩
      · exact ⟨_, w, fun r l => by rw [if_neg h2], (by rfl), rfl⟩
    | writeMessage =>
      obtain ⟨a, w', h1, h2, h3⟩ := hw left (fun g => .sendFrame ⟨_, fin, opcode, message, hdr, g⟩) .finish (fun _ => rfl) trivial
      exact ⟨a, w', fun r l => h1 l, h2, h3⟩
    | done => exact ⟨.finish, w, fun r l => rfl, trivial, rfl⟩
  | _ => cases hc

/-- A step that receives: with a callback or without one. -/
inductive InStep (env : Env) (c : Co) (l : Local) (w : World) : Prop
  | plain (a : Act) (l' : Local) (w' : World) : (∀ r, coStep (withReact env r) c l w = (a, l', w')) → Within isIn a → w'.st.sock.trace = w.st.sock.trace → InStep env c l w
  | told (ev : Event) (u : UserCo) (c' : Co) (l' : Local) (w' : World) : (∀ r, coStep (withReact env r) c l w = (.call [.user { u with ops := r (w.st.sock.trace ++ [ev]) }] c', l', w')) →
      u.catching = false → isIn c' = true → w'.st.sock.trace = w.st.sock.trace ++ [ev] → InStep env c l w

theorem in_step (env : Env) (c : Co) (hc : isIn c = true) (l : Local) (w : World) : InStep env c l w := by
  cases c with
  | listen =>
    have hr : ∀ r, coStep (withReact env r) .listen l w = listenStep l w := fun _ => rfl
    unfold listenStep at hr
    by_cases h : l.hdr.opcode ≠ OPCODE_CLOSE
    · refine .plain _ _ _ (fun r => by rw [hr, if_pos h]) ?_ rfl
      refine ⟨fun x hx => ?_, rfl⟩
      rcases List.mem_cons.mp hx with rfl | hx
      · rfl
      · rw [List.mem_singleton.mp hx]; rfl
    · exact .plain _ _ _ (fun r => by rw [hr, if_neg h]) (by trivial) rfl
  | readFrame c =>
    obtain ⟨i, l', a, h1, h2⟩ := readFrame_cases env c l w
    refine .plain a l' (w.setInp i) (fun r => h1) ?_ rfl
    rcases h2 with ⟨c', rfl⟩ | rfl | rfl | rfl
    · rfl
    all_goals trivial
  | handleFrame c =>
    have hr : ∀ r, coStep (withReact env r) (.handleFrame c) l w = handleFrameStep (withReact env r) c l w := fun _ => rfl
    have hcb : ∀ mk : Nat → Event, (∀ r, coStep (withReact env r) (.handleFrame c) l w = controlCallback (withReact env r) c mk l w) → InStep env (.handleFrame c) l w := by
      intro mk h
      unfold controlCallback at h
      cases hl : c.listener with
      | none => exact .plain _ _ _ (fun r => by rw [h, hl]) (by trivial) rfl
      | some to => exact .told (mk to) { ops := [], self := some (mk to).to } _ _ _ (fun r => by rw [h, hl]; rfl) rfl rfl rfl
    have hpl : ∀ short pc l' w1, w1.st.sock.trace = w.st.sock.trace → (∀ r, coStep (withReact env r) (.handleFrame c) l w = startPayload c short pc l' w1) → InStep env (.handleFrame c) l w := by
      intro short pc l' w1 ht h
      unfold startPayload readPayloadAsync at h
      split at h
      · rename_i co w' e
        split at e
        · cases e
        · split at e
          · cases e
          · injection e with e
            injection e with e1 e2
            subst e1 e2
            refine .plain _ _ _ h ⟨fun x hx => ?_, rfl⟩ ht
            rw [List.mem_singleton.mp hx]; rfl
      · exact .plain _ _ _ h trivial ht
    have hdata : (∀ r, coStep (withReact env r) (.handleFrame c) l w = startData c l w) → InStep env (.handleFrame c) l w := by
      intro h
      unfold startData checkForContinuationA at h
      split at h
      · rename_i s e
        split at e
        · cases e
        · split at e <;> (injection e with _ e; subst e; exact hpl false .done l _ (by rfl) h)
      · rename_i s e
        split at e
        · injection e with _ e; subst e; exact .plain _ _ _ h trivial rfl
        · split at e <;> cases e
    unfold handleFrameStep at hr
    cases hpc : c.pc with
    | act =>
      simp only [hpc] at hr
      split at hr
      · split at hr
        · exact .plain _ _ _ hr trivial rfl
        · exact hpl _ _ _ _ rfl hr
      · split at hr
        · exact hdata hr
        · split at hr
          · exact hdata hr
          · split at hr
            · exact hpl _ _ _ _ rfl hr
            · split at hr
              · exact hpl _ _ _ _ rfl hr
              · split at hr
                · exact hpl _ _ _ _ rfl hr
                · exact .plain _ _ _ hr trivial rfl
    | onClose => simp only [hpc] at hr; exact hcb (fun to => .onClose to (closeArgs env l.short).1 (closeArgs env l.short).2) fun r => hr r
    | onPing => simp only [hpc] at hr; exact hcb _ hr
    | onPong => simp only [hpc] at hr; exact hcb _ hr
    | done => simp only [hpc] at hr; exact .plain _ _ _ hr trivial rfl
  | readPayload c =>
    have hr : ∀ r, coStep (withReact env r) (.readPayload c) l w = readPayloadStep (withReact env r) c l w := fun _ => rfl
    unfold readPayloadStep at hr
    cases hpc : c.pc with
    | act =>
      simp only [hpc] at hr
      split at hr
      · exact .plain _ _ _ hr rfl rfl
      · split at hr
        · rename_i to hl
          split at hr
          · exact .told (.readMessage to l.hdr.opcode []) { ops := [], self := some to } _ _ _ (fun r => by rw [hr]; rfl) rfl rfl rfl
          · exact .plain _ _ _ hr trivial rfl
        · exact .plain _ _ _ hr trivial rfl
    | readData =>
      simp only [hpc] at hr
      split at hr
      · exact .plain _ _ _ hr rfl rfl
      · split at hr
        · exact .plain _ _ _ hr trivial rfl
        · split at hr
          · split at hr
            · exact .plain _ _ _ hr trivial rfl
            · exact .plain _ _ _ hr rfl rfl
          · exact .plain _ _ _ hr rfl rfl
          · exact .plain _ _ _ hr rfl rfl
          · exact .plain _ _ _ hr trivial rfl
    | onDataRead =>
      simp only [hpc] at hr
      split at hr
      · split at hr
        · split at hr
          · exact .plain _ _ _ hr rfl rfl
          · split at hr
            · rename_i to hl
              exact .told (.readMessage to l.hdr.opcode (xorMask l.hdr.mask c.progress.toNat c.got)) { ops := [], ptr := some w.nextBuf, data := xorMask l.hdr.mask c.progress.toNat c.got, self := some to } _ _
                ((callback env (.readMessage to l.hdr.opcode (xorMask l.hdr.mask c.progress.toNat c.got)) (some w.nextBuf) (xorMask l.hdr.mask c.progress.toNat c.got) (w.alloc (xorMask l.hdr.mask c.progress.toNat c.got)).2).2.free w.nextBuf)
                (fun r => by rw [hr]; rfl) rfl rfl rfl
            · exact .plain _ _ _ hr rfl rfl
        · split at hr
          · exact .plain _ _ _ hr rfl rfl
          · split at hr
            · rename_i to hl
              exact .told (.readMessage to l.hdr.opcode c.got) { ops := [], ptr := some c.buf, data := c.got, self := some to } _ _ _ (fun r => by rw [hr]; rfl) rfl rfl rfl
            · exact .plain _ _ _ hr rfl rfl
      · exact .plain _ _ _ hr trivial rfl
    | done => simp only [hpc] at hr; exact .plain _ _ _ hr trivial rfl
  | _ => cases hc

end OatWS.AsyncProcess
