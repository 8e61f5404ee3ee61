import Verif.Spec.Gateway
import Verif.Proofs.Gateway
import Verif.Proofs.GatewayWrites
import Verif.Proofs.Follow
/-! What the code is told of all callbacks so far. -/

namespace OatWS.Gateway
open RFC6455
open Reentrant (NestedOp)

/-- From `w` to `w'` there have been some callbacks, one after the other; each socket has heard those of them that are its own. -/
def Told (w w' : World) : Prop := ∃ more, w'.log = w.log ++ more ∧ ∀ j, (w'.socks j).sock.trace = (w.socks j).sock.trace ++ heardOn j more

theorem Told.refl (w : World) : Told w w := ⟨[], (List.append_nil _).symm, fun _ => (List.append_nil _).symm⟩

theorem Told.trans {a b c : World} (h : Told a b) (h' : Told b c) : Told a c := by
  obtain ⟨m1, l1, t1⟩ := h
  obtain ⟨m2, l2, t2⟩ := h'
  exact ⟨m1 ++ m2, by rw [l2, l1, List.append_assoc], fun j => by rw [t2, t1, List.append_assoc, heardOn, heardOn, heardOn, List.filterMap_append]⟩

theorem Told.put {w : World} {k : Nat} {s : St} (h : s.sock.trace = (w.socks k).sock.trace) : Told w (w.put k s) := by
  refine ⟨[], (List.append_nil _).symm, fun j => ?_⟩
  rw [heardOn, List.filterMap_nil, List.append_nil]
  by_cases hj : j = k
  · subst hj
    rw [put_self]
    exact h
  · rw [put_other w s hj]

theorem Told.called (w : World) (k : Nat) (e : Event) : Told w (w.called k e) := by
  refine ⟨[(k, e)], rfl, fun j => ?_⟩
  show ((w.put k { w.socks k with sock := { (w.socks k).sock with trace := (w.socks k).sock.trace ++ [e] } }).socks j).sock.trace = _
  by_cases hj : j = k
  · subst hj
    rw [put_self]
    simp only [heardOn, List.filterMap_cons, List.filterMap_nil, if_true]
  · have hk : k ≠ j := fun h => hj h.symm
    rw [put_other w _ hj]
    simp only [heardOn, List.filterMap_cons, List.filterMap_nil, if_neg hk, List.append_nil]

/-- So it is when `m` has run. -/
def Tells {α : Type} (m : P World α) : Prop := ∀ w, Told w (m w).2

variable {call : Callback} {k : Nat}

theorem Tells.pure {α : Type} (a : α) : Tells (Pure.pure a : P World α) := fun w => .refl w
theorem Tells.fail {α : Type} (e : Err) : Tells (P.fail e : P World α) := fun w => .refl w

theorem Tells.bind {α β : Type} {m : P World α} {f : α → P World β} (h : Tells m) (h' : ∀ a, Tells (f a)) : Tells (m >>= f) := by
  intro w
  have h := h w
  rw [bind_eq]
  rcases hm : m w with ⟨r, w'⟩
  rw [hm] at h
  cases r with
  | ret a => exact h.trans (h' a w')
  | throw e => exact h
  | block => exact h
  | ub u => exact h

theorem Tells.at {α : Type} {m : P St α} (h : ∀ s, (m s).2.sock.trace = s.sock.trace) : Tells (at' k m) := fun w => .put (h _)

theorem payloadLoop_tells (hc : ∀ mk, Tells (call k mk)) (h : Header) (short : Bool) (cap fuel : Nat) (w : World) (progress : Int) (acc : List UInt8) : Told w (payloadLoopOn call k h short cap fuel w progress acc).2 := by
  induction fuel generalizing w progress acc with
  | zero =>
    rw [payloadLoopOn]
    split <;> exact .refl w
  | succ fuel ih =>
    rw [payloadLoopOn]
    split
    · cases hsch : (w.socks k).inp.sched with
      | nil => exact .refl w
      | cons o sched =>
        dsimp only
        generalize (if (w.socks k).sock.config.readBufferSize > h.payloadLength - progress then h.payloadLength - progress else (w.socks k).sock.config.readBufferSize) = n
        have put : ∀ b, Told w (w.put k ⟨(w.socks k).sock, ⟨b, sched⟩⟩) := fun b => .put rfl
        split
        · exact put _
        · rcases he : lowRead o (w.socks k).inp.bytes n.toNat with ⟨r, bytes'⟩
          cases r with
          | data bs =>
            dsimp only
            split
            · exact put _
            · cases short with
              | true => exact (put _).trans (ih _ _ _)
              | false =>
                simp only [Bool.false_eq_true, if_false]
                generalize (if h.hasMask then xorMask h.mask progress.toNat bs else bs) = chunk
                have h1 := hc (fun l => .readMessage l h.opcode chunk) (w.put k ⟨(w.socks k).sock, ⟨bytes', sched⟩⟩)
                rcases hr : call k (fun l => .readMessage l h.opcode chunk) (w.put k ⟨(w.socks k).sock, ⟨bytes', sched⟩⟩) with ⟨r, w'⟩
                rw [hr] at h1
                cases r with
                | ret a => exact ((put _).trans h1).trans (ih w' _ _)
                | throw e => exact (put _).trans h1
                | block => exact (put _).trans h1
                | ub u => exact (put _).trans h1
          | retry => exact (put _).trans (ih _ _ _)
          | zero => exact put _
          | broken => exact put _
    · exact .refl w

theorem readPayload_tells (hc : ∀ mk, Tells (call k mk)) (h : Header) (short : Bool) : Tells (readPayloadOn call k h short) := by
  unfold readPayloadOn
  split
  · exact .fail _
  · refine .bind (.at fun _ => rfl) fun st => ?_
    split
    · exact .fail _
    · refine .bind ?_ fun acc => .bind ?_ fun _ => .pure _
      · exact fun w => payloadLoop_tells hc h short _ _ w 0 []
      · unfold endMarkerOn
        split
        · exact hc _
        · exact .pure _

theorem checkFor_trace (h : Header) (s : St) : (liftSock (checkForContinuation h) s).2.sock.trace = s.sock.trace := by
  unfold liftSock checkForContinuation
  by_cases h1 : s.sock.lastOpcode = OPCODE_TEXT.toNat ∨ s.sock.lastOpcode = OPCODE_BINARY.toNat
  · rw [if_pos h1]
  · rw [if_neg h1]
    by_cases h2 : h.fin = true
    · rw [if_pos h2]
    · rw [if_neg h2]

theorem handleFrame_tells (hc : ∀ mk, Tells (call k mk)) (env : Env) (h : Header) : Tells (handleFrameOn env call k h) := by
  have data : Tells (do let _ ← readPayloadOn call k h false : P World Unit) := .bind (readPayload_tells hc h false) fun _ => .pure _
  have start : Tells (do if ← at' k (liftSock (checkForContinuation h)) then (do let _ ← readPayloadOn call k h false) else P.fail .continuationExpected : P World Unit) := by
    refine .bind (.at (checkFor_trace h)) fun b => ?_
    split
    · exact data
    · exact .fail _
  unfold handleFrameOn
  split
  · refine .bind (.at fun _ => rfl) fun st => ?_
    split
    · exact .fail _
    · exact data
  split
  · exact start
  split
  · exact start
  split
  · exact .bind (readPayload_tells hc h true) fun _ => hc _
  split
  · exact .bind (readPayload_tells hc h true) fun _ => hc _
  split
  · exact .bind (readPayload_tells hc h true) fun _ => hc _
  · exact .fail _

theorem iterate_tells (hc : ∀ mk, Tells (call k mk)) (env : Env) (h : Header) : Tells (iterateOn env call k h) := by
  unfold iterateOn
  exact .bind (.at fun s => by rw [readFrameHeader_sock env h s]) fun h' => .bind (handleFrame_tells hc env h') fun _ => .pure _

theorem listenLoop_tells (hc : ∀ mk, Tells (call k mk)) (env : Env) (fuel : Nat) (h : Header) : Tells (listenLoopOn env call k fuel h) := by
  induction fuel generalizing h with
  | zero => exact fun w => .refl w
  | succ fuel ih =>
    intro w
    have h1 := iterate_tells hc env h w
    unfold listenLoopOn
    rcases hr : iterateOn env call k h w with ⟨r, w'⟩
    rw [hr] at h1
    cases r with
    | ret h' =>
      dsimp only
      split
      · exact h1.trans (ih h' w')
      · exact h1
    | throw e => exact h1
    | block => exact h1
    | ub u => exact h1

theorem listen_tells (hc : ∀ mk, Tells (call k mk)) (env : Env) (h : Header) : Tells (listenOn env call k h) := by
  intro w
  have h0 : Told w (w.put k { w.socks k with sock := { (w.socks k).sock with listening := true } }) := .put rfl
  unfold listenOn
  dsimp only
  generalize w.put k { w.socks k with sock := { (w.socks k).sock with listening := true } } = w1 at h0
  have h1 := listenLoop_tells hc env ((w1.socks k).inp.sched.length + 1) h w1
  rcases hr : listenLoopOn env call k ((w1.socks k).inp.sched.length + 1) h w1 with ⟨r, w'⟩
  rw [hr] at h1
  cases r with
  | _ => exact h0.trans h1

theorem nested_tells (hc : ∀ mk, Tells (call k mk)) (env : Env) (op : NestedOp) : Tells (nestedOn env call k op) := by
  cases op with
  | op u => exact fun w => Tells.at (k := k) (m := liftSock (runUserOp env u)) (fun s => runUserOp_trace u s.sock) { w with did := w.did ++ [(k, u)] }
  | iterate catches =>
    intro w
    have h1 := iterate_tells hc env default w
    unfold nestedOn
    dsimp only
    rcases hr : iterateOn env call k default w with ⟨r, w'⟩
    rw [hr] at h1
    cases r with
    | ret h' => exact h1
    | throw e => cases catches <;> exact h1
    | block => exact h1
    | ub u => exact h1
  | listen => exact listen_tells hc env default

theorem code_tells (c : Code) (hc : ∀ j mk, Tells (call j mk)) (tr : List (Nat × Event)) (steps i : Nat) : Tells (codeOn c call tr steps i) := by
  induction steps generalizing i with
  | zero =>
    intro w
    unfold codeOn
    split <;> exact .refl w
  | succ steps ih =>
    intro w
    unfold codeOn
    cases hn : c.next tr i w.log with
    | none => exact .refl w
    | some x =>
      obtain ⟨j, op⟩ := x
      dsimp only
      have h1 := nested_tells (hc j) (c.env j) op w
      rcases hr : nestedOn (c.env j) call j op w with ⟨r, w'⟩
      rw [hr] at h1
      cases r with
      | ret _ => exact h1.trans (ih (i + 1) w')
      | throw e => exact h1
      | block => exact h1
      | ub u => exact h1

theorem callback_tells (c : Code) (steps depth : Nat) : ∀ j mk, Tells (callback c steps depth j mk) := by
  induction depth with
  | zero =>
    intro j mk w
    unfold callback
    split
    · exact .refl w
    · exact (Told.called w j _).trans (code_tells c (call := (fun _ _ w => (.block, w) : Callback)) (fun _ _ w => .refl w) _ 0 0 _)
  | succ depth ih =>
    intro j mk w
    unfold callback
    split
    · exact .refl w
    · exact (Told.called w j _).trans (code_tells c ih _ steps 0 _)

theorem main_tells (c : Code) (steps depth : Nat) : Tells (main c steps depth) := code_tells c (callback_tells c steps depth) [] steps 0

end OatWS.Gateway
