import Verif.Spec.Gateway
import Verif.Proofs.SendFine
import Verif.Proofs.Gateway
/-! What is written on one of several sockets. -/

namespace OatWS.Gateway
open RFC6455
open Reentrant (NestedOp)

/-- The sending side is as before. -/
structure Same (s' s : St) : Prop where
  out : s'.sock.out = s.sock.out
  rngPos : s'.sock.rngPos = s.sock.rngPos
  config : s'.sock.config = s.sock.config

theorem Same.refl (s : St) : Same s s := ⟨rfl, rfl, rfl⟩

variable {J J' : World → Prop} {k : Nat}

/-- `J` is about the sending side of a socket and the operations done, and `J'` what is left of it when the code does not come to an end. -/
structure Side (k : Nat) (J J' : World → Prop) : Prop where
  same : ∀ w w', Same (w'.socks k) (w.socks k) → w'.did = w.did → J w → J w'
  weaken : ∀ w, J w → J' w

/-- What is known of socket `k` stays so. -/
def Tidy (J J' : World → Prop) {α : Type} (m : P World α) : Prop := ∀ w, J w → J' (m w).2 ∧ (¬ Stops (m w).1 → J (m w).2)

theorem tidy_of {α : Type} (hJ : Side k J J') {w' : World} (h : J w') (e : Exit α) : J' ((e, w') : Exit α × World).2 ∧ (¬ Stops ((e, w') : Exit α × World).1 → J ((e, w') : Exit α × World).2) :=
  ⟨hJ.weaken _ h, fun _ => h⟩

theorem Tidy.bind {α β : Type} {m : P World α} {f : α → P World β} (h : Tidy J J' m) (hf : ∀ a, Tidy J J' (f a)) : Tidy J J' (m >>= f) := by
  intro w hw
  obtain ⟨h1, h2⟩ := h w hw
  rw [bind_eq]
  rcases hr : m w with ⟨r, w'⟩
  rw [hr] at h1 h2
  cases r with
  | ret a => exact hf a w' (h2 id)
  | throw e => exact ⟨h1, fun _ => h2 id⟩
  | block => exact ⟨h1, fun h => absurd trivial h⟩
  | ub u => exact ⟨h1, fun h => absurd trivial h⟩

theorem Tidy.pure {α : Type} (hJ : Side k J J') (a : α) : Tidy J J' (Pure.pure a : P World α) := fun _ h => tidy_of hJ h _
theorem Tidy.fail {α : Type} (hJ : Side k J J') (e : Err) : Tidy J J' (P.fail e : P World α) := fun _ h => tidy_of hJ h _

/-- Changes of the receiving side of any socket. -/
theorem put_side (hJ : Side k J J') {w : World} {j : Nat} {s : St} (h : Same s (w.socks j)) (hw : J w) : J (w.put j s) := by
  refine hJ.same w _ ?_ rfl hw
  by_cases hj : k = j
  · subst hj
    rw [put_self]
    exact h
  · rw [put_other w s hj]
    exact .refl _

theorem Tidy.at {α : Type} (hJ : Side k J J') (j : Nat) {m : P St α} (h : ∀ s, Same (m s).2 s) : Tidy J J' (at' j m) := by
  intro w hw
  exact tidy_of hJ (w' := w.put j (m (w.socks j)).2) (put_side hJ (h _) hw) _

variable {call : Callback}

theorem payloadLoop_tidy (hJ : Side k J J') (j : Nat) (hc : ∀ mk, Tidy J J' (call j mk)) (h : Header) (short : Bool) (cap fuel : Nat) (progress : Int) (acc : List UInt8) :
    Tidy J J' fun w => payloadLoopOn call j h short cap fuel w progress acc := by
  induction fuel generalizing progress acc with
  | zero =>
    intro w hw
    dsimp only
    rw [payloadLoopOn]
    split <;> exact tidy_of hJ hw _
  | succ fuel ih =>
    intro w hw
    dsimp only
    rw [payloadLoopOn]
    split
    · cases hsch : (w.socks j).inp.sched with
      | nil => exact tidy_of hJ hw _
      | cons o sched =>
        dsimp only
        generalize (if (w.socks j).sock.config.readBufferSize > h.payloadLength - progress then h.payloadLength - progress else (w.socks j).sock.config.readBufferSize) = n
        have put : ∀ b, J (w.put j ⟨(w.socks j).sock, ⟨b, sched⟩⟩) := fun b => put_side hJ ⟨rfl, rfl, rfl⟩ hw
        split
        · exact tidy_of hJ (put _) _
        · rcases he : lowRead o (w.socks j).inp.bytes n.toNat with ⟨r, bytes'⟩
          cases r with
          | data bs =>
            dsimp only
            split
            · exact tidy_of hJ (put _) _
            · cases short with
              | true => exact ih _ _ _ (put _)
              | false =>
                simp only [Bool.false_eq_true, if_false]
                generalize (if h.hasMask then xorMask h.mask progress.toNat bs else bs) = chunk
                obtain ⟨h1, h2⟩ := hc (fun l => .readMessage l h.opcode chunk) _ (put bytes')
                rcases hr : call j (fun l => .readMessage l h.opcode chunk) (w.put j ⟨(w.socks j).sock, ⟨bytes', sched⟩⟩) with ⟨r, w'⟩
                rw [hr] at h1 h2
                cases r with
                | ret a => exact ih _ _ _ (h2 id)
                | throw e => exact ⟨h1, fun _ => h2 id⟩
                | block => exact ⟨h1, fun h => absurd trivial h⟩
                | ub u => exact ⟨h1, fun h => absurd trivial h⟩
          | retry => exact ih _ _ _ (put _)
          | zero => exact tidy_of hJ (put _) _
          | broken => exact tidy_of hJ (put _) _
    · exact tidy_of hJ hw _

theorem readPayload_tidy (hJ : Side k J J') (j : Nat) (hc : ∀ mk, Tidy J J' (call j mk)) (h : Header) (short : Bool) : Tidy J J' (readPayloadOn call j h short) := by
  unfold readPayloadOn
  split
  · exact .fail hJ _
  · refine .bind (.at hJ j fun s => .refl s) fun st => ?_
    split
    · exact .fail hJ _
    · refine .bind ?_ fun acc => .bind ?_ fun _ => .pure hJ _
      · intro w hw
        exact payloadLoop_tidy hJ j hc h short _ _ _ _ w hw
      · unfold endMarkerOn
        split
        · exact hc _
        · exact .pure hJ _

theorem checkFor_same (h : Header) (s : St) : Same (liftSock (checkForContinuation h) s).2 s := by
  unfold liftSock checkForContinuation
  by_cases h1 : s.sock.lastOpcode = OPCODE_TEXT.toNat ∨ s.sock.lastOpcode = OPCODE_BINARY.toNat
  · rw [if_pos h1]
    exact ⟨rfl, rfl, rfl⟩
  · rw [if_neg h1]
    by_cases h2 : h.fin = true
    · rw [if_pos h2]
      exact ⟨rfl, rfl, rfl⟩
    · rw [if_neg h2]
      exact ⟨rfl, rfl, rfl⟩

theorem handleFrame_tidy (hJ : Side k J J') (j : Nat) (hc : ∀ mk, Tidy J J' (call j mk)) (env : Env) (h : Header) : Tidy J J' (handleFrameOn env call j h) := by
  have data : Tidy J J' (do let _ ← readPayloadOn call j h false : P World Unit) := .bind (readPayload_tidy hJ j hc h false) fun _ => .pure hJ _
  have start : Tidy J J' (do if ← at' j (liftSock (checkForContinuation h)) then (do let _ ← readPayloadOn call j h false) else P.fail .continuationExpected : P World Unit) := by
    refine .bind (.at hJ j (checkFor_same h)) fun b => ?_
    split
    · exact data
    · exact .fail hJ _
  unfold handleFrameOn
  split
  · refine .bind (.at hJ j fun s => .refl s) fun st => ?_
    split
    · exact .fail hJ _
    · exact data
  split
  · exact start
  split
  · exact start
  split
  · exact .bind (readPayload_tidy hJ j hc h true) fun _ => hc _
  split
  · exact .bind (readPayload_tidy hJ j hc h true) fun _ => hc _
  split
  · exact .bind (readPayload_tidy hJ j hc h true) fun _ => hc _
  · exact .fail hJ _

theorem iterate_tidy (hJ : Side k J J') (j : Nat) (hc : ∀ mk, Tidy J J' (call j mk)) (env : Env) (h : Header) : Tidy J J' (iterateOn env call j h) := by
  unfold iterateOn
  refine .bind (.at hJ j fun s => ?_) fun h' => .bind (handleFrame_tidy hJ j hc env h') fun _ => .pure hJ _
  have := readFrameHeader_sock env h s
  exact ⟨by rw [this], by rw [this], by rw [this]⟩

theorem listenLoop_tidy (hJ : Side k J J') (j : Nat) (hc : ∀ mk, Tidy J J' (call j mk)) (env : Env) (fuel : Nat) (h : Header) : Tidy J J' (listenLoopOn env call j fuel h) := by
  induction fuel generalizing h with
  | zero => exact fun w hw => tidy_of hJ hw _
  | succ fuel ih =>
    intro w hw
    obtain ⟨h1, h2⟩ := iterate_tidy hJ j hc env h w hw
    unfold listenLoopOn
    rcases hr : iterateOn env call j h w with ⟨r, w'⟩
    rw [hr] at h1 h2
    cases r with
    | ret h' =>
      dsimp only
      split
      · exact ih h' w' (h2 id)
      · exact tidy_of hJ (h2 id) _
    | throw e => exact ⟨h1, fun _ => h2 id⟩
    | block => exact ⟨h1, fun h => absurd trivial h⟩
    | ub u => exact ⟨h1, fun h => absurd trivial h⟩

theorem listen_tidy (hJ : Side k J J') (j : Nat) (hc : ∀ mk, Tidy J J' (call j mk)) (env : Env) (h : Header) : Tidy J J' (listenOn env call j h) := by
  intro w hw
  have h0 : J (w.put j { w.socks j with sock := { (w.socks j).sock with listening := true } }) := put_side hJ ⟨rfl, rfl, rfl⟩ hw
  unfold listenOn
  dsimp only
  generalize w.put j { w.socks j with sock := { (w.socks j).sock with listening := true } } = w1 at h0
  obtain ⟨h1, h2⟩ := listenLoop_tidy hJ j hc env ((w1.socks j).inp.sched.length + 1) h w1 h0
  rcases hr : listenLoopOn env call j ((w1.socks j).inp.sched.length + 1) h w1 with ⟨r, w'⟩
  rw [hr] at h1 h2
  cases r with
  | ret _ => exact ⟨h1, fun _ => h2 id⟩
  | throw e => exact ⟨h1, fun _ => h2 id⟩
  | block => exact ⟨h1, fun h => absurd trivial h⟩
  | ub u => exact ⟨h1, fun h => absurd trivial h⟩

/-- The operations of the code are allowed by `J`. -/
def Allowed (J J' : World → Prop) (c : Code) : Prop := ∀ tr i now j u, c.next tr i now = some (j, .op u) → ∀ call, Tidy J J' (nestedOn (c.env j) call j (.op u))

theorem code_tidy (hJ : Side k J J') {c : Code} (ha : Allowed J J' c) (hc : ∀ j mk, Tidy J J' (call j mk)) (tr : List (Nat × Event)) (steps i : Nat) : Tidy J J' (codeOn c call tr steps i) := by
  induction steps generalizing i with
  | zero =>
    intro w hw
    unfold codeOn
    split <;> exact tidy_of hJ hw _
  | succ steps ih =>
    intro w hw
    unfold codeOn
    cases hn : c.next tr i w.log with
    | none => exact tidy_of hJ hw _
    | some x =>
      obtain ⟨j, op⟩ := x
      dsimp only
      have key : J' (nestedOn (c.env j) call j op w).2 ∧ (¬ Stops (nestedOn (c.env j) call j op w).1 → J (nestedOn (c.env j) call j op w).2) := by
        cases op with
        | op u => exact ha _ _ _ j u hn call w hw
        | iterate catches =>
          obtain ⟨h1, h2⟩ := iterate_tidy hJ j (hc j) (c.env j) default w hw
          unfold nestedOn
          dsimp only
          rcases hr : iterateOn (c.env j) call j default w with ⟨r, w'⟩
          rw [hr] at h1 h2
          cases r with
          | ret h' => exact ⟨h1, fun _ => h2 id⟩
          | throw e => cases catches <;> exact ⟨h1, fun _ => h2 id⟩
          | block => exact ⟨h1, fun h => absurd trivial h⟩
          | ub u => exact ⟨h1, fun h => absurd trivial h⟩
        | listen => exact listen_tidy hJ j (hc j) (c.env j) default w hw
      obtain ⟨k1, k2⟩ := key
      rcases hr : nestedOn (c.env j) call j op w with ⟨r, w'⟩
      rw [hr] at k1 k2
      cases r with
      | ret _ => exact ih (i + 1) w' (k2 id)
      | throw e => exact ⟨k1, fun _ => k2 id⟩
      | block => exact ⟨k1, fun h => absurd trivial h⟩
      | ub u => exact ⟨k1, fun h => absurd trivial h⟩

theorem callback_tidy (hJ : Side k J J') {c : Code} (ha : Allowed J J' c) (steps depth : Nat) : ∀ j mk, Tidy J J' (callback c steps depth j mk) := by
  have called : ∀ (w : World) j e, J w → J (w.called j e) := by
    intro w j e hw
    refine hJ.same w _ ?_ rfl hw
    show Same ((w.put j _).socks k) _
    by_cases hj : k = j
    · subst hj
      rw [put_self]
      exact ⟨rfl, rfl, rfl⟩
    · rw [put_other w _ hj]
      exact .refl _
  induction depth with
  | zero =>
    intro j mk w hw
    unfold callback
    split
    · exact tidy_of hJ hw _
    · exact code_tidy hJ ha (call := (fun _ _ w => (.block, w) : Callback)) (fun _ _ w hw => tidy_of hJ (w' := w) hw _) _ 0 0 _ (called _ _ _ hw)
  | succ depth ih =>
    intro j mk w hw
    unfold callback
    split
    · exact tidy_of hJ hw _
    · exact code_tidy hJ ha ih _ steps 0 _ (called _ _ _ hw)

theorem main_tidy (hJ : Side k J J') {c : Code} (ha : Allowed J J' c) (steps depth : Nat) : Tidy J J' (main c steps depth) :=
  code_tidy hJ ha (callback_tidy hJ ha steps depth) [] steps 0

end OatWS.Gateway
