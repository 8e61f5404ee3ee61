import Verif.Proofs.GatewayWaits
import Verif.Proofs.GatewayWrites
/-! Nothing undefined happens when reads are nested in callbacks. -/

namespace OatWS

/-- `m` has no undefined behaviour. -/
def NoUb {σ α : Type} (m : P σ α) : Prop := ∀ s u, (m s).1 ≠ .ub u

theorem NoUb.pure {σ α : Type} (a : α) : NoUb (Pure.pure a : P σ α) := fun _ _ h => nomatch h
theorem NoUb.fail {σ α : Type} (e : Err) : NoUb (P.fail e : P σ α) := fun _ _ h => nomatch h

theorem NoUb.bind {σ α β : Type} {m : P σ α} {f : α → P σ β} (h : NoUb m) (h' : ∀ a, NoUb (f a)) : NoUb (m >>= f) := by
  intro s
  have h := h s
  rw [P.bind_def, P.bind]
  rcases hm : m s with ⟨r, s'⟩
  rw [hm] at h
  cases r with
  | ret a => exact h' a s'
  | throw e => exact nofun
  | block => exact nofun
  | ub u => exact absurd rfl (h u)

theorem NoUb.ite {σ α : Type} {c : Prop} [Decidable c] {a b : P σ α} (ha : NoUb a) (hb : NoUb b) : NoUb (if c then a else b) := by
  split
  · exact ha
  · exact hb

theorem connReadExact_noUb (n : Nat) : NoUb (connReadExact n) := by
  intro st u
  unfold connReadExact
  rcases readExact st.inp.sched st.inp.bytes n [] with ⟨r, i⟩
  cases r <;> exact nofun

theorem readFrameHeader_noUb (env : Env) (h : Header) : NoUb (readFrameHeader env h) := by
  have hl : ∀ l, NoUb (readLength env l) := by
    intro l
    unfold readLength
    refine .ite (.pure _) (.ite ((connReadExact_noUb 2).bind fun bs => ?_) ((connReadExact_noUb 8).bind fun bs => ?_))
    · split
      · exact .pure _
      · exact .fail _
    · split
      · exact .pure _
      · exact .fail _
  unfold readFrameHeader
  refine (connReadExact_noUb 2).bind fun bs => ?_
  split
  · refine (hl _).bind fun len => .ite ((connReadExact_noUb 4).bind fun bs => ?_) (.pure _)
    split
    · exact .pure _
    · exact .fail _
  · exact .fail _

theorem send_noUb (env : Env) (c : SendCall) (hs : c.content.2.2.length < 2 ^ 31) : NoUb (send env c) := by
  intro s u
  by_cases hc : ∀ fin op m, c ≠ .oneFrame fin op m
  · obtain ⟨x, s', e, g1, -⟩ := C04_C21_any_send env c hc s ⟨Nat.lt_trans hs (by decide), fun _ => hs⟩
    rw [e]
    exact g1 u
  · cases c with
    | oneFrame fin op m =>
      have h := C27_no_ub env fin op m s ⟨Nat.lt_trans hs (by decide), fun _ => hs⟩
      rcases hr : sendOneFrame env fin op m s with ⟨x, s'⟩
      rw [send_oneFrame hr]
      cases x with
      | ub u => exact absurd hr (h u s')
      | _ => exact nofun
    | _ => exact absurd nofun hc

theorem runUserOp_noUb (env : Env) (u : UserOp) (hs : ∀ call catches, u = .send call catches → call.content.2.2.length < 2 ^ 31) : NoUb (runUserOp env u) := by
  cases u with
  | send call catches =>
    intro s v
    have h := send_noUb env call (hs _ _ rfl) s
    show (match send env call s with
      | (.throw e, s') => if catches then (Exit.ret (), s') else (Exit.throw e, s')
      | r => r).1 ≠ _
    rcases hr : send env call s with ⟨r, s'⟩
    rw [hr] at h
    cases r with
    | throw e => cases catches <;> exact nofun
    | ub u => exact absurd rfl (h u)
    | _ => exact nofun
  | throw => exact fun _ => nofun
  | _ => exact fun _ => nofun

theorem runUserOp_config (env : Env) (u : UserOp) (h : ∀ cfg, u ≠ .setConfig cfg) (s : Sock) : (runUserOp env u s).2.config = s.config := by
  cases u with
  | send call catches =>
    have hk := (send_keeps env call s).config
    show (match send env call s with
      | (.throw e, s') => if catches then (Exit.ret (), s') else (Exit.throw e, s')
      | r => r).2.config = _
    rcases hr : send env call s with ⟨r, s'⟩
    rw [hr] at hk
    cases r with
    | throw e => cases catches <;> exact hk
    | _ => exact hk
  | setConfig cfg => exact absurd rfl (h cfg)
  | _ => rfl

end OatWS

namespace OatWS.Gateway
open RFC6455
open Reentrant (NestedOp)

/-- The sockets have these configurations. -/
def Confs (conf : Nat → Config) (w : World) : Prop := ∀ j, (w.socks j).sock.config = conf j

/-- `m` has no undefined behaviour and keeps the configurations. -/
def Defined (conf : Nat → Config) {α : Type} (m : P World α) : Prop := ∀ w, Confs conf w → (∀ u, (m w).1 ≠ .ub u) ∧ Confs conf (m w).2

variable {conf : Nat → Config} {call : Callback} {k : Nat}

theorem Defined.pure {α : Type} (a : α) : Defined conf (Pure.pure a : P World α) := fun _ h => ⟨nofun, h⟩
theorem Defined.fail {α : Type} (e : Err) : Defined conf (P.fail e : P World α) := fun _ h => ⟨nofun, h⟩

theorem Defined.bind {α β : Type} {m : P World α} {f : α → P World β} (h : Defined conf m) (h' : ∀ a, Defined conf (f a)) : Defined conf (m >>= f) := by
  intro w hw
  obtain ⟨h1, h2⟩ := h w hw
  rw [bind_eq]
  rcases hm : m w with ⟨r, w'⟩
  rw [hm] at h1 h2
  cases r with
  | ret a => exact h' a w' h2
  | throw e => exact ⟨nofun, h2⟩
  | block => exact ⟨nofun, h2⟩
  | ub u => exact absurd rfl (h1 u)

theorem confs_put {w : World} {s : St} (h : s.sock.config = (w.socks k).sock.config) (hw : Confs conf w) : Confs conf (w.put k s) := by
  intro j
  by_cases hj : j = k
  · subst hj
    rw [put_self]
    exact h.trans (hw j)
  · rw [put_other w s hj]
    exact hw j

theorem Defined.at {α : Type} {m : P St α} (h : NoUb m) (h' : ∀ s, (m s).2.sock.config = s.sock.config) : Defined conf (at' k m) :=
  fun w hw => ⟨h _, confs_put (h' _) hw⟩

theorem payloadLoop_defined (hc : ∀ mk, Defined conf (call k mk)) (h : Header) (short : Bool) (cap fuel : Nat) (hcap : cap = (conf k).readBufferSize.toNat) (hpos : 0 ≤ (conf k).readBufferSize) (w : World) (hw : Confs conf w) (progress : Int) (acc : List UInt8) :
    (∀ u, (payloadLoopOn call k h short cap fuel w progress acc).1 ≠ .ub u) ∧ Confs conf (payloadLoopOn call k h short cap fuel w progress acc).2 := by
  induction fuel generalizing w progress acc with
  | zero =>
    rw [payloadLoopOn]
    split <;> exact ⟨nofun, hw⟩
  | succ fuel ih =>
    rw [payloadLoopOn]
    split
    · rename_i hp
      cases hsch : (w.socks k).inp.sched with
      | nil => exact ⟨nofun, hw⟩
      | cons o sched =>
        dsimp only
        have hn : 0 ≤ (if (w.socks k).sock.config.readBufferSize > h.payloadLength - progress then h.payloadLength - progress else (w.socks k).sock.config.readBufferSize) ∧
            (if (w.socks k).sock.config.readBufferSize > h.payloadLength - progress then h.payloadLength - progress else (w.socks k).sock.config.readBufferSize).toNat ≤ cap := by
          rw [hw k, hcap]
          split <;> omega
        generalize (if (w.socks k).sock.config.readBufferSize > h.payloadLength - progress then h.payloadLength - progress else (w.socks k).sock.config.readBufferSize) = n at hn
        have put : ∀ b, Confs conf (w.put k ⟨(w.socks k).sock, ⟨b, sched⟩⟩) := fun b => confs_put rfl hw
        split
        · omega
        · rcases he : lowRead o (w.socks k).inp.bytes n.toNat with ⟨r, bytes'⟩
          cases r with
          | data bs =>
            have hb := Nat.le_trans (by obtain ⟨_, _, _, _, _, h, _⟩ := lowRead_data he; exact h) hn.2
            dsimp only
            split
            · omega
            · cases short with
              | true => exact ih _ (put _) _ _
              | false =>
                simp only [Bool.false_eq_true, if_false]
                generalize (if h.hasMask then xorMask h.mask progress.toNat bs else bs) = chunk
                obtain ⟨h1, h2⟩ := hc (fun l => .readMessage l h.opcode chunk) _ (put bytes')
                rcases hr : call k (fun l => .readMessage l h.opcode chunk) (w.put k ⟨(w.socks k).sock, ⟨bytes', sched⟩⟩) with ⟨r, w'⟩
                rw [hr] at h1 h2
                cases r with
                | ret a => exact ih w' h2 _ _
                | throw e => exact ⟨nofun, h2⟩
                | block => exact ⟨nofun, h2⟩
                | ub u => exact absurd rfl (h1 u)
          | retry => exact ih _ (put _) _ _
          | zero => exact ⟨nofun, put _⟩
          | broken => exact ⟨nofun, put _⟩
    · exact ⟨nofun, hw⟩

theorem readPayload_defined (hc : ∀ mk, Defined conf (call k mk)) (h : Header) (short : Bool) : Defined conf (readPayloadOn call k h short) := by
  unfold readPayloadOn
  split
  · exact .fail _
  · intro w hw
    by_cases hn : (w.socks k).sock.config.readBufferSize < 0
    · show (∀ u, ((do let st ← at' k P.get; if st.sock.config.readBufferSize < 0 then P.fail .badAlloc else do
        let acc ← runPayloadLoopOn call k h short
        endMarkerOn call k h short
        pure acc : P World (List UInt8)) w).1 ≠ .ub u) ∧ _
      rw [bind_eq]
      dsimp only [at', P.get]
      rw [if_pos hn]
      exact ⟨nofun, confs_put rfl hw⟩
    · rw [bind_eq]
      dsimp only [at', P.get]
      rw [if_neg hn]
      have hpos : 0 ≤ (conf k).readBufferSize := by rw [← hw k]; omega
      refine Defined.bind (conf := conf) ?_ (fun acc => .bind ?_ fun _ => .pure _) _ (confs_put rfl hw)
      · intro w' hw'
        exact payloadLoop_defined hc h short _ _ (by rw [hw' k]) hpos w' hw' 0 []
      · unfold endMarkerOn
        split
        · exact hc _
        · exact .pure _

theorem get_noUb : NoUb (P.get : P St St) := fun _ _ => nofun

theorem handleFrame_defined (hc : ∀ mk, Defined conf (call k mk)) (env : Env) (h : Header) : Defined conf (handleFrameOn env call k h) := by
  have data : Defined conf (do let _ ← readPayloadOn call k h false : P World Unit) := .bind (readPayload_defined hc h false) fun _ => .pure _
  have start : Defined conf (do if ← at' k (liftSock (checkForContinuation h)) then (do let _ ← readPayloadOn call k h false) else P.fail .continuationExpected : P World Unit) := by
    refine .bind (.at ?_ fun s => (checkFor_same h s).config) fun b => ?_
    · intro s u
      unfold liftSock checkForContinuation
      by_cases h1 : s.sock.lastOpcode = OPCODE_TEXT.toNat ∨ s.sock.lastOpcode = OPCODE_BINARY.toNat
      · rw [if_pos h1]; exact nofun
      · rw [if_neg h1]
        by_cases h2 : h.fin = true
        · rw [if_pos h2]; exact nofun
        · rw [if_neg h2]; exact nofun
    · split
      · exact data
      · exact .fail _
  unfold handleFrameOn
  split
  · refine .bind (.at get_noUb fun _ => rfl) fun st => ?_
    split
    · exact .fail _
    · exact data
  split
  · exact start
  split
  · exact start
  split
  · exact .bind (readPayload_defined hc h true) fun _ => hc _
  split
  · exact .bind (readPayload_defined hc h true) fun _ => hc _
  split
  · exact .bind (readPayload_defined hc h true) fun _ => hc _
  · exact .fail _

theorem iterate_defined (hc : ∀ mk, Defined conf (call k mk)) (env : Env) (h : Header) : Defined conf (iterateOn env call k h) := by
  unfold iterateOn
  exact .bind (.at (readFrameHeader_noUb env h) fun s => by rw [readFrameHeader_sock env h s]) fun h' => .bind (handleFrame_defined hc env h') fun _ => .pure _

theorem listenLoop_defined (hc : ∀ mk, Defined conf (call k mk)) (env : Env) (fuel : Nat) (h : Header) : Defined conf (listenLoopOn env call k fuel h) := by
  induction fuel generalizing h with
  | zero => exact fun w hw => ⟨nofun, hw⟩
  | succ fuel ih =>
    intro w hw
    obtain ⟨h1, h2⟩ := iterate_defined hc env h w hw
    unfold listenLoopOn
    rcases hr : iterateOn env call k h w with ⟨r, w'⟩
    rw [hr] at h1 h2
    cases r with
    | ret h' =>
      dsimp only
      split
      · exact ih h' w' h2
      · exact ⟨nofun, h2⟩
    | throw e => exact ⟨nofun, h2⟩
    | block => exact ⟨nofun, h2⟩
    | ub u => exact absurd rfl (h1 u)

theorem listen_defined (hc : ∀ mk, Defined conf (call k mk)) (env : Env) (h : Header) : Defined conf (listenOn env call k h) := by
  intro w hw
  have h0 : Confs conf (w.put k { w.socks k with sock := { (w.socks k).sock with listening := true } }) := confs_put rfl hw
  unfold listenOn
  dsimp only
  generalize w.put k { w.socks k with sock := { (w.socks k).sock with listening := true } } = w1 at h0
  obtain ⟨h1, h2⟩ := listenLoop_defined hc env ((w1.socks k).inp.sched.length + 1) h w1 h0
  rcases hr : listenLoopOn env call k ((w1.socks k).inp.sched.length + 1) h w1 with ⟨r, w'⟩
  rw [hr] at h1 h2
  cases r with
  | ub u => exact absurd rfl (h1 u)
  | _ => exact ⟨nofun, h2⟩

theorem code_defined (c : Code) (hm : ∀ k, c.Modest k) (hc : ∀ j mk, Defined conf (call j mk)) (tr : List (Nat × Event)) (steps i : Nat) : Defined conf (codeOn c call tr steps i) := by
  induction steps generalizing i with
  | zero =>
    intro w hw
    unfold codeOn
    split <;> exact ⟨nofun, hw⟩
  | succ steps ih =>
    intro w hw
    unfold codeOn
    cases hn : c.next tr i w.log with
    | none => exact ⟨nofun, hw⟩
    | some x =>
      obtain ⟨j, op⟩ := x
      dsimp only
      have key : (∀ u, (nestedOn (c.env j) call j op w).1 ≠ .ub u) ∧ Confs conf (nestedOn (c.env j) call j op w).2 := by
        cases op with
        | op u =>
          exact Defined.at (conf := conf) (k := j) (m := liftSock (runUserOp (c.env j) u)) (fun s => runUserOp_noUb (c.env j) u (fun call catches hu => (hm j).1 call ⟨tr, i, w.log, catches, hu ▸ hn⟩) s.sock)
            (fun s => runUserOp_config (c.env j) u (fun cfg hu => (hm j).2 tr i w.log cfg (hu ▸ hn)) s.sock) { w with did := w.did ++ [(j, u)] } hw
        | iterate catches =>
          obtain ⟨h1, h2⟩ := iterate_defined (hc j) (c.env j) default w hw
          unfold nestedOn
          dsimp only
          rcases hr : iterateOn (c.env j) call j default w with ⟨r, w'⟩
          rw [hr] at h1 h2
          cases r with
          | ret h' => exact ⟨nofun, h2⟩
          | throw e => cases catches <;> exact ⟨nofun, h2⟩
          | block => exact ⟨nofun, h2⟩
          | ub u => exact absurd rfl (h1 u)
        | listen => exact listen_defined (hc j) (c.env j) default w hw
      obtain ⟨k1, k2⟩ := key
      rcases hr : nestedOn (c.env j) call j op w with ⟨r, w'⟩
      rw [hr] at k1 k2
      cases r with
      | ret _ => exact ih (i + 1) w' k2
      | throw e => exact ⟨nofun, k2⟩
      | block => exact ⟨nofun, k2⟩
      | ub u => exact absurd rfl (k1 u)

theorem callback_defined (c : Code) (hm : ∀ k, c.Modest k) (steps depth : Nat) : ∀ j mk, Defined conf (callback c steps depth j mk) := by
  have called : ∀ (w : World) j e, Confs conf w → Confs conf (w.called j e) := fun w j e hw => confs_put (k := j) rfl hw
  induction depth with
  | zero =>
    intro j mk w hw
    unfold callback
    split
    · exact ⟨nofun, hw⟩
    · exact code_defined c hm (call := (fun _ _ w => (.block, w) : Callback)) (fun _ _ w hw => ⟨nofun, hw⟩) _ 0 0 _ (called _ _ _ hw)
  | succ depth ih =>
    intro j mk w hw
    unfold callback
    split
    · exact ⟨nofun, hw⟩
    · exact code_defined c hm ih _ steps 0 _ (called _ _ _ hw)

theorem main_defined (c : Code) (hm : ∀ k, c.Modest k) (steps depth : Nat) : Defined conf (main c steps depth) :=
  code_defined c hm (callback_defined c hm steps depth) [] steps 0

end OatWS.Gateway
