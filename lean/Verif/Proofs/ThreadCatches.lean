import Verif.Proofs.ThreadHealthyPool
/-! If writes do not fail, it makes no difference whether user code catches what sends throw. -/

namespace OatWS

/-- The operation, but what a send throws is caught. -/
def UserOp.catching : UserOp → UserOp
  | .send c _ => .send c true
  | op => op

/-- The same listeners, that catch what sends throw. -/
def Env.catching (env : Env) : Env := { env with react := fun tr => (env.react tr).map UserOp.catching }

namespace Threads
open Prog Async

/-- The same steps, if writes do not fail. -/
def Same {α : Type} : Prog α → Prog α → Prop
  | .ret a, q => q = .ret a
  | .throw e, q => q = .throw e
  | .ub u, q => q = .ub u
  | .stuck, q => q = .stuck
  | .act a k, q => ∃ k', q = .act a k' ∧ ∀ r, Gives False a r → Same (k r) (k' r)

variable {α β : Type}

theorem Same.refl (p : Prog α) : Same p p := by
  induction p with
  | act a k ih => exact ⟨k, rfl, fun r _ => ih r⟩
  | _ => rfl

theorem Same.andThen {p p' : Prog α} {f f' : α → Prog β} (h : Same p p') (hf : ∀ x, Same (f x) (f' x)) : Same (Prog.andThen p f) (Prog.andThen p' f') := by
  induction p generalizing p' with
  | ret a => cases h; exact hf a
  | throw e => cases h; rfl
  | ub u => cases h; rfl
  | stuck => cases h; rfl
  | act a k ih =>
    obtain ⟨k', rfl, h⟩ := h
    exact ⟨_, rfl, fun r hr => ih r (h r hr)⟩

theorem Same.caught {p p' : Prog α} {f : Err → Prog α} (h : Same p p') : Same (Prog.catching p f) (Prog.catching p' f) := by
  induction p generalizing p' with
  | ret a => cases h; rfl
  | throw e => cases h; exact .refl _
  | ub u => cases h; rfl
  | stuck => cases h; rfl
  | act a k ih =>
    obtain ⟨k', rfl, h⟩ := h
    exact ⟨_, rfl, fun r hr => ih r (h r hr)⟩

/-- Code that behaves the same behind the results that are possible. -/
theorem Same.after {p : Prog α} {f f' : α → Prog β} {b : Bool} (h : Well False p b (fun _ x => Same (f x) (f' x)) fun _ _ => True) : Same (Prog.andThen p f) (Prog.andThen p f') := by
  induction p generalizing b with
  | ret a => exact h
  | throw e => rfl
  | ub u => rfl
  | stuck => rfl
  | act a k ih =>
    obtain ⟨-, -, -, -, -, h⟩ := Well.step h
    refine ⟨_, rfl, fun r hr => ?_⟩
    obtain ⟨b', -, h⟩ := h r hr
    exact ih r h

variable (env : Env) (fuel : Nat)

theorem send_catching (c : SendCall) : sendT env.catching fuel c = sendT env fuel c := rfl

theorem ops_catching (ops : List UserOp) : userOpsT env.catching fuel ops = userOpsT env fuel ops := by
  induction ops with
  | nil => rfl
  | cons op ops ih =>
    show Prog.andThen (userOpT env.catching fuel op) (fun _ => userOpsT env.catching fuel ops) = _
    rw [ih]
    rfl

theorem same_send (c : SendCall) (catches : Bool) : Same (userSendT env fuel c catches) (userSendT env.catching fuel c true) := by
  refine ⟨_, rfl, fun _ _ => ?_⟩
  refine Same.after (b := false) (.catching (.andThen (well_send _ _ _ ⟨rfl, fun _ => ?_⟩)))
  exact .refl _

theorem same_ops (ops : List UserOp) : Same (userOpsT env fuel ops) (userOpsT env.catching fuel (ops.map UserOp.catching)) := by
  induction ops with
  | nil => exact .refl _
  | cons op ops ih =>
    refine Same.andThen ?_ fun _ => ih
    cases op with
    | send c catches => exact same_send env fuel c catches
    | _ => exact .refl _

theorem same_callListener (mk : Nat → Event) : Same (callListenerT env fuel mk) (callListenerT env.catching fuel mk) := by
  refine ⟨_, rfl, fun l _ => ?_⟩
  cases l with
  | none => exact .refl _
  | some l => exact ⟨_, rfl, fun tr _ => same_ops env fuel (env.react tr)⟩

theorem same_loop (h : Header) (short : Bool) (cap n : Nat) (progress : Int) (acc : List UInt8) : Same (readPayloadLoopT env fuel h short cap n progress acc) (readPayloadLoopT env.catching fuel h short cap n progress acc) := by
  induction n generalizing progress acc with
  | zero =>
    unfold readPayloadLoopT
    split <;> exact .refl _
  | succ n ih =>
    unfold readPayloadLoopT
    split
    · refine ⟨_, rfl, fun c _ => ?_⟩
      dsimp only
      generalize (if c.readBufferSize > h.payloadLength - progress then h.payloadLength - progress else c.readBufferSize) = d
      split
      · exact .refl _
      · refine ⟨_, rfl, fun r _ => ?_⟩
        cases r with
        | data bs =>
          dsimp only
          split
          · exact .refl _
          · split
            · exact ih _ _
            · exact .andThen (same_callListener env fuel _) fun _ => ih _ _
        | retry => exact ih _ _
        | zero => exact .refl _
        | broken => exact .refl _
    · exact .refl _

theorem same_readPayload (h : Header) (short : Bool) : Same (readPayloadT env fuel h short) (readPayloadT env.catching fuel h short) := by
  unfold readPayloadT
  split
  · exact .refl _
  · refine ⟨_, rfl, fun c _ => ?_⟩
    dsimp only
    split
    · exact .refl _
    · refine .andThen (same_loop env fuel _ _ _ _ _ _) fun acc => .andThen ?_ fun _ => .refl _
      unfold endMarkerT
      split
      · exact same_callListener env fuel _
      · exact .refl _

theorem same_handleFrame (h : Header) : Same (handleFrameT env fuel h) (handleFrameT env.catching fuel h) := by
  unfold handleFrameT
  split
  · refine ⟨_, rfl, fun v _ => ?_⟩
    dsimp only
    split
    · exact .refl _
    · exact .andThen (same_readPayload env fuel _ _) fun _ => .refl _
  · split
    · refine .andThen (.refl _) fun ok => ?_
      split
      · exact .andThen (same_readPayload env fuel _ _) fun _ => .refl _
      · exact .refl _
    · split
      · refine .andThen (.refl _) fun ok => ?_
        split
        · exact .andThen (same_readPayload env fuel _ _) fun _ => .refl _
        · exact .refl _
      · split
        · exact .andThen (same_readPayload env fuel _ _) fun _ => same_callListener env fuel _
        · split
          · exact .andThen (same_readPayload env fuel _ _) fun _ => same_callListener env fuel _
          · split
            · exact .andThen (same_readPayload env fuel _ _) fun _ => same_callListener env fuel _
            · exact .refl _

theorem same_iterate (h : Header) : Same (iterateFrameT env fuel h) (iterateFrameT env.catching fuel h) :=
  .andThen (.refl (readFrameHeaderT env fuel h)) fun h => .andThen (same_handleFrame env fuel h) fun _ => .refl _

theorem same_listenLoop (n : Nat) (h : Header) : Same (listenLoopT env fuel n h) (listenLoopT env.catching fuel n h) := by
  induction n generalizing h with
  | zero => exact .refl _
  | succ n ih =>
    refine .andThen (same_iterate env fuel h) fun h' => ?_
    split
    · refine ⟨_, rfl, fun v _ => ?_⟩
      dsimp only
      split
      · exact ih _
      · exact .refl _
    · exact .refl _

theorem same_listen (h : Header) : Same (listenT env fuel h) (listenT env.catching fuel h) :=
  .caught ⟨_, rfl, fun _ _ => same_listenLoop env fuel fuel h⟩

theorem same_session (created : List UserOp) (h : Header) (destroyed : List UserOp) :
    Same (sessionT env fuel created h destroyed) (sessionT env.catching fuel (created.map UserOp.catching) h (destroyed.map UserOp.catching)) :=
  .andThen (same_ops env fuel created) fun _ => .andThen (same_listen env fuel h) fun _ => same_ops env fuel destroyed

/-- Code that does not receive is the same. -/
theorem helper_catching {O : UserOp → Prop} {α : Type} {q : Prog α} (h : HelperCode O env fuel q) : HelperCode O env.catching fuel q := by
  induction h with
  | ret a => exact .ret a
  | throw e => exact .throw e
  | bind _ _ h1 h2 => exact .bind h1 h2
  | catching _ _ h1 h2 => exact .catching h1 h2
  | code ops ho => rw [← ops_catching]; exact .code ops ho
  | send c ho => exact .send (env := env.catching) c ho
  | stream c h pieces ho hp => exact .stream (env := env.catching) c h pieces ho hp

end Threads
end OatWS
