import Verif.Proofs.NetworkCatches
import Verif.Proofs.AsyncHealthy
/-! Only what listeners do in the callbacks that are made matters. -/

namespace OatWS

/-- The same, with other listeners. -/
def Env.reacting (env : Env) (f : List Event → List UserOp) : Env := { env with react := f }

namespace Threads
open Prog

/-- The result, if it is of a callback, is among these. -/
def Within (P : List Event → Prop) : (a : Act) → a.Res → Prop
  | .callback _, tr => P tr
  | _, _ => True

/-- The same steps, as long as callbacks are among these. -/
def Follows {α : Type} (P : List Event → Prop) : Prog α → Prog α → Prop
  | .ret a, q => q = .ret a
  | .throw e, q => q = .throw e
  | .ub u, q => q = .ub u
  | .stuck, q => q = .stuck
  | .act a k, q => ∃ k', q = .act a k' ∧ ∀ r, Within P a r → Follows P (k r) (k' r)

variable {α β : Type} {P : List Event → Prop}

theorem Follows.refl (p : Prog α) : Follows P p p := by
  induction p with
  | act a k ih => exact ⟨k, rfl, fun r _ => ih r⟩
  | _ => rfl

theorem Follows.andThen {p p' : Prog α} {f f' : α → Prog β} (h : Follows P p p') (hf : ∀ x, Follows P (f x) (f' x)) : Follows P (Prog.andThen p f) (Prog.andThen p' f') := by
  induction p generalizing p' with
  | ret a => cases h; exact hf a
  | throw e => cases h; rfl
  | ub u => cases h; rfl
  | stuck => cases h; rfl
  | act a k ih =>
    obtain ⟨k', rfl, h⟩ := h
    exact ⟨_, rfl, fun r hr => ih r (h r hr)⟩

theorem Follows.caught {p p' : Prog α} {f : Err → Prog α} (h : Follows P p p') : Follows P (Prog.catching p f) (Prog.catching p' f) := by
  induction p generalizing p' with
  | ret a => cases h; rfl
  | throw e => cases h; exact .refl _
  | ub u => cases h; rfl
  | stuck => cases h; rfl
  | act a k ih =>
    obtain ⟨k', rfl, h⟩ := h
    exact ⟨_, rfl, fun r hr => ih r (h r hr)⟩

variable (env : Env) (fuel : Nat) (f : List Event → List UserOp)

theorem ops_reacting (ops : List UserOp) : userOpsT (env.reacting f) fuel ops = userOpsT env fuel ops := by
  induction ops with
  | nil => rfl
  | cons op ops ih =>
    show Prog.andThen (userOpT (env.reacting f) fuel op) (fun _ => userOpsT (env.reacting f) fuel ops) = _
    rw [ih]
    rfl

variable (hP : ∀ tr, P tr → f tr = env.react tr)
include hP

theorem follows_callListener (mk : Nat → Event) : Follows P (callListenerT env fuel mk) (callListenerT (env.reacting f) fuel mk) := by
  refine ⟨_, rfl, fun l _ => ?_⟩
  cases l with
  | none => exact .refl _
  | some l => exact ⟨_, rfl, fun tr htr => by
    show Follows P (userOpsT env fuel (env.react tr)) _
    rw [ops_reacting env fuel f, show (env.reacting f).react tr = env.react tr from hP tr htr]; exact .refl _⟩

theorem follows_loop (h : Header) (short : Bool) (cap n : Nat) (progress : Int) (acc : List UInt8) : Follows P (readPayloadLoopT env fuel h short cap n progress acc) (readPayloadLoopT (env.reacting f) fuel h short cap n progress acc) := by
  induction n generalizing progress acc with
  | zero =>
    unfold readPayloadLoopT
    split <;> exact .refl _
  | succ n ih =>
    unfold readPayloadLoopT
    split
    · refine ⟨_, rfl, fun c _ => ?_⟩
      dsimp only
      generalize (if c.readBufferSize > h.payloadLength - progress then h.payloadLength - progress else c.readBufferSize) = d
      split
      · exact .refl _
      · refine ⟨_, rfl, fun r _ => ?_⟩
        cases r with
        | data bs =>
          dsimp only
          split
          · exact .refl _
          · split
            · exact ih _ _
            · exact .andThen (follows_callListener env fuel f hP _) fun _ => ih _ _
        | retry => exact ih _ _
        | zero => exact .refl _
        | broken => exact .refl _
    · exact .refl _

theorem follows_readPayload (h : Header) (short : Bool) : Follows P (readPayloadT env fuel h short) (readPayloadT (env.reacting f) fuel h short) := by
  unfold readPayloadT
  split
  · exact .refl _
  · refine ⟨_, rfl, fun c _ => ?_⟩
    dsimp only
    split
    · exact .refl _
    · refine .andThen (follows_loop env fuel f hP _ _ _ _ _ _) fun acc => .andThen ?_ fun _ => .refl _
      unfold endMarkerT
      split
      · exact follows_callListener env fuel f hP _
      · exact .refl _

theorem follows_handleFrame (h : Header) : Follows P (handleFrameT env fuel h) (handleFrameT (env.reacting f) fuel h) := by
  unfold handleFrameT
  split
  · refine ⟨_, rfl, fun v _ => ?_⟩
    dsimp only
    split
    · exact .refl _
    · exact .andThen (follows_readPayload env fuel f hP _ _) fun _ => .refl _
  · split
    · refine .andThen (.refl _) fun ok => ?_
      split
      · exact .andThen (follows_readPayload env fuel f hP _ _) fun _ => .refl _
      · exact .refl _
    · split
      · refine .andThen (.refl _) fun ok => ?_
        split
        · exact .andThen (follows_readPayload env fuel f hP _ _) fun _ => .refl _
        · exact .refl _
      · split
        · exact .andThen (follows_readPayload env fuel f hP _ _) fun _ => follows_callListener env fuel f hP _
        · split
          · exact .andThen (follows_readPayload env fuel f hP _ _) fun _ => follows_callListener env fuel f hP _
          · split
            · exact .andThen (follows_readPayload env fuel f hP _ _) fun _ => follows_callListener env fuel f hP _
            · exact .refl _

theorem follows_iterate (h : Header) : Follows P (iterateFrameT env fuel h) (iterateFrameT (env.reacting f) fuel h) :=
  .andThen (.refl (readFrameHeaderT env fuel h)) fun h => .andThen (follows_handleFrame env fuel f hP h) fun _ => .refl _

theorem follows_listenLoop (n : Nat) (h : Header) : Follows P (listenLoopT env fuel n h) (listenLoopT (env.reacting f) fuel n h) := by
  induction n generalizing h with
  | zero => exact .refl _
  | succ n ih =>
    refine .andThen (follows_iterate env fuel f hP h) fun h' => ?_
    split
    · refine ⟨_, rfl, fun v _ => ?_⟩
      dsimp only
      split
      · exact ih _
      · exact .refl _
    · exact .refl _

theorem follows_listen (h : Header) : Follows P (listenT env fuel h) (listenT (env.reacting f) fuel h) :=
  .caught ⟨_, rfl, fun _ _ => follows_listenLoop env fuel f hP fuel h⟩

theorem follows_session (created : List UserOp) (h : Header) (destroyed : List UserOp) : Follows P (sessionT env fuel created h destroyed) (sessionT (env.reacting f) fuel created h destroyed) := by
  unfold sessionT
  rw [ops_reacting, ops_reacting]
  exact .andThen (.refl _) fun _ => .andThen (follows_listen env fuel f hP h) fun _ => .refl _

end Threads
end OatWS
