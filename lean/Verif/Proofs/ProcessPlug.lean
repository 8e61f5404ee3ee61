import Verif.Proofs.ProcessPaths
/-! # `listen` is the library's part of it, with user code after each call of the listener -/

namespace OatWS.Process
open Threads

variable {α β γ : Type}

/-- As `Code.weave`, for a single socket. -/
def plug (user : List Event → Prog Unit) : Prog α → Prog α
  | .ret a => .ret a
  | .throw e => .throw e
  | .ub u => .ub u
  | .stuck => .stuck
  | .act (.callback e) c => .act (.callback e) fun tr => (user tr).andThen fun _ => plug user (c tr)
  | .act a c => .act a fun r => plug user (c r)

theorem andThen_ret (p : Prog α) : p.andThen .ret = p := by
  induction p with
  | act a c ih => simp only [Prog.andThen, ih]
  | _ => rfl

theorem andThen_unit (p : Prog Unit) : (p.andThen fun _ => .ret ()) = p := andThen_ret p

theorem andThen_assoc (p : Prog α) (f : α → Prog β) (g : β → Prog γ) : (p.andThen f).andThen g = p.andThen fun x => (f x).andThen g := by
  induction p with
  | act a c ih => simp only [Prog.andThen, ih]
  | _ => rfl

theorem plug_andThen (user : List Event → Prog Unit) (p : Prog α) (f : α → Prog β) : plug user (p.andThen f) = (plug user p).andThen fun x => plug user (f x) := by
  induction p with
  | act a c ih =>
    cases a <;> simp only [Prog.andThen, plug, ih, andThen_assoc]
  | _ => rfl

/-- No callbacks. -/
def Plain (p : Prog α) : Prop := ∀ user, plug user p = p

theorem Plain.andThen {p : Prog α} {f : α → Prog β} (h : Plain p) (hf : ∀ x, Plain (f x)) : Plain (p.andThen f) := fun user => by
  rw [plug_andThen, h user]
  congr 1
  funext x
  exact hf x user

theorem readExactT_plain : ∀ (fuel need : Nat) (acc : List UInt8), Plain (readExactT fuel need acc) := by
  intro fuel
  induction fuel with
  | zero =>
    intro need acc user
    cases need <;> rfl
  | succ n ih =>
    intro need acc user
    cases need with
    | zero => rfl
    | succ need =>
      simp only [readExactT, plug]
      congr 1
      funext r
      cases r with
      | data bs => exact ih _ _ user
      | retry => exact ih _ _ user
      | zero => rfl
      | broken => rfl

theorem readLengthT_plain (env : Env) (fuel : Nat) (b : UInt8) : Plain (readLengthT env fuel b) := by
  unfold readLengthT
  split
  · exact fun _ => rfl
  · split
    · refine (readExactT_plain _ _ _).andThen fun x => ?_
      split <;> exact fun _ => rfl
    · refine (readExactT_plain _ _ _).andThen fun x => ?_
      split <;> exact fun _ => rfl

theorem readFrameHeaderT_plain (env : Env) (fuel : Nat) (h : Header) : Plain (readFrameHeaderT env fuel h) := by
  unfold readFrameHeaderT
  refine (readExactT_plain _ _ _).andThen fun x => ?_
  split
  · refine (readLengthT_plain _ _ _).andThen fun x => ?_
    split
    · refine (readExactT_plain _ _ _).andThen fun x => ?_
      split <;> exact fun _ => rfl
    · exact fun _ => rfl
  · exact fun _ => rfl

theorem checkForContinuationT_plain (h : Header) : Plain (checkForContinuationT h) := fun user => by
  simp only [checkForContinuationT, plug]
  congr 1
  funext v
  split
  · rfl
  · split <;> rfl

/-- What the methods of the listener do. -/
def reacts (env : Env) (fuel : Nat) (tr : List Event) : Prog Unit := userOpsT env fuel (env.react tr)

variable (env : Env) (fuel : Nat)

theorem callListenerT_plug (mk : Nat → Event) : plug (reacts env fuel) (callListenerT (mute env) fuel mk) = callListenerT env fuel mk := by
  simp only [callListenerT, plug]
  congr 1
  funext l
  cases l with
  | none => rfl
  | some l =>
    simp only [plug]
    congr 1
    funext tr
    exact andThen_unit _

theorem readPayloadLoopT_plug (h : Header) (short : Bool) (cap : Nat) : ∀ (n : Nat) (progress : Int) (acc : List UInt8),
    plug (reacts env fuel) (readPayloadLoopT (mute env) fuel h short cap n progress acc) = readPayloadLoopT env fuel h short cap n progress acc := by
  intro n
  induction n with
  | zero =>
    intro progress acc
    unfold readPayloadLoopT
    split <;> rfl
  | succ n ih =>
    intro progress acc
    unfold readPayloadLoopT
    split
    · simp only [plug]
      congr 1
      funext c
      generalize (if c.readBufferSize > h.payloadLength - progress then h.payloadLength - progress else c.readBufferSize) = want
      split
      · rfl
      · simp only [plug]
        congr 1
        funext r
        cases r with
        | data bs =>
          dsimp only
          split
          · rfl
          · generalize (if h.hasMask = true then xorMask h.mask progress.toNat bs else bs) = chunk
            split
            · exact ih _ _
            · rw [plug_andThen, callListenerT_plug]
              congr 1
              funext x
              exact ih _ _
        | retry => exact ih _ _
        | zero => rfl
        | broken => rfl
    · rfl

theorem endMarkerT_plug (h : Header) (short : Bool) : plug (reacts env fuel) (endMarkerT (mute env) fuel h short) = endMarkerT env fuel h short := by
  unfold endMarkerT
  split
  · exact callListenerT_plug ..
  · rfl

theorem readPayloadT_plug (h : Header) (short : Bool) : plug (reacts env fuel) (readPayloadT (mute env) fuel h short) = readPayloadT env fuel h short := by
  unfold readPayloadT
  split
  · rfl
  · simp only [plug]
    congr 1
    funext c
    split
    · rfl
    · rw [plug_andThen, readPayloadLoopT_plug]
      congr 1
      funext acc
      rw [plug_andThen, endMarkerT_plug]
      rfl

theorem handleFrameT_plug (h : Header) : plug (reacts env fuel) (handleFrameT (mute env) fuel h) = handleFrameT env fuel h := by
  unfold handleFrameT
  split
  · simp only [plug]
    congr 1
    funext v
    split
    · rfl
    · rw [plug_andThen, readPayloadT_plug]; rfl
  · split
    · rw [plug_andThen, checkForContinuationT_plain]
      congr 1
      funext ok
      split
      · rw [plug_andThen, readPayloadT_plug]; rfl
      · rfl
    · split
      · rw [plug_andThen, checkForContinuationT_plain]
        congr 1
        funext ok
        split
        · rw [plug_andThen, readPayloadT_plug]; rfl
        · rfl
      · split
        · rw [plug_andThen, readPayloadT_plug]
          congr 1
          funext data
          exact callListenerT_plug ..
        · split
          · rw [plug_andThen, readPayloadT_plug]
            congr 1
            funext data
            exact callListenerT_plug ..
          · split
            · rw [plug_andThen, readPayloadT_plug]
              congr 1
              funext data
              exact callListenerT_plug ..
            · rfl

theorem iterateFrameT_plug (h : Header) : plug (reacts env fuel) (iterateFrameT (mute env) fuel h) = iterateFrameT env fuel h := by
  unfold iterateFrameT
  rw [plug_andThen, readFrameHeaderT_plain]
  show (readFrameHeaderT env fuel h).andThen _ = _
  congr 1
  funext h'
  rw [plug_andThen, handleFrameT_plug]
  rfl

theorem listenLoopT_plug : ∀ (n : Nat) (h : Header), plug (reacts env fuel) (listenLoopT (mute env) fuel n h) = listenLoopT env fuel n h := by
  intro n
  induction n with
  | zero => intro h; rfl
  | succ n ih =>
    intro h
    unfold listenLoopT
    rw [plug_andThen, iterateFrameT_plug]
    congr 1
    funext h'
    split
    · simp only [plug]
      congr 1
      funext b
      split
      · exact ih _
      · rfl
    · rfl

/-- User code is the same whatever the listener does. -/
theorem userOpT_react (react : List Event → List UserOp) (op : UserOp) : userOpT { env with react := react } fuel op = userOpT env fuel op := by
  cases op <;> rfl

theorem userOpsT_react (react : List Event → List UserOp) (ops : List UserOp) : userOpsT { env with react := react } fuel ops = userOpsT env fuel ops := by
  induction ops with
  | nil => rfl
  | cons op ops ih =>
    show (userOpT _ fuel op).andThen _ = (userOpT _ fuel op).andThen _
    rw [userOpT_react]
    congr 1
    funext x
    exact ih

end OatWS.Process
