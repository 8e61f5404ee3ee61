import Verif.Proofs.AsyncSend
import Verif.Proofs.Loop
/-! Simulation of user code and of the header. -/

namespace OatWS.Async

/-! ### Sending leaves listening on -/

def KeepsL {α} (m : P Sock α) : Prop := ∀ s, (m s).2.listening = s.listening

theorem KeepsL.pure {α} (a : α) : KeepsL (Pure.pure a : P Sock α) := fun _ => rfl
theorem KeepsL.fail {α} (e : Err) : KeepsL (P.fail e : P Sock α) := fun _ => rfl
theorem KeepsL.undef {α} (u : UB) : KeepsL (P.undef u : P Sock α) := fun _ => rfl
theorem KeepsL.get : KeepsL (P.get : P Sock Sock) := fun _ => rfl

theorem KeepsL.bind {α β} {m : P Sock α} {f : α → P Sock β} (h : KeepsL m) (h' : ∀ a, KeepsL (f a)) :
    KeepsL (m >>= f) := by
  intro s
  have h1 := h s
  rw [P.bind_def, P.bind]
  rcases hm : m s with ⟨(a | _ | _ | _), s'⟩ <;> rw [hm] at h1 <;> simp only []
  · exact (h' a s').trans h1
  all_goals exact h1

theorem KeepsL.ite {α} {c : Prop} [Decidable c] {a b : P Sock α} (ha : KeepsL a) (hb : KeepsL b) :
    KeepsL (if c then a else b) := by
  split
  · exact ha
  · exact hb

theorem connWriteExact_keepsL (data) : KeepsL (connWriteExact data) := by
  intro s
  rw [connWriteExact_eq]
  rcases writeExact _ _ _ _ with ⟨(_ | _), _⟩ <;> rfl

theorem writeExpect_keepsL (data n e) : KeepsL (writeExpect data n e) :=
  (connWriteExact_keepsL data).bind fun _ => .ite (.fail e) (.pure _)

theorem sendFrameHeader_keepsL (env h fin op n) : KeepsL (sendFrameHeader env h fin op n) := by
  unfold sendFrameHeader
  refine KeepsL.get.bind fun s => ?_
  have hg : ∀ h : Header, KeepsL (generateMaskForFrame env h) := fun h s => rfl
  have hw : ∀ h : Header, KeepsL (writeFrameHeader env h) := by
    intro h
    unfold writeFrameHeader writeLength writeMask
    refine (writeExpect_keepsL _ _ _).bind fun _ => KeepsL.bind ?_ fun _ => ?_
    · exact .ite (writeExpect_keepsL _ _ _) (.ite (writeExpect_keepsL _ _ _) (.pure _))
    · exact .ite (writeExpect_keepsL _ _ _) (.pure _)
  have hj : ∀ h : Header, KeepsL (do writeFrameHeader env h; pure h) := fun h => (hw h).bind fun _ => .pure _
  exact .ite ((hg _).bind hj) (KeepsL.bind (.pure _) hj)

theorem sendOneFrame_keepsL (env fin op m) : KeepsL (sendOneFrame env fin op m) := by
  match m with
  | none => exact (sendFrameHeader_keepsL env default fin op 0).bind fun _ => .pure _
  | some [] => exact (sendFrameHeader_keepsL env default fin op 0).bind fun _ => .pure _
  | some (b :: bs) =>
    refine (sendFrameHeader_keepsL env default fin op _).bind fun h => .ite (.ite (.undef _) ?_) ?_
    · exact (connWriteExact_keepsL _).bind fun _ => .pure _
    · exact (connWriteExact_keepsL _).bind fun _ => .pure _

theorem sendChecked_keepsL (env fin op m) : KeepsL (sendChecked env fin op m) :=
  (sendOneFrame_keepsL env fin op m).bind fun _ => .ite (.pure _) (.fail _)

theorem sendChecked_keeps (env fin op m) : Keeps (sendChecked env fin op m) :=
  (sendOneFrame_keeps env fin op m).bind fun _ => .ite (.pure _) (.fail _)

/-- `sendOrStop` and `sendChecked` differ only in switching listening off on failure. -/
theorem sendOrStop_checked (env : Env) (op m) (s : Sock) :
    (sendOrStop env op m s).1 = (sendChecked env true op m s).1 ∧
    ((∀ e, (sendOrStop env op m s).1 ≠ .throw e) → (sendOrStop env op m s).2 = (sendChecked env true op m s).2) ∧
    { (sendChecked env true op m s).2 with listening := (sendOrStop env op m s).2.listening } = (sendOrStop env op m s).2 := by
  unfold sendOrStop sendChecked
  simp only [P.bind_def, P.bind_apply]
  rcases sendOneFrame env true op m s with ⟨(b | _ | _ | _), s'⟩
  · cases b with
    | true => exact ⟨rfl, fun _ => rfl, rfl⟩
    | false => exact ⟨rfl, fun h => absurd rfl (h .sendFailed), rfl⟩
  all_goals exact ⟨rfl, fun _ => rfl, rfl⟩

/-- What both APIs keep while user code runs. -/
structure Same (s s' : Sock) : Prop where
  listener : s'.listener = s.listener
  listening : s'.listening = s.listening
  lastOpcode : s'.lastOpcode = s.lastOpcode
  buffer : 0 < s.config.readBufferSize → 0 < s'.config.readBufferSize

theorem Same.refl (s : Sock) : Same s s := ⟨rfl, rfl, rfl, id⟩
theorem Same.trans {a b c : Sock} (h : Same a b) (h' : Same b c) : Same a c :=
  ⟨h'.listener.trans h.listener, h'.listening.trans h.listening, h'.lastOpcode.trans h.lastOpcode, fun x => h'.buffer (h.buffer x)⟩

/-- A send method other than `sendOneFrame`. -/
theorem send_wrapper (env : Env) (call : SendCall) (h : ∀ f o m, call ≠ .oneFrame f o m) :
    ∃ op m, send env call = sendOrStop env op m ∧ sendAsync env call = sendOneFrameAsync true op m := by
  cases call with
  | oneFrame f o m => exact absurd rfl (h f o m)
  | _ => exact ⟨_, _, rfl, rfl⟩

theorem mirror_send_call (env : Env) (call : SendCall) (hc : ∀ f o m, call ≠ .oneFrame f o m) (rest : List Co)
    (hr : NoCatch rest) (l : Local) (w : World) :
    Mirrors env (.run ⟨sendAsync env call :: rest, l⟩, w) (liftSock (send env call) w.st)
      (fun _ st' => ∃ w', Leads env (.run ⟨sendAsync env call :: rest, l⟩, w) (.run ⟨rest, l⟩, w') ∧ w'.st = st' ∧
        Same w.st.sock st'.sock ∧ st'.inp = w.st.inp) := by
  obtain ⟨op, m, e1, e2⟩ := send_wrapper env call hc
  rw [e1, e2]
  have h := mirror_send env true op m rest hr l w
  have hs := sendOrStop_checked env op m w.st.sock
  have hk := sendChecked_keeps env true op m w.st.sock
  have hl := sendChecked_keepsL env true op m w.st.sock
  unfold liftSock at h ⊢
  revert h hs hk hl
  rcases sendChecked env true op m w.st.sock with ⟨x, s1⟩
  rcases sendOrStop env op m w.st.sock with ⟨y, s2⟩
  rintro h ⟨hxy, h1, h2⟩ hk hl
  simp only [] at hxy h1 h2 hk hl h ⊢
  subst hxy
  cases y with
  | ret a =>
    obtain rfl : s2 = s1 := h1 nofun
    obtain ⟨w', h3, e⟩ := h
    exact ⟨w', h3, e, ⟨hk.listener, hl, hk.lastOpcode, fun h => by rw [hk.config]; exact h⟩, rfl⟩
  | throw e =>
    obtain ⟨ae, w', h3, h4, h5⟩ := h
    refine ⟨ae, w', h3, ?_, h5⟩
    unfold SameSt at h4 ⊢
    rw [← h2]
    have : w'.st.sock = { s1 with listening := w'.st.sock.listening } := by
      have := congrArg St.sock h4
      simp only [] at this
      rw [← this]
    have hi : w'.st.inp = w.st.inp := by
      have := congrArg St.inp h4
      exact this
    rw [hi, this]
  | block => obtain rfl : s2 = s1 := h1 nofun; exact h
  | ub u => obtain rfl : s2 = s1 := h1 nofun; exact h

/-- User code. -/
theorem mirror_ops (env : Env) (ops : List UserOp) (hops : ∀ op ∈ ops, PlainOp op) (ptr : Option Nat) (data : List UInt8) (self : Option Nat)
    (rest : List Co) (hr : NoCatch rest) (l : Local) (w : World) :
    Mirrors env (.run ⟨.user ⟨ops, false, ptr, data, self⟩ :: rest, l⟩, w) (liftSock (runUserOps env ops) w.st)
      (fun _ st' => ∃ w', Leads env (.run ⟨.user ⟨ops, false, ptr, data, self⟩ :: rest, l⟩, w) (.run ⟨rest, l⟩, w') ∧ w'.st = st' ∧
        Same w.st.sock st'.sock ∧ st'.inp = w.st.inp) := by
  induction ops generalizing w with
  | nil => exact ⟨w, leads_co (leads_finish env _ rest l w), rfl, Same.refl _, rfl⟩
  | cons op ops ih =>
    have hops' : ∀ op ∈ ops, PlainOp op := fun o ho => hops o (by simp [ho])
    have hop := hops op (by simp)
    have hu : runUserOps env (op :: ops) = P.bind (runUserOp env op) (fun _ => runUserOps env ops) := rfl
    rw [hu, liftSock_bind]
    cases op with
    | stopListening => exact absurd hop (by simp [PlainOp])
    | setListener l' => exact absurd hop (by simp [PlainOp])
    | setConfig cfg =>
      have hl : Leads env (.run ⟨.user ⟨.setConfig cfg :: ops, false, ptr, data, self⟩ :: rest, l⟩, w)
          (.run ⟨.user ⟨ops, false, ptr, data, self⟩ :: rest, l⟩, w.setSock { w.st.sock with config := cfg }) := leads_co Leads.refl
      have hx : P.bind (liftSock (runUserOp env (.setConfig cfg))) (fun _ => liftSock (runUserOps env ops)) w.st
          = liftSock (runUserOps env ops) (w.setSock { w.st.sock with config := cfg }).st := rfl
      rw [hx]
      refine Mirrors.leads hl (Mirrors.mono (ih hops' _) ?_)
      rintro _ st' ⟨w', h1, h2, h3, h4⟩
      exact ⟨w', hl.trans h1, h2, ⟨h3.listener, h3.listening, h3.lastOpcode, fun _ => h3.buffer hop⟩, h4⟩
    | send call catches =>
      have hc : (∀ f o m, call ≠ .oneFrame f o m) ∧ catches = false := by
        cases call with
        | oneFrame f o m => exact absurd hop (by simp [PlainOp])
        | _ => exact ⟨nofun, hop⟩
      obtain ⟨hc, rfl⟩ := hc
      have hx : runUserOp env (.send call false) = send env call := by
        funext s
        simp only [runUserOp]
        rcases send env call s with ⟨(_ | _ | _ | _), _⟩ <;> rfl
      rw [hx]
      have hl : Leads env (.run ⟨.user ⟨.send call false :: ops, false, ptr, data, self⟩ :: rest, l⟩, w)
          (.run ⟨sendAsync env call :: .user ⟨ops, false, ptr, data, self⟩ :: rest, l⟩, w) := leads_co Leads.refl
      refine Mirrors.leads hl ?_
      refine Mirrors.bind (mirror_send_call env call hc _ (hr.cons (fun u hu => by cases hu; rfl)) l w) ?_
      rintro _ _ ⟨w1, h1, rfl, h2, h3⟩
      refine Mirrors.leads h1 (Mirrors.mono (ih hops' w1) ?_)
      rintro _ _ ⟨w', h4, h5, h6, h7⟩
      exact ⟨w', hl.trans (h1.trans h4), h5, h2.trans h6, h7.trans h3⟩
    | throw =>
      refine Mirrors.leads (leads_co Leads.refl) ?_
      exact mirrors_error hr (.same (by decide))

/-- A callback. -/
theorem mirror_callback (env : Env) (hp : PlainListener env) (mk : Nat → Event) (to : Nat) (ptr : Option Nat) (data : List UInt8)
    (rest : List Co) (hr : NoCatch rest) (l : Local) (w : World) (hto : w.st.sock.listener = some to) (w1 : World)
    (hw1 : w1.st = (callback env (mk to) ptr data w).2.st) :
    Mirrors env (.run ⟨(callback env (mk to) ptr data w).1 :: rest, l⟩, w1) (liftSock (callListener env mk) w.st)
      (fun _ st' => ∃ w', Leads env (.run ⟨(callback env (mk to) ptr data w).1 :: rest, l⟩, w1) (.run ⟨rest, l⟩, w') ∧ w'.st = st' ∧
        Same w.st.sock st'.sock ∧ st'.inp = w.st.inp) := by
  have h := mirror_ops env (env.react (w.st.sock.trace ++ [mk to])) (hp _) ptr data (some (mk to).to) rest hr l w1
  have hx : liftSock (callListener env mk) w.st = liftSock (runUserOps env (env.react (w.st.sock.trace ++ [mk to]))) w1.st := by
    rw [hw1]
    have hs : callListener env mk w.st.sock = runUserOps env (env.react (w.st.sock.trace ++ [mk to]))
        { w.st.sock with trace := w.st.sock.trace ++ [mk to] } := by
      unfold callListener
      split
      · rename_i h0; rw [hto] at h0; cases h0
      · rename_i t h0; rw [hto] at h0; cases h0; rfl
    unfold liftSock
    rw [hs]
    rfl
  rw [hx]
  refine Mirrors.mono h ?_
  rintro _ st' ⟨w', h1, h2, h3, h4⟩
  rw [hw1] at h3 h4
  exact ⟨w', h1, h2, ⟨h3.listener, h3.listening, h3.lastOpcode, h3.buffer⟩, h4⟩

end OatWS.Async
