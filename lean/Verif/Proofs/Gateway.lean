import Verif.Spec.Gateway
import Verif.Proofs.Reentrant
/-! Reading one of several sockets is as reading it alone. -/

namespace OatWS.Gateway
open Reentrant (NestedOp)

theorem bind_eq {σ α β : Type} (m : P σ α) (f : α → P σ β) (s : σ) : (m >>= f) s = match m s with
  | (.ret a, s') => f a s'
  | (.throw e, s') => (.throw e, s')
  | (.block, s') => (.block, s')
  | (.ub u, s') => (.ub u, s') := rfl

theorem Like.refl (s : St) : Like s s := ⟨rfl, rfl, rfl, rfl, rfl⟩
theorem Like.trans {a b c : St} (h : Like a b) (g : Like b c) : Like a c := ⟨h.inp.trans g.inp, h.listener.trans g.listener, h.config.trans g.config, h.lastOpcode.trans g.lastOpcode, h.trace.trans g.trace⟩

/-- Depends on the receiving side only. -/
def Cong {α : Type} (m : P St α) : Prop := ∀ s s0, Like s s0 → (m s).1 = (m s0).1 ∧ Like (m s).2 (m s0).2

theorem Cong.bind {α β : Type} {m : P St α} {f : α → P St β} (h : Cong m) (hf : ∀ a, Cong (f a)) : Cong (m >>= f) := by
  intro s s0 hs
  obtain ⟨h1, h2⟩ := h s s0 hs
  rw [bind_eq, bind_eq]
  rcases hr : m s with ⟨r, t⟩
  rcases hr0 : m s0 with ⟨r0, t0⟩
  rw [hr, hr0] at h1 h2
  dsimp only at h1 h2
  subst h1
  cases r with
  | ret a => exact hf a _ _ h2
  | _ => exact ⟨rfl, h2⟩

theorem Cong.pure {α : Type} (a : α) : Cong (Pure.pure a : P St α) := fun _ _ h => ⟨rfl, h⟩
theorem Cong.fail {α : Type} (e : Err) : Cong (P.fail e : P St α) := fun _ _ h => ⟨rfl, h⟩

theorem connReadExact_cong (n : Nat) : Cong (connReadExact n) := by
  intro s s0 h
  unfold connReadExact
  rw [h.inp]
  rcases readExact s0.inp.sched s0.inp.bytes n [] with ⟨r, i⟩
  cases r <;> exact ⟨rfl, ⟨rfl, h.listener, h.config, h.lastOpcode, h.trace⟩⟩

theorem readLength_cong (env : Env) (x : UInt8) : Cong (readLength env x) := by
  unfold readLength
  split
  · exact .pure _
  split
  · refine .bind (connReadExact_cong _) fun a => ?_
    split
    · exact .pure _
    · exact .fail _
  · refine .bind (connReadExact_cong _) fun a => ?_
    split
    · exact .pure _
    · exact .fail _

theorem readFrameHeader_cong (env : Env) (h : Header) : Cong (readFrameHeader env h) := by
  unfold readFrameHeader
  refine .bind (connReadExact_cong _) fun a => ?_
  split
  · refine .bind (readLength_cong env _) fun len => ?_
    dsimp only
    split
    · refine .bind (connReadExact_cong _) fun a => ?_
      split
      · exact .pure _
      · exact .fail _
    · exact .pure _
  · exact .fail _

theorem checkFor_cong (h : Header) : Cong (liftSock (checkForContinuation h)) := by
  intro s s0 hs
  unfold liftSock checkForContinuation
  rw [hs.lastOpcode]
  by_cases h1 : s0.sock.lastOpcode = OPCODE_TEXT.toNat ∨ s0.sock.lastOpcode = OPCODE_BINARY.toNat
  · rw [if_pos h1, if_pos h1]
    exact ⟨rfl, ⟨hs.inp, hs.listener, hs.config, hs.lastOpcode, hs.trace⟩⟩
  · rw [if_neg h1, if_neg h1]
    by_cases h2 : h.fin = true
    · rw [if_pos h2, if_pos h2]
      exact ⟨rfl, ⟨hs.inp, hs.listener, hs.config, rfl, hs.trace⟩⟩
    · rw [if_neg h2, if_neg h2]
      exact ⟨rfl, ⟨hs.inp, hs.listener, hs.config, rfl, hs.trace⟩⟩

variable {layer : Nat → Nat} {Inv : Nat → St → Prop}

/-- What happens to the other sockets while socket `k` is read: those of higher layers keep what is known of them, the others their receiving side. -/
def Others (layer : Nat → Nat) (Inv : Nat → St → Prop) (k : Nat) (w w' : World) : Prop :=
  ∀ j, j ≠ k → if layer k < layer j then (Inv j (w.socks j) → Inv j (w'.socks j)) else Like (w'.socks j) (w.socks j)

theorem Others.refl (k : Nat) (w : World) : Others layer Inv k w w := by
  intro j _
  split
  · exact id
  · exact .refl _

theorem Others.trans {k : Nat} {a b c : World} (h : Others layer Inv k a b) (g : Others layer Inv k b c) : Others layer Inv k a c := by
  intro j hj
  have h := h j hj
  have g := g j hj
  split
  · rename_i hr
    rw [if_pos hr] at h g
    exact g ∘ h
  · rename_i hr
    rw [if_neg hr] at h g
    exact g.trans h

theorem put_self (w : World) (k : Nat) (s : St) : (w.put k s).socks k = s := by
  unfold World.put
  simp

theorem put_other (w : World) {k j : Nat} (s : St) (h : j ≠ k) : (w.put k s).socks j = w.socks j := by
  unfold World.put
  simp [h]

theorem Others.put (k : Nat) (w : World) (s : St) : Others layer Inv k w (w.put k s) := by
  intro j hj
  rw [put_other w s hj]
  exact Others.refl (layer := layer) (Inv := Inv) k w j hj

/-- `m` does to socket `k` what `m0` does, and little to the others; unless it does not come to an end. -/
def Follow (layer : Nat → Nat) (Inv : Nat → St → Prop) (k : Nat) {α : Type} (m : P World α) (m0 : P St α) : Prop :=
  ∀ w s0, Like (w.socks k) s0 → Stops (m w).1 ∨ ((m w).1 = (m0 s0).1 ∧ Like ((m w).2.socks k) (m0 s0).2 ∧ Others layer Inv k w (m w).2)

theorem Follow.bind {k : Nat} {α β : Type} {m : P World α} {m0 : P St α} {f : α → P World β} {f0 : α → P St β} (h : Follow layer Inv k m m0) (hf : ∀ a, Follow layer Inv k (f a) (f0 a)) :
    Follow layer Inv k (m >>= f) (m0 >>= f0) := by
  intro w s0 hs
  have h := h w s0 hs
  rw [bind_eq, bind_eq]
  rcases hr : m w with ⟨r, w'⟩
  rw [hr] at h
  rcases h with h | ⟨h1, h2, h3⟩
  · cases r with
    | block => exact .inl trivial
    | ub u => exact .inl trivial
    | ret a => exact h.elim
    | throw e => exact h.elim
  · rcases hr0 : m0 s0 with ⟨r0, t0⟩
    rw [hr0] at h1 h2
    dsimp only at h1 h2 h3
    subst h1
    cases r with
    | ret a =>
      rcases hf a w' t0 h2 with g | ⟨g1, g2, g3⟩
      · exact .inl g
      · exact .inr ⟨g1, g2, h3.trans g3⟩
    | throw e => exact .inr ⟨rfl, h2, h3⟩
    | block => exact .inl trivial
    | ub u => exact .inl trivial

theorem Follow.at {k : Nat} {α : Type} {m : P St α} (h : Cong m) : Follow layer Inv k (at' k m) m := by
  intro w s0 hs
  obtain ⟨h1, h2⟩ := h _ _ hs
  refine .inr ⟨h1, ?_, .put k w _⟩
  show Like ((w.put k _).socks k) _
  rw [put_self]
  exact h2

theorem Follow.pure {k : Nat} {α : Type} (a : α) : Follow layer Inv k (Pure.pure a : P World α) (Pure.pure a) := fun w _ h => .inr ⟨rfl, h, .refl k w⟩
theorem Follow.fail {k : Nat} {α : Type} (e : Err) : Follow layer Inv k (P.fail e : P World α) (P.fail e) := fun w _ h => .inr ⟨rfl, h, .refl k w⟩

/-- Reading the state: what comes after may use its receiving side only. -/
theorem Follow.get {k : Nat} {β : Type} {f : St → P World β} {f0 : St → P St β} (h : ∀ s s0, Like s s0 → Follow layer Inv k (f s) (f0 s0)) : Follow layer Inv k (at' k P.get >>= f) (P.get >>= f0) := by
  intro w s0 hs
  have e : w.put k (w.socks k) = w := by
    unfold World.put
    congr 1
    funext j
    split
    · rename_i h; rw [h]
    · rfl
  have e1 : (at' k P.get >>= f) w = f (w.socks k) w := by
    show f (w.socks k) (w.put k (w.socks k)) = _
    rw [e]
  have e2 : (P.get >>= f0) s0 = f0 s0 s0 := rfl
  rw [e1, e2]
  exact h _ _ hs w s0 hs

variable {env : Env} {call : Callback} {k : Nat}

theorem payloadLoop_follow (hc : ∀ mk, Follow layer Inv k (call k mk) (liftSock (callListener env mk))) (h : Header) (short : Bool) (cap : Nat) (sched : List IoOutcome) (bytes : List UInt8) (s : Sock) (progress : Int) (acc : List UInt8)
    (fuel : Nat) (hf : sched.length ≤ fuel) (w : World) (hs : Like (w.socks k) ⟨s, ⟨bytes, sched⟩⟩) :
    Stops (payloadLoopOn call k h short cap fuel w progress acc).1 ∨ ((payloadLoopOn call k h short cap fuel w progress acc).1 = (readPayloadLoop env h short cap sched bytes s progress acc).1 ∧
      Like ((payloadLoopOn call k h short cap fuel w progress acc).2.socks k) (readPayloadLoop env h short cap sched bytes s progress acc).2 ∧ Others layer Inv k w (payloadLoopOn call k h short cap fuel w progress acc).2) := by
  induction sched generalizing bytes s progress acc fuel w with
  | nil =>
    rw [readPayloadLoop]
    have hsch : (w.socks k).inp.sched = [] := by rw [hs.inp]
    cases fuel with
    | zero =>
      rw [payloadLoopOn]
      split
      · exact .inl trivial
      · exact .inr ⟨rfl, hs, .refl k w⟩
    | succ fuel =>
      rw [payloadLoopOn, hsch]
      split
      · exact .inl trivial
      · exact .inr ⟨rfl, hs, .refl k w⟩
  | cons o sched ih =>
    cases fuel with
    | zero => exact absurd hf (by simp)
    | succ fuel =>
      have hf : sched.length ≤ fuel := Nat.le_of_succ_le_succ hf
      have hsch : (w.socks k).inp.sched = o :: sched := by rw [hs.inp]
      have hby : (w.socks k).inp.bytes = bytes := by rw [hs.inp]
      have hcf : (w.socks k).sock.config = s.config := hs.config
      have put : ∀ b, Like ((w.put k ⟨(w.socks k).sock, ⟨b, sched⟩⟩).socks k) ⟨s, ⟨b, sched⟩⟩ := by
        intro b
        rw [put_self]
        exact ⟨rfl, hs.listener, hs.config, hs.lastOpcode, hs.trace⟩
      have next : ∀ b (s' : Sock) progress acc w', Others layer Inv k w w' → Like (w'.socks k) ⟨s', ⟨b, sched⟩⟩ → Stops (payloadLoopOn call k h short cap fuel w' progress acc).1 ∨ ((payloadLoopOn call k h short cap fuel w' progress acc).1 =
          (readPayloadLoop env h short cap sched b s' progress acc).1 ∧ Like ((payloadLoopOn call k h short cap fuel w' progress acc).2.socks k) (readPayloadLoop env h short cap sched b s' progress acc).2 ∧
          Others layer Inv k w (payloadLoopOn call k h short cap fuel w' progress acc).2) := by
        intro b s' progress acc w' ho hl
        rcases ih b s' progress acc fuel hf w' hl with g | ⟨g1, g2, g3⟩
        · exact .inl g
        · exact .inr ⟨g1, g2, ho.trans g3⟩
      rw [payloadLoopOn, readPayloadLoop, hsch, hby, hcf]
      split
      · dsimp only
        generalize (if s.config.readBufferSize > h.payloadLength - progress then h.payloadLength - progress else s.config.readBufferSize) = n
        split
        · exact .inl trivial
        · rcases he : lowRead o bytes n.toNat with ⟨r, bytes'⟩
          cases r with
          | data bs =>
            dsimp only
            split
            · exact .inl trivial
            · cases short with
              | true => exact next _ _ _ _ _ (.put k w _) (put _)
              | false =>
                simp only [Bool.false_eq_true, if_false]
                generalize (if h.hasMask then xorMask h.mask progress.toNat bs else bs) = chunk
                have h1 := hc (fun l => .readMessage l h.opcode chunk) _ _ (put bytes')
                rcases hr : call k (fun l => .readMessage l h.opcode chunk) (w.put k ⟨(w.socks k).sock, ⟨bytes', sched⟩⟩) with ⟨r, w'⟩
                rw [hr] at h1
                unfold liftSock at h1
                dsimp only at h1
                rcases hr0 : callListener env (fun l => .readMessage l h.opcode chunk) s with ⟨r0, s'⟩
                rw [hr0] at h1
                rcases h1 with h1 | ⟨h1, h2, h3⟩
                · cases r with
                  | block => exact .inl trivial
                  | ub u => exact .inl trivial
                  | ret a => exact h1.elim
                  | throw e => exact h1.elim
                · dsimp only at h1 h2 h3
                  subst h1
                  have h3 := (Others.put (layer := layer) (Inv := Inv) k w ⟨(w.socks k).sock, ⟨bytes', sched⟩⟩).trans h3
                  cases r with
                  | ret a => exact next _ _ _ _ _ h3 h2
                  | throw e => exact .inr ⟨rfl, h2, h3⟩
                  | block => exact .inl trivial
                  | ub u => exact .inl trivial
          | retry => exact next _ _ _ _ _ (.put k w _) (put _)
          | zero => exact .inr ⟨rfl, put _, .put k w _⟩
          | broken => exact .inr ⟨rfl, put _, .put k w _⟩
      · exact .inr ⟨rfl, hs, .refl k w⟩

theorem readPayload_follow (hc : ∀ mk, Follow layer Inv k (call k mk) (liftSock (callListener env mk))) (h : Header) (short : Bool) : Follow layer Inv k (readPayloadOn call k h short) (readPayload env h short) := by
  unfold readPayloadOn readPayload
  split
  · exact .fail _
  · refine .get fun s s0 hs => ?_
    rw [hs.config]
    split
    · exact .fail _
    · refine .bind ?_ fun acc => .bind ?_ fun _ => .pure _
      · intro w t0 ht
        unfold runPayloadLoopOn runPayloadLoop
        rw [ht.config]
        have := payloadLoop_follow hc h short t0.sock.config.readBufferSize.toNat t0.inp.sched t0.inp.bytes t0.sock 0 [] (w.socks k).inp.sched.length (by rw [ht.inp]; exact Nat.le_refl _) w ht
        exact this
      · unfold endMarkerOn endMarker
        split
        · exact hc _
        · exact .pure _

theorem handleFrame_follow (hc : ∀ mk, Follow layer Inv k (call k mk) (liftSock (callListener env mk))) (h : Header) : Follow layer Inv k (handleFrameOn env call k h) (handleFrame env h) := by
  have data : Follow layer Inv k (do let _ ← readPayloadOn call k h false : P World Unit) (do let _ ← readPayload env h false) := .bind (readPayload_follow hc h false) fun _ => .pure _
  unfold handleFrameOn handleFrame
  split
  · refine .get fun s s0 hs => ?_
    rw [hs.lastOpcode]
    split
    · exact .fail _
    · exact data
  split
  · refine .bind (.at (checkFor_cong h)) fun b => ?_
    split
    · exact data
    · exact .fail _
  split
  · refine .bind (.at (checkFor_cong h)) fun b => ?_
    split
    · exact data
    · exact .fail _
  split
  · exact .bind (readPayload_follow hc h true) fun _ => hc _
  split
  · exact .bind (readPayload_follow hc h true) fun _ => hc _
  split
  · exact .bind (readPayload_follow hc h true) fun _ => hc _
  · exact .fail _

theorem iterate_follow (hc : ∀ mk, Follow layer Inv k (call k mk) (liftSock (callListener env mk))) (h : Header) : Follow layer Inv k (iterateOn env call k h) (iterateFrame env h) := by
  unfold iterateOn iterateFrame
  exact .bind (.at (readFrameHeader_cong env h)) fun h' => .bind (handleFrame_follow hc h') fun _ => .pure _

/-- Reading socket `j` keeps what is known of it, and treats the others as above. -/
def Read (layer : Nat → Nat) (Inv : Nat → St → Prop) (j : Nat) (w w' : World) : Prop := (Inv j (w.socks j) → Inv j (w'.socks j)) ∧ Others layer Inv j w w'

theorem Read.trans {j : Nat} {a b c : World} (h : Read layer Inv j a b) (g : Read layer Inv j b c) : Read layer Inv j a c := ⟨g.1 ∘ h.1, h.2.trans g.2⟩

/-- What is known of a socket is about its receiving side, and reading a frame of it keeps it. -/
structure Kept (env : Nat → Env) (Inv : Nat → St → Prop) : Prop where
  like : ∀ j s s', Like s' s → Inv j s → Inv j s'
  frame : ∀ j h s, Inv j s → Inv j (iterateFrame (silent (env j)) h s).2

theorem silent_iterate (env : Env) (call : Callback) (k : Nat) (h : Header) : iterateOn (silent env) call k h = iterateOn env call k h := rfl

variable {env : Nat → Env}

theorem iterate_read (hk : Kept env Inv) {call : Callback} {j : Nat} (hc : ∀ mk, Follow layer Inv j (call j mk) (liftSock (callListener (silent (env j)) mk))) (h : Header) (w : World) :
    Stops (iterateOn (env j) call j h w).1 ∨ Read layer Inv j w (iterateOn (env j) call j h w).2 := by
  rw [← silent_iterate]
  rcases iterate_follow hc h w (w.socks j) (.refl _) with g | ⟨-, g2, g3⟩
  · exact .inl g
  · exact .inr ⟨fun hi => hk.like j _ _ g2 (hk.frame j h _ hi), g3⟩

theorem listenLoop_read (hk : Kept env Inv) {call : Callback} {j : Nat} (hc : ∀ mk, Follow layer Inv j (call j mk) (liftSock (callListener (silent (env j)) mk))) (fuel : Nat) (h : Header) (w : World) :
    Stops (listenLoopOn (env j) call j fuel h w).1 ∨ Read layer Inv j w (listenLoopOn (env j) call j fuel h w).2 := by
  induction fuel generalizing h w with
  | zero => exact .inl trivial
  | succ fuel ih =>
    have h1 := iterate_read hk hc h w
    unfold listenLoopOn
    rcases hr : iterateOn (env j) call j h w with ⟨r, w'⟩
    rw [hr] at h1
    cases r with
    | ret h' =>
      rcases h1 with h1 | h1
      · exact h1.elim
      · dsimp only
        split
        · rcases ih h' w' with g | g
          · exact .inl g
          · exact .inr (h1.trans g)
        · exact .inr h1
    | throw e => exact h1
    | block => exact .inl trivial
    | ub u => exact .inl trivial

theorem put_read (hk : Kept env Inv) {j : Nat} (w : World) {s : St} (h : Like s (w.socks j)) : Read layer Inv j w (w.put j s) :=
  ⟨fun hi => by rw [put_self]; exact hk.like j _ _ h hi, .put j w s⟩

theorem listen_read (hk : Kept env Inv) {call : Callback} {j : Nat} (hc : ∀ mk, Follow layer Inv j (call j mk) (liftSock (callListener (silent (env j)) mk))) (h : Header) (w : World) :
    (Stops (listenOn (env j) call j h w).1 ∨ Read layer Inv j w (listenOn (env j) call j h w).2) ∧ ∀ e, (listenOn (env j) call j h w).1 ≠ .throw e := by
  have h0 : Read layer Inv j w (w.put j { w.socks j with sock := { (w.socks j).sock with listening := true } }) := put_read hk w ⟨rfl, rfl, rfl, rfl, rfl⟩
  unfold listenOn
  dsimp only
  generalize w.put j { w.socks j with sock := { (w.socks j).sock with listening := true } } = w1 at h0
  have h1 := listenLoop_read hk hc ((w1.socks j).inp.sched.length + 1) h w1
  rcases hr : listenLoopOn (env j) call j ((w1.socks j).inp.sched.length + 1) h w1 with ⟨r, w'⟩
  rw [hr] at h1
  rcases h1 with h1 | h1
  · cases r with
    | ret _ => exact h1.elim
    | throw e => exact h1.elim
    | block => exact ⟨.inl trivial, nofun⟩
    | ub u => exact ⟨.inl trivial, nofun⟩
  · cases r with
    | ret _ => exact ⟨.inr (h0.trans h1), nofun⟩
    | throw e => exact ⟨.inr (h0.trans h1), nofun⟩
    | block => exact ⟨.inl trivial, nofun⟩
    | ub u => exact ⟨.inl trivial, nofun⟩

/-- Operations that do not read. -/
theorem op_read (hk : Kept env Inv) (j : Nat) (u : UserOp) (hu : u.tame ∧ u ≠ .throw ∧ ∀ call, u ≠ .send call false) (w : World) :
    (Like ((at' j (liftSock (runUserOp (env j) u)) w).2.socks j) (w.socks j) ∧ ∀ i, i ≠ j → (at' j (liftSock (runUserOp (env j) u)) w).2.socks i = w.socks i) ∧ ∀ e, (at' j (liftSock (runUserOp (env j) u)) w).1 ≠ .throw e := by
  have hkeep := runUserOp_keeps (env j) u hu.1 (w.socks j).sock
  refine ⟨⟨?_, fun i hi => ?_⟩, fun e he => ?_⟩
  · show Like ((w.put j (liftSock (runUserOp (env j) u) (w.socks j)).2).socks j) _
    rw [put_self]
    exact ⟨rfl, hkeep.listener, hkeep.config, hkeep.lastOpcode, hkeep.trace⟩
  · exact put_other w _ hi
  · have he : (runUserOp (env j) u (w.socks j).sock).1 = .throw e := he
    cases u with
    | stopListening => cases he
    | setListener l => exact hu.1.elim
    | setConfig c => exact hu.1.elim
    | throw => exact hu.2.1 rfl
    | send call catches =>
      cases catches with
      | false => exact hu.2.2 call rfl
      | true =>
        have he : (match send (env j) call (w.socks j).sock with
          | (.throw e, s') => if true then (Exit.ret (), s') else (Exit.throw e, s')
          | r => r).1 = .throw e := he
        rcases hr : send (env j) call (w.socks j).sock with ⟨r, s⟩
        rw [hr] at he
        cases r <;> cases he

/-- What code in a callback of socket `k` does. -/
def Inside (layer : Nat → Nat) (Inv : Nat → St → Prop) (k : Nat) (w w' : World) : Prop :=
  ∀ j, if layer k < layer j then (Inv j (w.socks j) → Inv j (w'.socks j)) else Like (w'.socks j) (w.socks j)

theorem inside_op (hk : Kept env Inv) {w w' : World} (h : ∀ i, Like (w'.socks i) (w.socks i)) (k : Nat) : Inside layer Inv k w w' := by
  intro i
  split
  · exact hk.like i _ _ (h i)
  · exact h i

theorem inside_read (hk : Kept env Inv) {k j : Nat} (hl : layer k < layer j) {w w' : World} (h : Read layer Inv j w w') : Inside layer Inv k w w' := by
  intro i
  by_cases hi : i = j
  · subst hi
    rw [if_pos hl]
    exact h.1
  · have := h.2 i hi
    split
    · by_cases hji : layer j < layer i
      · rw [if_pos hji] at this
        exact this
      · rw [if_neg hji] at this
        exact hk.like i _ _ this
    · rw [if_neg (by omega)] at this
      exact this

/-- User code: whatever relation its operations respect, it respects; and it throws nothing. -/
theorem code_does (hk : Kept env Inv) {c : Code} (he : c.env = env) (hcare : c.Careful) {call : Callback} (hc : ∀ j mk, Follow layer Inv j (call j mk) (liftSock (callListener (silent (env j)) mk))) (T : World → World → Prop)
    (T0 : ∀ w, T w w) (T1 : ∀ {a b c}, T a b → T b c → T a c) (tr : List (Nat × Event))
    (hop : ∀ w w', (∀ i, Like (w'.socks i) (w.socks i)) → T w w') (hread : ∀ i now j op, c.next tr i now = some (j, op) → Reads op → ∀ w w', Read layer Inv j w w' → T w w') (steps i : Nat) (w : World) :
    Stops (codeOn c call tr steps i w).1 ∨ ((codeOn c call tr steps i w).1 = .ret () ∧ T w (codeOn c call tr steps i w).2) := by
  subst he
  induction steps generalizing i w with
  | zero =>
    unfold codeOn
    split
    · exact .inr ⟨rfl, T0 w⟩
    · exact .inl trivial
  | succ steps ih =>
    unfold codeOn
    cases hn : c.next tr i w.log with
    | none => exact .inr ⟨rfl, T0 w⟩
    | some x =>
      obtain ⟨j, op⟩ := x
      dsimp only
      have key : (Stops (nestedOn (c.env j) call j op w).1 ∨ T w (nestedOn (c.env j) call j op w).2) ∧ ∀ e, (nestedOn (c.env j) call j op w).1 ≠ .throw e := by
        have hca := hcare _ _ _ _ _ hn
        cases op with
        | op u =>
          obtain ⟨⟨h1, h2⟩, h3⟩ := op_read hk j u hca w
          refine ⟨.inr (hop _ _ fun i => ?_), h3⟩
          by_cases hi : i = j
          · subst hi
            exact h1
          · show Like ((at' j (liftSock (runUserOp (c.env j) u)) w).2.socks i) _
            rw [h2 i hi]
            exact .refl _
        | iterate catches =>
          have hca : catches = true := hca
          subst hca
          have h1 := iterate_read hk (hc j) default w
          unfold nestedOn
          dsimp only
          rcases hr : iterateOn (c.env j) call j default w with ⟨r, w'⟩
          rw [hr] at h1
          cases r with
          | ret h' => exact ⟨.inr (hread _ _ _ _ hn trivial _ _ (h1.resolve_left id)), nofun⟩
          | throw e => exact ⟨.inr (hread _ _ _ _ hn trivial _ _ (h1.resolve_left id)), nofun⟩
          | block => exact ⟨.inl trivial, nofun⟩
          | ub u => exact ⟨.inl trivial, nofun⟩
        | listen =>
          obtain ⟨h1, h2⟩ := listen_read hk (hc j) default w
          exact ⟨h1.imp_right fun h => hread _ _ _ _ hn trivial _ _ h, h2⟩
      obtain ⟨k1, k2⟩ := key
      rcases hr : nestedOn (c.env j) call j op w with ⟨r, w'⟩
      rw [hr] at k1 k2
      cases r with
      | ret _ =>
        rcases ih (i + 1) w' with g | ⟨g1, g2⟩
        · exact .inl g
        · exact .inr ⟨g1, T1 (k1.resolve_left id) g2⟩
      | throw e => exact absurd rfl (k2 e)
      | block => exact .inl trivial
      | ub u => exact .inl trivial

theorem called_self (w : World) (k : Nat) (e : Event) : (w.called k e).socks k = { w.socks k with sock := { (w.socks k).sock with trace := (w.socks k).sock.trace ++ [e] } } := put_self w k _
theorem called_other (w : World) {k j : Nat} (e : Event) (h : j ≠ k) : (w.called k e).socks j = w.socks j := put_other w _ h

theorem callback_follow (hk : Kept env Inv) {c : Code} (he : c.env = env) (hcare : c.Careful) (hlay : c.Layered layer) (steps depth : Nat) : ∀ k mk, Follow layer Inv k (callback c steps depth k mk) (liftSock (callListener (silent (env k)) mk)) := by
  have key : ∀ (more : List (Nat × Event) → P World Unit) k mk, (∀ tr e w, Stops (more (tr ++ [(k, e)]) w).1 ∨ ((more (tr ++ [(k, e)]) w).1 = .ret () ∧ Inside layer Inv k w (more (tr ++ [(k, e)]) w).2)) →
      Follow layer Inv k (fun w => match (w.socks k).sock.listener with
        | none => (.ret (), w)
        | some l => more (w.log ++ [(k, mk l)]) (w.called k (mk l))) (liftSock (callListener (silent (env k)) mk)) := by
    intro more k mk hm w s0 hs
    unfold liftSock
    dsimp only
    rw [hs.listener]
    cases hl : s0.sock.listener with
    | none =>
      rw [callListener_none hl]
      exact .inr ⟨rfl, hs, .refl k w⟩
    | some l =>
      rw [callListener_some hl]
      rcases hm w.log (mk l) (w.called k (mk l)) with g | ⟨g1, g2⟩
      · exact .inl g
      · refine .inr ⟨g1, ?_, fun j hj => ?_⟩
        · have := g2 k
          rw [if_neg (Nat.lt_irrefl _), called_self] at this
          exact this.trans ⟨hs.inp, hs.listener, hs.config, hs.lastOpcode, by show _ ++ _ = _ ++ _; rw [hs.trace]⟩
        · have := g2 j
          rw [called_other w _ hj] at this
          exact this
  induction depth with
  | zero =>
    intro k mk
    refine key (fun tr => codeOn c (fun _ _ w => (.block, w)) tr 0 0) k mk fun tr e w => ?_
    show Stops (if (c.next (tr ++ [(k, e)]) 0 w.log).isNone then (Exit.ret (), w) else (.block, w)).1 ∨ ((if (c.next (tr ++ [(k, e)]) 0 w.log).isNone then (Exit.ret (), w) else (.block, w)).1 = .ret () ∧
      Inside layer Inv k w (if (c.next (tr ++ [(k, e)]) 0 w.log).isNone then (Exit.ret (), w) else (.block, w)).2)
    split
    · exact .inr ⟨rfl, inside_op hk (fun _ => .refl _) k⟩
    · exact .inl trivial
  | succ depth ih =>
    intro k mk
    refine key (fun tr => codeOn c (callback c steps depth) tr steps 0) k mk fun tr e w => ?_
    refine code_does hk he hcare ih (Inside layer Inv k) (fun w => inside_op hk (fun _ => .refl _) k) (fun {a b c} h g j => ?_) _ (fun w w' h => inside_op hk h k) (fun i now j op hn hr w w' h => ?_) steps 0 w
    · have h := h j
      have g := g j
      split
      · rename_i hl
        rw [if_pos hl] at h g
        exact g ∘ h
      · rename_i hl
        rw [if_neg hl] at h g
        exact g.trans h
    · exact inside_read hk (hlay tr k e i now j op hn hr) h

/-- The thread keeps what is known of each socket. -/
theorem main_keeps (hk : Kept env Inv) {c : Code} (he : c.env = env) (hcare : c.Careful) (hlay : c.Layered layer) (steps depth : Nat) (w : World) :
    Stops (main c steps depth w).1 ∨ ((main c steps depth w).1 = .ret () ∧ ∀ k, Inv k (w.socks k) → Inv k ((main c steps depth w).2.socks k)) := by
  refine code_does hk he hcare (callback_follow hk he hcare hlay steps depth) (fun w w' => ∀ k, Inv k (w.socks k) → Inv k (w'.socks k)) (fun _ _ => id) (fun h g k => g k ∘ h k) [] (fun w w' h k => hk.like k _ _ (h k)) (fun i now j op hn hr w w' h k => ?_) steps 0 w
  by_cases hi : k = j
  · subst hi
    exact h.1
  · have := h.2 k hi
    split at this
    · exact this
    · exact hk.like k _ _ this

end OatWS.Gateway
