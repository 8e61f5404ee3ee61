import Verif.Proofs.Gateway
/-! The bounds on depth and steps do not matter when a run ends within them. -/

namespace OatWS.Gateway
open Reentrant (NestedOp)

/-- `m'` does what `m` does, if `m` ends. -/
def Goes {α : Type} (m m' : P World α) : Prop := ∀ w, (m w).1 = .block ∨ m' w = m w

theorem Goes.refl {α : Type} (m : P World α) : Goes m m := fun _ => .inr rfl

theorem Goes.bind {α β : Type} {m m' : P World α} {f f' : α → P World β} (h : Goes m m') (hf : ∀ a, Goes (f a) (f' a)) : Goes (m >>= f) (m' >>= f') := by
  intro w
  have h := h w
  rw [bind_eq, bind_eq]
  rcases hr : m w with ⟨r, s⟩
  rw [hr] at h
  rcases h with h | h
  · have h : r = .block := h
    subst h
    exact .inl rfl
  · rw [h]
    cases r with
    | ret a => exact hf a s
    | _ => exact .inr rfl

variable {env : Env} {call call' : Callback}

theorem payloadLoop_goes (hc : ∀ k mk, Goes (call k mk) (call' k mk)) (k : Nat) (h : Header) (short : Bool) (cap fuel : Nat) (w : World) (progress : Int) (acc : List UInt8) :
    (payloadLoopOn call k h short cap fuel w progress acc).1 = .block ∨ payloadLoopOn call' k h short cap fuel w progress acc = payloadLoopOn call k h short cap fuel w progress acc := by
  induction fuel generalizing w progress acc with
  | zero => exact .inr rfl
  | succ fuel ih =>
    rw [payloadLoopOn, payloadLoopOn]
    split
    · split
      · exact .inr rfl
      · dsimp only
        generalize (if (w.socks k).sock.config.readBufferSize > h.payloadLength - progress then h.payloadLength - progress else (w.socks k).sock.config.readBufferSize) = n
        split
        · exact .inr rfl
        · rename_i o sched _ _
          rcases he : lowRead o (w.socks k).inp.bytes n.toNat with ⟨r, bytes'⟩
          cases r with
          | data bs =>
            dsimp only
            split
            · exact .inr rfl
            · cases short with
              | true => exact ih _ _ _
              | false =>
                simp only [Bool.false_eq_true, if_false]
                generalize (if h.hasMask then xorMask h.mask progress.toNat bs else bs) = chunk
                generalize w.put k ⟨(w.socks k).sock, ⟨bytes', sched⟩⟩ = w1
                have h1 := hc k (fun l => .readMessage l h.opcode chunk) w1
                rcases hr : call k (fun l => .readMessage l h.opcode chunk) w1 with ⟨r, s'⟩
                rw [hr] at h1
                rcases h1 with h1 | h1
                · have h1 : r = .block := h1
                  subst h1
                  exact .inl rfl
                · rw [h1]
                  cases r with
                  | ret a => exact ih _ _ _
                  | _ => exact .inr rfl
          | retry => exact ih _ _ _
          | zero => exact .inr rfl
          | broken => exact .inr rfl
    · exact .inr rfl

theorem readPayload_goes (hc : ∀ k mk, Goes (call k mk) (call' k mk)) (k : Nat) (h : Header) (short : Bool) : Goes (readPayloadOn call k h short) (readPayloadOn call' k h short) := by
  unfold readPayloadOn
  split
  · exact .refl _
  · refine .bind (.refl _) fun st => ?_
    split
    · exact .refl _
    · refine .bind (fun w => payloadLoop_goes hc k h short _ _ w 0 []) fun acc => .bind ?_ fun _ => .refl _
      unfold endMarkerOn
      split
      · exact hc _ _
      · exact .refl _

theorem handleFrame_goes (hc : ∀ k mk, Goes (call k mk) (call' k mk)) (k : Nat) (h : Header) : Goes (handleFrameOn env call k h) (handleFrameOn env call' k h) := by
  have data : Goes (do let _ ← readPayloadOn call k h false : P World Unit) (do let _ ← readPayloadOn call' k h false) := .bind (readPayload_goes hc k h false) fun _ => .refl _
  unfold handleFrameOn
  split
  · refine .bind (.refl _) fun st => ?_
    split
    · exact .refl _
    · exact data
  split
  · refine .bind (.refl _) fun b => ?_
    split
    · exact data
    · exact .refl _
  split
  · refine .bind (.refl _) fun b => ?_
    split
    · exact data
    · exact .refl _
  split
  · exact .bind (readPayload_goes hc k h true) fun _ => hc _ _
  split
  · exact .bind (readPayload_goes hc k h true) fun _ => hc _ _
  split
  · exact .bind (readPayload_goes hc k h true) fun _ => hc _ _
  · exact .refl _

theorem iterate_goes (hc : ∀ k mk, Goes (call k mk) (call' k mk)) (k : Nat) (h : Header) : Goes (iterateOn env call k h) (iterateOn env call' k h) := by
  unfold iterateOn
  exact .bind (.refl _) fun h' => .bind (handleFrame_goes hc k h') fun _ => .refl _

theorem listenLoop_goes (hc : ∀ k mk, Goes (call k mk) (call' k mk)) (k fuel : Nat) (h : Header) : Goes (listenLoopOn env call k fuel h) (listenLoopOn env call' k fuel h) := by
  induction fuel generalizing h with
  | zero => exact fun _ => .inl rfl
  | succ fuel ih =>
    intro w
    have h1 := iterate_goes (env := env) hc k h w
    unfold listenLoopOn
    rcases hr : iterateOn env call k h w with ⟨r, s⟩
    rw [hr] at h1
    rcases h1 with h1 | h1
    · have h1 : r = .block := h1
      subst h1
      exact .inl rfl
    · rw [h1]
      cases r with
      | ret h' =>
        dsimp only
        split
        · exact ih h' s
        · exact .inr rfl
      | _ => exact .inr rfl

theorem listen_goes (hc : ∀ k mk, Goes (call k mk) (call' k mk)) (k : Nat) (h : Header) : Goes (listenOn env call k h) (listenOn env call' k h) := by
  intro w
  unfold listenOn
  dsimp only
  generalize w.put k { w.socks k with sock := { (w.socks k).sock with listening := true } } = w1
  have h1 := listenLoop_goes (env := env) hc k ((w1.socks k).inp.sched.length + 1) h w1
  rcases hr : listenLoopOn env call k ((w1.socks k).inp.sched.length + 1) h w1 with ⟨r, s⟩
  rw [hr] at h1
  rcases h1 with h1 | h1
  · have h1 : r = .block := h1
    subst h1
    exact .inl rfl
  · rw [h1]
    exact .inr rfl

theorem nested_goes (hc : ∀ k mk, Goes (call k mk) (call' k mk)) (k : Nat) (op : NestedOp) : Goes (nestedOn env call k op) (nestedOn env call' k op) := by
  cases op with
  | op u => exact .refl _
  | iterate catches =>
    intro w
    have h1 := iterate_goes (env := env) hc k default w
    unfold nestedOn
    dsimp only
    rcases hr : iterateOn env call k default w with ⟨r, s⟩
    rw [hr] at h1
    rcases h1 with h1 | h1
    · have h1 : r = .block := h1
      subst h1
      exact .inl rfl
    · rw [h1]
      exact .inr rfl
  | listen => exact listen_goes hc k default

theorem code_goes (c : Code) (hc : ∀ k mk, Goes (call k mk) (call' k mk)) (tr : List (Nat × Event)) (steps n i : Nat) : Goes (codeOn c call tr steps i) (codeOn c call' tr (steps + n) i) := by
  induction steps generalizing i with
  | zero =>
    intro w
    show (if (c.next tr i w.log).isNone then (Exit.ret (), w) else (.block, w)).1 = .block ∨ _ = (if (c.next tr i w.log).isNone then (Exit.ret (), w) else (.block, w))
    cases hn : c.next tr i w.log with
    | some op => exact .inl rfl
    | none =>
      right
      cases n with
      | zero => show (if (c.next tr i w.log).isNone then (Exit.ret (), w) else (.block, w)) = _; rw [hn]
      | succ n =>
        rw [Nat.zero_add]
        unfold codeOn
        rw [hn]
        rfl
  | succ steps ih =>
    intro w
    rw [Nat.succ_add]
    unfold codeOn
    cases hn : c.next tr i w.log with
    | none => exact .inr rfl
    | some x =>
      obtain ⟨k, op⟩ := x
      dsimp only
      have h1 := nested_goes (env := c.env k) hc k op w
      rcases hr : nestedOn (c.env k) call k op w with ⟨r, s⟩
      rw [hr] at h1
      rcases h1 with h1 | h1
      · have h1 : r = .block := h1
        subst h1
        exact .inl rfl
      · rw [h1]
        cases r with
        | ret a => exact ih (i + 1) s
        | _ => exact .inr rfl

theorem callback_goes (c : Code) (steps n depth d : Nat) : ∀ k mk, Goes (callback c steps depth k mk) (callback c (steps + n) (depth + d) k mk) := by
  have key : ∀ (more more' : List (Nat × Event) → P World Unit), (∀ tr, Goes (more tr) (more' tr)) → ∀ k (mk : Nat → Event), Goes (fun w => match (w.socks k).sock.listener with
    | none => (.ret (), w)
    | some l => more (w.log ++ [(k, mk l)]) (w.called k (mk l))) (fun w => match (w.socks k).sock.listener with
    | none => (.ret (), w)
    | some l => more' (w.log ++ [(k, mk l)]) (w.called k (mk l))) := by
    intro more more' hm k mk w
    dsimp only
    split
    · exact .inr rfl
    · exact hm _ _
  induction depth with
  | zero =>
    have zero : ∀ (call' : Callback) (n : Nat) (tr : List (Nat × Event)), Goes (codeOn c (fun _ _ w => (.block, w)) tr 0 0) (codeOn c call' tr n 0) := by
      intro call' n tr
      have := code_goes c (call := fun _ _ w => (.block, w)) (call' := call') (fun _ _ _ => .inl rfl) tr 0 n 0
      rw [Nat.zero_add] at this
      exact this
    cases d with
    | zero => exact key _ _ (zero _ 0)
    | succ d => exact key _ _ (zero (callback c (steps + n) (0 + d)) (steps + n))
  | succ depth ih =>
    rw [Nat.succ_add]
    exact key (fun tr => codeOn c (callback c steps depth) tr steps 0) (fun tr => codeOn c (callback c (steps + n) (depth + d)) tr (steps + n) 0) fun tr => code_goes c ih tr steps n 0

end OatWS.Gateway
