import Verif.Proofs.Reentrant
/-! The bounds on depth and steps do not matter when a run ends within them. -/

namespace OatWS.Reentrant

/-- `m'` does what `m` does, if `m` ends. -/
def Goes {α : Type} (m m' : P St α) : Prop := ∀ st, (m st).1 = .block ∨ m' st = m st

theorem Goes.refl {α : Type} (m : P St α) : Goes m m := fun _ => .inr rfl

theorem Goes.bind {α β : Type} {m m' : P St α} {f f' : α → P St β} (h : Goes m m') (hf : ∀ a, Goes (f a) (f' a)) : Goes (m >>= f) (m' >>= f') := by
  intro st
  have h := h st
  rw [bind_eq, bind_eq]
  rcases hr : m st with ⟨r, s⟩
  rw [hr] at h
  rcases h with h | h
  · have h : r = .block := h
    subst h
    exact .inl rfl
  · rw [h]
    cases r with
    | ret a => exact hf a s
    | _ => exact .inr rfl

variable {env : Env} {call call' : Callback}

theorem payloadLoop_goes (hc : ∀ mk, Goes (call mk) (call' mk)) (h : Header) (short : Bool) (cap fuel : Nat) (st : St) (progress : Int) (acc : List UInt8) :
    (payloadLoopWith call h short cap fuel st progress acc).1 = .block ∨ payloadLoopWith call' h short cap fuel st progress acc = payloadLoopWith call h short cap fuel st progress acc := by
  induction fuel generalizing st progress acc with
  | zero => exact .inr rfl
  | succ fuel ih =>
    rw [payloadLoopWith, payloadLoopWith]
    split
    · split
      · exact .inr rfl
      · dsimp only
        generalize (if st.sock.config.readBufferSize > h.payloadLength - progress then h.payloadLength - progress else st.sock.config.readBufferSize) = n
        split
        · exact .inr rfl
        · rename_i o sched _ _
          rcases he : lowRead o st.inp.bytes n.toNat with ⟨r, bytes'⟩
          cases r with
          | data bs =>
            dsimp only
            split
            · exact .inr rfl
            · cases short with
              | true => exact ih _ _ _
              | false =>
                simp only [Bool.false_eq_true, if_false]
                generalize (if h.hasMask then xorMask h.mask progress.toNat bs else bs) = chunk
                have h1 := hc (fun l => .readMessage l h.opcode chunk) ⟨st.sock, ⟨bytes', sched⟩⟩
                rcases hr : call (fun l => .readMessage l h.opcode chunk) ⟨st.sock, ⟨bytes', sched⟩⟩ with ⟨r, s'⟩
                rw [hr] at h1
                rcases h1 with h1 | h1
                · have h1 : r = .block := h1
                  subst h1
                  exact .inl rfl
                · rw [h1]
                  cases r with
                  | ret a => exact ih _ _ _
                  | _ => exact .inr rfl
          | retry => exact ih _ _ _
          | zero => exact .inr rfl
          | broken => exact .inr rfl
    · exact .inr rfl

theorem readPayload_goes (hc : ∀ mk, Goes (call mk) (call' mk)) (h : Header) (short : Bool) : Goes (readPayloadWith call h short) (readPayloadWith call' h short) := by
  unfold readPayloadWith
  split
  · exact .refl _
  · refine .bind (.refl _) fun st => ?_
    split
    · exact .refl _
    · refine .bind (fun st => payloadLoop_goes hc h short _ _ st 0 []) fun acc => .bind ?_ fun _ => .refl _
      unfold endMarkerWith
      split
      · exact hc _
      · exact .refl _

theorem handleFrame_goes (hc : ∀ mk, Goes (call mk) (call' mk)) (h : Header) : Goes (handleFrameWith env call h) (handleFrameWith env call' h) := by
  have data : Goes (do let _ ← readPayloadWith call h false : P St Unit) (do let _ ← readPayloadWith call' h false) := .bind (readPayload_goes hc h false) fun _ => .refl _
  unfold handleFrameWith
  split
  · refine .bind (.refl _) fun st => ?_
    split
    · exact .refl _
    · exact data
  split
  · refine .bind (.refl _) fun b => ?_
    split
    · exact data
    · exact .refl _
  split
  · refine .bind (.refl _) fun b => ?_
    split
    · exact data
    · exact .refl _
  split
  · exact .bind (readPayload_goes hc h true) fun _ => hc _
  split
  · exact .bind (readPayload_goes hc h true) fun _ => hc _
  split
  · exact .bind (readPayload_goes hc h true) fun _ => hc _
  · exact .refl _

theorem iterate_goes (hc : ∀ mk, Goes (call mk) (call' mk)) (h : Header) : Goes (iterateWith env call h) (iterateWith env call' h) := by
  unfold iterateWith
  exact .bind (.refl _) fun h' => .bind (handleFrame_goes hc h') fun _ => .refl _

theorem listenLoop_goes (hc : ∀ mk, Goes (call mk) (call' mk)) (fuel : Nat) (h : Header) : Goes (listenLoopWith env call fuel h) (listenLoopWith env call' fuel h) := by
  induction fuel generalizing h with
  | zero => exact fun _ => .inl rfl
  | succ fuel ih =>
    intro st
    have h1 := iterate_goes (env := env) hc h st
    unfold listenLoopWith
    rcases hr : iterateWith env call h st with ⟨r, s⟩
    rw [hr] at h1
    rcases h1 with h1 | h1
    · have h1 : r = .block := h1
      subst h1
      exact .inl rfl
    · rw [h1]
      cases r with
      | ret h' =>
        dsimp only
        split
        · exact ih h' s
        · exact .inr rfl
      | _ => exact .inr rfl

theorem listen_goes (hc : ∀ mk, Goes (call mk) (call' mk)) (h : Header) : Goes (listenWith env call h) (listenWith env call' h) := by
  intro st
  have h1 := listenLoop_goes (env := env) hc (st.inp.sched.length + 1) h { st with sock := { st.sock with listening := true } }
  unfold listenWith
  dsimp only
  rcases hr : listenLoopWith env call (st.inp.sched.length + 1) h { st with sock := { st.sock with listening := true } } with ⟨r, s⟩
  rw [hr] at h1
  rcases h1 with h1 | h1
  · have h1 : r = .block := h1
    subst h1
    exact .inl rfl
  · rw [h1]
    exact .inr rfl

theorem nested_goes (hc : ∀ mk, Goes (call mk) (call' mk)) (op : NestedOp) : Goes (nestedWith env call op) (nestedWith env call' op) := by
  cases op with
  | op u => exact .refl _
  | iterate catches =>
    intro st
    have h1 := iterate_goes (env := env) hc default st
    unfold nestedWith
    dsimp only
    rcases hr : iterateWith env call default st with ⟨r, s⟩
    rw [hr] at h1
    rcases h1 with h1 | h1
    · have h1 : r = .block := h1
      subst h1
      exact .inl rfl
    · rw [h1]
      exact .inr rfl
  | listen => exact listen_goes hc default

theorem more_goes (c : Code) (hc : ∀ mk, Goes (call mk) (call' mk)) (tr : List Event) (steps k i : Nat) : Goes (moreWith c call tr steps i) (moreWith c call' tr (steps + k) i) := by
  induction steps generalizing i with
  | zero =>
    intro st
    show (if (c.next tr i st.sock.trace).isNone then (Exit.ret (), st) else (.block, st)).1 = .block ∨ _ = (if (c.next tr i st.sock.trace).isNone then (Exit.ret (), st) else (.block, st))
    cases hn : c.next tr i st.sock.trace with
    | some op => exact .inl rfl
    | none =>
      right
      cases k with
      | zero => show (if (c.next tr i st.sock.trace).isNone then (Exit.ret (), st) else (.block, st)) = _; rw [hn]
      | succ k =>
        rw [Nat.zero_add]
        unfold moreWith
        rw [hn]
        rfl
  | succ steps ih =>
    intro st
    rw [Nat.succ_add]
    unfold moreWith
    cases hn : c.next tr i st.sock.trace with
    | none => exact .inr rfl
    | some op =>
      dsimp only
      have h1 := nested_goes (env := c.env) hc op st
      rcases hr : nestedWith c.env call op st with ⟨r, s⟩
      rw [hr] at h1
      rcases h1 with h1 | h1
      · have h1 : r = .block := h1
        subst h1
        exact .inl rfl
      · rw [h1]
        cases r with
        | ret a => exact ih (i + 1) s
        | _ => exact .inr rfl

theorem callback_goes (c : Code) (steps k depth d : Nat) : ∀ mk, Goes (callback c steps depth mk) (callback c (steps + k) (depth + d) mk) := by
  have key : ∀ (more more' : List Event → P St Unit), (∀ tr, Goes (more tr) (more' tr)) → ∀ mk, Goes (fun st => match st.sock.listener with
    | none => (.ret (), st)
    | some l =>
      match liftSock (callListener c.env mk) st with
      | (.ret _, st') => more (st.sock.trace ++ [mk l]) st'
      | r => r) (fun st => match st.sock.listener with
    | none => (.ret (), st)
    | some l =>
      match liftSock (callListener c.env mk) st with
      | (.ret _, st') => more' (st.sock.trace ++ [mk l]) st'
      | r => r) := by
    intro more more' hm mk st
    dsimp only
    split
    · exact .inr rfl
    · rcases liftSock (callListener c.env mk) st with ⟨r, s⟩
      cases r with
      | ret a => exact hm _ s
      | _ => exact .inr rfl
  induction depth with
  | zero =>
    have zero : ∀ (call' : Callback) (n : Nat) (tr : List Event), Goes (moreWith c (fun _ st => (.block, st)) tr 0 0) (moreWith c call' tr n 0) := by
      intro call' n tr
      have := more_goes c (call := fun _ st => (.block, st)) (call' := call') (fun _ _ => .inl rfl) tr 0 n 0
      rw [Nat.zero_add] at this
      exact this
    cases d with
    | zero => exact key _ _ (zero _ 0)
    | succ d => exact key _ _ (zero (callback c (steps + k) (0 + d)) (steps + k))
  | succ depth ih =>
    rw [Nat.succ_add]
    exact key (fun tr => moreWith c (callback c steps depth) tr steps 0) (fun tr => moreWith c (callback c (steps + k) (depth + d)) tr (steps + k) 0) fun tr => more_goes c ih tr steps k 0

end OatWS.Reentrant
