import Verif.Proofs.Reentrant
/-! A listener that reads in callbacks and stops at the close frame. -/

namespace OatWS.Reentrant

/-- No close frame has been heard, or one, and since then nothing; and the flag is off. -/
def Ends (s : Sock) : Prop := NoClose s.trace ∨ ∃ tr l c m, s.trace = tr ++ [.onClose l c m] ∧ NoClose tr ∧ s.listening = false

def Stays {α : Type} (m : P St α) : Prop := ∀ st, NoClose st.sock.trace → NoClose (m st).2.sock.trace

def Comes {α : Type} (m : P St α) : Prop := ∀ st, NoClose st.sock.trace → Ends (m st).2.sock

theorem Stays.comes {α : Type} {m : P St α} (h : Stays m) : Comes m := fun st hn => .inl (h st hn)

theorem Stays.bind {α β : Type} {m : P St α} {f : α → P St β} (h : Stays m) (hf : ∀ a, Stays (f a)) : Stays (m >>= f) := by
  intro st hn
  have := h st hn
  rw [bind_eq]
  rcases hr : m st with ⟨r, s⟩
  rw [hr] at this
  cases r with
  | ret a => exact hf a s this
  | _ => exact this

theorem Comes.bind {α β : Type} {m : P St α} {f : α → P St β} (h : Stays m) (hf : ∀ a, Comes (f a)) : Comes (m >>= f) := by
  intro st hn
  have := h st hn
  rw [bind_eq]
  rcases hr : m st with ⟨r, s⟩
  rw [hr] at this
  cases r with
  | ret a => exact hf a s this
  | _ => exact .inl this

theorem Comes.map {α β : Type} {m : P St α} (h : Comes m) (f : α → β) : Comes (m >>= fun a => pure (f a)) := by
  intro st hn
  have := h st hn
  rw [bind_eq]
  rcases hr : m st with ⟨r, s⟩
  rw [hr] at this
  cases r <;> exact this

theorem Stays.sock {α : Type} {m : P St α} (h : ∀ st, (m st).2.sock.trace = st.sock.trace) : Stays m := fun st hn => by rw [h]; exact hn

theorem noClose_concat {tr : List Event} {e : Event} (h : NoClose tr) (he : ∀ l c m, e ≠ .onClose l c m) : NoClose (tr ++ [e]) := by
  intro l c m hm
  rcases List.mem_append.mp hm with h' | h'
  · exact h l c m h'
  · exact he l c m (List.mem_singleton.mp h').symm

/-- Operations of user code keep the trace, and do not turn the flag on. -/
theorem ends_op {env : Env} {u : UserOp} {s : Sock} (h : Ends s) : Ends (runUserOp env u s).2 := by
  unfold Ends
  rw [runUserOp_trace]
  rcases h with h | ⟨tr, l, c, m, h1, h2, h3⟩
  · exact .inl h
  · refine .inr ⟨tr, l, c, m, h1, h2, ?_⟩
    cases hb : (runUserOp env u s).2.listening with
    | false => rfl
    | true => rw [runUserOp_listening _ _ hb] at h3; cases h3

/-- A plain callback. -/
theorem plain_comes {env : Env} (hstop : ∀ tr l c m, ∃ ops, env.react (tr ++ [.onClose l c m]) = .stopListening :: ops) (mk : Nat → Event) : Comes (liftSock (callListener env mk)) := by
  intro st hn
  show Ends (callListener env mk st.sock).2
  cases hl : st.sock.listener with
  | none => rw [callListener_none hl]; exact .inl hn
  | some l =>
    rw [callListener_some hl]
    by_cases he : ∃ l' c m, mk l = .onClose l' c m
    · obtain ⟨l', c, m, he⟩ := he
      unfold Ends
      rw [runUserOps_trace, he]
      refine .inr ⟨_, l', c, m, rfl, hn, ?_⟩
      obtain ⟨ops, ho⟩ := hstop st.sock.trace l' c m
      rw [ho]
      generalize { st.sock with trace := st.sock.trace ++ [Event.onClose l' c m] } = s
      cases hb : (runUserOps env (.stopListening :: ops) s).2.listening with
      | false => rfl
      | true =>
        have : (runUserOps env ops { s with listening := false }).2.listening = true := hb
        exact absurd (runUserOps_listening _ _ this) Bool.false_ne_true
    · refine .inl ?_
      rw [runUserOps_trace]
      exact noClose_concat hn fun l' c m e => he ⟨l', c, m, e⟩

theorem plain_stays {env : Env} (mk : Nat → Event) (he : ∀ l l' c m, mk l ≠ .onClose l' c m) : Stays (liftSock (callListener env mk)) := by
  intro st hn
  show NoClose (callListener env mk st.sock).2.trace
  cases hl : st.sock.listener with
  | none => rw [callListener_none hl]; exact hn
  | some l =>
    rw [callListener_some hl]
    rw [runUserOps_trace]
    exact noClose_concat hn (he l)

theorem payloadLoop_stays {env : Env} {call : Callback} (hp : Plain env call) (h : Header) (short : Bool) (cap fuel : Nat) (st : St) (progress : Int) (acc : List UInt8) (hn : NoClose st.sock.trace) :
    NoClose (payloadLoopWith call h short cap fuel st progress acc).2.sock.trace := by
  induction fuel generalizing st progress acc with
  | zero =>
    unfold payloadLoopWith
    split <;> exact hn
  | succ fuel ih =>
    rw [payloadLoopWith]
    split
    · split
      · exact hn
      · dsimp only
        generalize (if st.sock.config.readBufferSize > h.payloadLength - progress then h.payloadLength - progress else st.sock.config.readBufferSize) = n
        split
        · exact hn
        · rename_i o sched _ _
          rcases he : lowRead o st.inp.bytes n.toNat with ⟨r, bytes'⟩
          cases r with
          | data bs =>
            dsimp only
            split
            · exact hn
            · cases short with
              | true => exact ih _ _ _ hn
              | false =>
                have hne : (if h.hasMask then xorMask h.mask progress.toNat bs else bs) ≠ [] := by
                  split
                  · exact xor_ne (data_ne he)
                  · exact data_ne he
                generalize (if h.hasMask then xorMask h.mask progress.toNat bs else bs) = chunk at hne
                cases chunk with
                | nil => exact absurd rfl hne
                | cons x d =>
                  simp only [Bool.false_eq_true, if_false]
                  rw [hp]
                  have h1 := plain_stays (env := env) (fun l => .readMessage l h.opcode (x :: d)) (fun _ _ _ _ => nofun) ⟨st.sock, ⟨bytes', sched⟩⟩ hn
                  rcases hr : liftSock (callListener env (fun l => .readMessage l h.opcode (x :: d))) ⟨st.sock, ⟨bytes', sched⟩⟩ with ⟨r, s'⟩
                  rw [hr] at h1
                  cases r with
                  | ret a => exact ih _ _ _ h1
                  | _ => exact h1
          | retry => exact ih _ _ _ hn
          | zero => exact hn
          | broken => exact hn
    · exact hn

variable {env : Env} {call : Callback}

theorem readPayload_comes (hp : Plain env call) (hc : ∀ mk, Comes (call mk)) (h : Header) (short : Bool) : Comes (readPayloadWith call h short) := by
  unfold readPayloadWith
  split
  · exact Stays.comes (.sock fun _ => rfl)
  · refine .bind (.sock fun _ => rfl) fun st => ?_
    split
    · exact Stays.comes (.sock fun _ => rfl)
    · refine .bind (fun st hn => payloadLoop_stays hp h short _ _ st 0 [] hn) fun acc => .map ?_ fun _ => acc
      unfold endMarkerWith
      split
      · exact hc _
      · exact Stays.comes (.sock fun _ => rfl)

theorem readPayload_stays (hp : Plain env call) (h : Header) : Stays (readPayloadWith call h true) := by
  unfold readPayloadWith
  split
  · exact .sock fun _ => rfl
  · refine .bind (.sock fun _ => rfl) fun st => ?_
    split
    · exact .sock fun _ => rfl
    · refine .bind (fun st hn => payloadLoop_stays hp h true _ _ st 0 [] hn) fun acc => ?_
      exact .bind (.sock fun _ => rfl) fun _ => .sock fun _ => rfl

theorem checkFor_stays (h : Header) : Stays (liftSock (checkForContinuation h)) := by
  refine .sock fun st => ?_
  show (checkForContinuation h st.sock).2.trace = _
  unfold checkForContinuation
  split
  · rfl
  · split <;> rfl

theorem handleFrame_comes (hp : Plain env call) (hc : ∀ mk, Comes (call mk)) (h : Header) : Comes (handleFrameWith env call h) := by
  have data : Comes (do let _ ← readPayloadWith call h false : P St Unit) := .map (readPayload_comes hp hc h false) fun _ => ()
  have fail : ∀ e, Comes (P.fail e : P St Unit) := fun e => Stays.comes (.sock fun _ => rfl)
  unfold handleFrameWith
  split
  · refine .bind (.sock fun _ => rfl) fun st => ?_
    split
    · exact fail _
    · exact data
  split
  · refine .bind (checkFor_stays h) fun b => ?_
    split
    · exact data
    · exact fail _
  split
  · refine .bind (checkFor_stays h) fun b => ?_
    split
    · exact data
    · exact fail _
  split
  · exact .bind (readPayload_stays hp h) fun _ => hc _
  split
  · exact .bind (readPayload_stays hp h) fun _ => hc _
  split
  · exact .bind (readPayload_stays hp h) fun _ => hc _
  · exact fail _

theorem iterate_comes (hp : Plain env call) (hc : ∀ mk, Comes (call mk)) (h : Header) : Comes (iterateWith env call h) := by
  unfold iterateWith
  exact .bind (.sock fun st => by rw [readFrameHeader_sock]) fun h' => .map (handleFrame_comes hp hc h') fun _ => h'

theorem listenLoop_comes (hi : ∀ h, Comes (iterateWith env call h)) (fuel : Nat) (h : Header) : Comes (listenLoopWith env call fuel h) := by
  induction fuel generalizing h with
  | zero => exact fun st hn => .inl hn
  | succ fuel ih =>
    intro st hn
    have h1 := hi h st hn
    unfold listenLoopWith
    rcases hr : iterateWith env call h st with ⟨r, s⟩
    rw [hr] at h1
    cases r with
    | ret h' =>
      dsimp only
      split
      · rename_i hl
        rcases h1 with h1 | ⟨tr, l, c, m, h1, h2, h3⟩
        · exact ih h' s h1
        · exact absurd (h3.symm.trans hl.2) (by decide)
      · exact h1
    | _ => exact h1

theorem listen_comes (hi : ∀ h, Comes (iterateWith env call h)) (h : Header) : Comes (listenWith env call h) := by
  intro st hn
  have h1 := listenLoop_comes hi (st.inp.sched.length + 1) h { st with sock := { st.sock with listening := true } } hn
  unfold listenWith
  dsimp only
  rcases hr : listenLoopWith env call (st.inp.sched.length + 1) h { st with sock := { st.sock with listening := true } } with ⟨r, s⟩
  rw [hr] at h1
  cases r <;> exact h1

theorem nested_comes (hi : ∀ h, Comes (iterateWith env call h)) (op : NestedOp) : Comes (nestedWith env call op) := by
  cases op with
  | op u => exact fun st hn => ends_op (.inl hn)
  | iterate catches =>
    intro st hn
    have h1 := hi default st hn
    unfold nestedWith
    dsimp only
    rcases hr : iterateWith env call default st with ⟨r, s⟩
    rw [hr] at h1
    cases r with
    | throw e => cases catches <;> exact h1
    | _ => exact h1
  | listen => exact listen_comes hi default

theorem more_comes {c : Code} (hnext : ∀ tr i now l code m, .onClose l code m ∈ now → c.next tr i now = none) (hi : ∀ h, Comes (iterateWith c.env call h)) (tr : List Event) (steps i : Nat) (st : St) (he : Ends st.sock) :
    Ends (moreWith c call tr steps i st).2.sock := by
  induction steps generalizing i st with
  | zero => unfold moreWith; split <;> exact he
  | succ steps ih =>
    unfold moreWith
    split
    · exact he
    · rename_i op hop
      have hn : NoClose st.sock.trace := fun l code m hm => by rw [hnext _ _ _ l code m hm] at hop; cases hop
      have h1 := nested_comes hi op st hn
      rcases hr : nestedWith c.env call op st with ⟨r, s⟩
      rw [hr] at h1
      cases r with
      | ret a => exact ih (i + 1) s h1
      | _ => exact h1

theorem callback_comes {c : Code} (hb : c.BetweenFrames) (hstop : ∀ tr l code m, ∃ ops, c.env.react (tr ++ [.onClose l code m]) = .stopListening :: ops)
    (hnext : ∀ tr i now l code m, .onClose l code m ∈ now → c.next tr i now = none) (steps depth : Nat) : ∀ mk, Comes (callback c steps depth mk) := by
  have key : ∀ (more : List Event → P St Unit), (∀ tr st, Ends st.sock → Ends (more tr st).2.sock) → ∀ mk, Comes (fun st => match st.sock.listener with
    | none => (.ret (), st)
    | some l =>
      match liftSock (callListener c.env mk) st with
      | (.ret _, st') => more (st.sock.trace ++ [mk l]) st'
      | r => r) := by
    intro more hm mk st hn
    have h1 := plain_comes hstop mk st hn
    dsimp only
    split
    · exact .inl hn
    · rcases hr : liftSock (callListener c.env mk) st with ⟨r, s⟩
      rw [hr] at h1
      cases r with
      | ret a => exact hm _ s h1
      | _ => exact h1
  induction depth with
  | zero =>
    refine key (fun tr => moreWith c (fun _ st => (.block, st)) tr 0 0) fun tr st he => ?_
    show Ends (if (c.next tr 0 st.sock.trace).isNone then (Exit.ret (), st) else (.block, st)).2.sock
    split <;> exact he
  | succ depth ih =>
    exact key (fun tr => moreWith c (callback c steps depth) tr steps 0) fun tr st he => more_comes hnext (iterate_comes (callback_plain hb steps depth) ih) tr steps 0 st he

end OatWS.Reentrant
