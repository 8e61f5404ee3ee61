import Verif.Proofs.Listen
import Verif.Spec.Messages
/-! A generic invariant rule: whatever every callback does to the socket (and an update of `lastOpcode`), receiving does.
Holds for all listeners. -/

namespace OatWS

def Exit.isRet {α} : Exit α → Bool
  | .ret _ => true
  | _ => false

/-- A relation between socket states that is established by every callback. The flag tells a normal return. -/
structure SockRel (env : Env) (R : Bool → Sock → Sock → Prop) : Prop where
  refl : ∀ s, R true s s
  weaken : ∀ {s s'}, R true s s' → R false s s'
  trans : ∀ {a b c x}, R true a b → R x b c → R x a c
  call : ∀ mk, (∀ l, Event.to (mk l) = l) → ∀ s, R (callListener env mk s).1.isRet s (callListener env mk s).2
  last : ∀ s v, R true s { s with lastOpcode := v }

def Follows {α} (R : Bool → Sock → Sock → Prop) (m : P St α) : Prop := ∀ st, R (m st).1.isRet st.sock (m st).2.sock

variable {env : Env} {R : Bool → Sock → Sock → Prop}

theorem SockRel.any (hR : SockRel env R) {s s'} (h : R true s s') (x : Bool) : R x s s' := by
  cases x
  · exact hR.weaken h
  · exact h

theorem SockRel.pure {α} (hR : SockRel env R) (a : α) : Follows R (Pure.pure a : P St α) := fun st => hR.refl st.sock
theorem SockRel.fail {α} (hR : SockRel env R) (e : Err) : Follows R (P.fail e : P St α) := fun st => hR.weaken (hR.refl st.sock)
theorem SockRel.get (hR : SockRel env R) : Follows R (P.get : P St St) := fun st => hR.refl st.sock

theorem SockRel.bind {α β} (hR : SockRel env R) {m : P St α} {f : α → P St β} (h : Follows R m) (h' : ∀ a, Follows R (f a)) :
    Follows R (m >>= f) := by
  intro st
  have h1 := h st
  rw [P.bind_def, P.bind_apply]
  rcases hm : m st with ⟨(a | _ | _ | _), s'⟩ <;> rw [hm] at h1 <;> simp only []
  · exact hR.trans h1 (h' a s')
  all_goals exact h1

theorem Follows.ite {α} {c : Prop} [Decidable c] {a b : P St α} (ha : Follows R a) (hb : Follows R b) :
    Follows R (if c then a else b) := by
  split
  · exact ha
  · exact hb

theorem SockRel.callListener (hR : SockRel env R) (mk) (hmk : ∀ l, Event.to (mk l) = l) : Follows R (liftSock (callListener env mk)) :=
  fun st => hR.call mk hmk st.sock

theorem readFrameHeader_sock (env h st) : (readFrameHeader env h st).2.sock = st.sock := by
  rcases (readFrameHeader_reads env h st).outcome with ⟨k, hd, h1, sc, hk, e, _⟩ | ⟨k, x, sc, hk, hsl, e, _⟩
  · rw [e]; rfl
  · rw [e]; rfl

theorem SockRel.loop (hR : SockRel env R) (h : Header) (short cap) (sched bytes s p acc) :
    R (readPayloadLoop env h short cap sched bytes s p acc).1.isRet s
      (readPayloadLoop env h short cap sched bytes s p acc).2.sock := by
  induction sched generalizing bytes s p acc with
  | nil =>
    unfold readPayloadLoop
    split
    · exact hR.weaken (hR.refl s)
    · exact hR.refl s
  | cons o sched ih =>
    unfold readPayloadLoop
    split
    · simp only []
      generalize (if s.config.readBufferSize > h.payloadLength - p then h.payloadLength - p
        else s.config.readBufferSize) = want
      split
      · exact hR.weaken (hR.refl s)
      · split
        · split
          · exact hR.weaken (hR.refl s)
          · split
            · exact ih _ _ _ _
            · split
              all_goals
                rename_i hc
                have := congrArg (fun r => R r.1.isRet s r.2) hc
                simp only [Exit.isRet] at this
                have := this.mp (hR.call _ (fun _ => rfl) s)
              · exact hR.trans this (ih _ _ _ _)
              all_goals exact this
        · exact ih _ _ _ _
        · exact hR.weaken (hR.refl s)
        · exact hR.weaken (hR.refl s)
    · exact hR.refl s

theorem SockRel.readPayload (hR : SockRel env R) (h short) : Follows R (readPayload env h short) := by
  unfold OatWS.readPayload
  refine .ite (hR.fail _) (hR.bind hR.get fun st => .ite (hR.fail _) (hR.bind ?_ fun acc => hR.bind ?_ fun _ => hR.pure _))
  · intro st; exact hR.loop ..
  · unfold endMarker; exact .ite (hR.callListener _ (fun _ => rfl)) (hR.pure _)

theorem SockRel.check (hR : SockRel env R) (h) : Follows R (liftSock (checkForContinuation h)) := by
  intro st
  unfold liftSock checkForContinuation
  split
  · rename_i e; split at e
    · cases e; exact hR.refl _
    · split at e
      · cases e; exact hR.last _ _
      · cases e; exact hR.last _ _

theorem SockRel.handleFrame (hR : SockRel env R) (h) : Follows R (handleFrame env h) := by
  unfold OatWS.handleFrame
  refine .ite (hR.bind hR.get fun st => .ite (hR.fail _) (hR.bind (hR.readPayload h _) fun _ => hR.pure _)) ?_
  refine .ite (hR.bind (hR.check _) fun b => .ite (hR.bind (hR.readPayload h _) fun _ => hR.pure _) (hR.fail _)) ?_
  refine .ite (hR.bind (hR.check _) fun b => .ite (hR.bind (hR.readPayload h _) fun _ => hR.pure _) (hR.fail _)) ?_
  refine .ite (hR.bind (hR.readPayload h _) fun _ => hR.callListener _ (fun _ => rfl)) ?_
  refine .ite (hR.bind (hR.readPayload h _) fun _ => hR.callListener _ (fun _ => rfl)) ?_
  exact .ite (hR.bind (hR.readPayload h _) fun _ => hR.callListener _ (fun _ => rfl)) (hR.fail _)

theorem SockRel.iterateFrame (hR : SockRel env R) (h) : Follows R (iterateFrame env h) := by
  unfold OatWS.iterateFrame
  refine hR.bind ?_ fun h => hR.bind (hR.handleFrame h) fun _ => hR.pure _
  intro st
  rw [readFrameHeader_sock]
  exact hR.any (hR.refl _) _

theorem SockRel.listenLoop (hR : SockRel env R) (fuel h) : Follows R (listenLoop env fuel h) := by
  induction fuel generalizing h with
  | zero => intro st; exact hR.weaken (hR.refl _)
  | succ fuel ih =>
    intro st
    unfold OatWS.listenLoop
    have h1 := hR.iterateFrame h st
    rcases hi : OatWS.iterateFrame env h st with ⟨(h' | _ | _ | _), st'⟩ <;> rw [hi] at h1 <;> simp only []
    · split
      · exact hR.trans h1 (ih h' st')
      · exact h1
    all_goals exact h1

/-- The same rule for one callback, from the operations it performs. -/
theorem userOps_follow (Q : Bool → Sock → Sock → Prop) (hrefl : ∀ s, Q true s s)
    (htrans : ∀ {a b c x}, Q true a b → Q x b c → Q x a c)
    (ops : List UserOp) (hop : ∀ op ∈ ops, ∀ s, Q (runUserOp env op s).1.isRet s (runUserOp env op s).2) (s : Sock) :
    Q (runUserOps env ops s).1.isRet s (runUserOps env ops s).2 := by
  induction ops generalizing s with
  | nil => exact hrefl s
  | cons op ops ih =>
    have h1 := hop op (by simp) s
    show Q ((runUserOp env op >>= fun _ => runUserOps env ops) s).1.isRet s ((runUserOp env op >>= fun _ => runUserOps env ops) s).2
    rw [P.bind_def, P.bind_apply]
    rcases hm : runUserOp env op s with ⟨(a | _ | _ | _), s'⟩ <;> rw [hm] at h1 <;> simp only []
    · exact htrans h1 (ih (fun o ho => hop o (List.mem_cons_of_mem _ ho)) s')
    all_goals exact h1

/-! ### Instances -/

/-- No operation in a callback switches listening on. -/
theorem runUserOp_listening (op s) : (runUserOp env op s).2.listening = true → s.listening = true := by
  cases op with
  | stopListening => intro h; cases h
  | setListener l => exact id
  | setConfig c => exact id
  | send call catches =>
    intro h
    have := (send_keeps env call s).listening
    unfold runUserOp at h
    rcases hs : send env call s with ⟨(_ | _ | _ | _), s'⟩ <;> rw [hs] at this <;> simp only [hs] at h
    · exact this h
    · split at h <;> exact this h
    all_goals exact this h
  | throw => exact id

/-- Callbacks already made stay made. -/
theorem runUserOp_trace (op s) : (runUserOp env op s).2.trace = s.trace := by
  cases op with
  | stopListening => rfl
  | setListener l => rfl
  | setConfig c => rfl
  | send call catches =>
    have := (send_keeps env call s).trace
    unfold runUserOp
    rcases hs : send env call s with ⟨(_ | _ | _ | _), s'⟩ <;> rw [hs] at this <;> simp only [hs]
    · exact this
    · split <;> exact this
    all_goals exact this
  | throw => rfl

theorem runUserOps_trace (ops s) : (runUserOps env ops s).2.trace = s.trace :=
  userOps_follow (env := env) (fun _ s s' => s'.trace = s.trace) (fun _ => rfl) (fun h1 h2 => h2.trans h1) ops
    (fun op _ s => runUserOp_trace op s) s

theorem runUserOps_listening (ops s) : (runUserOps env ops s).2.listening = true → s.listening = true :=
  userOps_follow (env := env) (fun _ s s' => s'.listening = true → s.listening = true) (fun _ => id)
    (fun h1 h2 h => h1 (h2 h)) ops (fun op _ s => runUserOp_listening op s) s

theorem callListener_none {mk} {s : Sock} (h : s.listener = none) : callListener env mk s = (.ret (), s) := by
  unfold callListener; rw [h]

theorem callListener_some {mk} {s : Sock} {l} (h : s.listener = some l) : callListener env mk s =
    runUserOps env (env.react (s.trace ++ [mk l])) { s with trace := s.trace ++ [mk l] } := by
  unfold callListener; rw [h]

theorem runUserOps_stop (ops : List UserOp) (hs : .stopListening ∈ ops) (s s' : Sock)
    (h : runUserOps env ops s = (.ret (), s')) : s'.listening = false := by
  induction ops generalizing s with
  | nil => cases hs
  | cons op ops ih =>
    have e : runUserOps env (op :: ops) s = P.bind (runUserOp env op) (fun _ => runUserOps env ops) s := rfl
    rw [e, P.bind_apply] at h
    rcases hm : runUserOp env op s with ⟨(a | _ | _ | _), s1⟩ <;> rw [hm] at h <;> simp only [] at h
    · rcases List.mem_cons.mp hs with rfl | hs
      · have h1 : s1.listening = false := by
          have : runUserOp env .stopListening s = (.ret (), { s with listening := false }) := rfl
          rw [this] at hm; injection hm with _ hm; rw [← hm]
        have h2 := runUserOps_listening (env := env) ops s1
        rw [h] at h2
        cases hl : s'.listening with
        | false => rfl
        | true => rw [h2 hl] at h1; cases h1
      · exact ih hs s1 h
    all_goals cases h

/-- The relation used for `stopListening`. -/
def StopRel (env : Env) (x : Bool) (s s' : Sock) : Prop :=
  (∃ evs, s'.trace = s.trace ++ evs ∧
    (x = true → ∀ tr, s.trace.length < tr.length → tr <+: s'.trace → env.StopsAt tr → s'.listening = false)) ∧
  (s'.listening = true → s.listening = true)

theorem stopRel (env : Env) : SockRel env (StopRel env) where
  refl s := ⟨⟨[], by simp, fun _ tr h1 h2 => absurd h2.length_le (by omega)⟩, id⟩
  weaken h := ⟨⟨h.1.choose, h.1.choose_spec.1, nofun⟩, h.2⟩
  trans := by
    intro a b c x ⟨⟨e1, t1, s1⟩, l1⟩ ⟨⟨e2, t2, s2⟩, l2⟩
    refine ⟨⟨e1 ++ e2, by rw [t2, t1, List.append_assoc], fun hx tr h1 h2 h3 => ?_⟩, fun h => l1 (l2 h)⟩
    by_cases hb : b.trace.length < tr.length
    · exact s2 hx tr hb h2 h3
    · have : tr <+: b.trace := List.prefix_of_prefix_length_le h2 (by rw [t2]; exact List.prefix_append _ _) (by omega)
      have := s1 rfl tr h1 this h3
      cases hl : c.listening with
      | false => rfl
      | true => rw [l2 hl] at this; cases this
  call mk _ s := by
    cases hl : s.listener with
    | none =>
      rw [callListener_none hl]
      exact ⟨⟨[], by simp, fun _ tr h1 h2 => absurd h2.length_le (by simp only []; omega)⟩, id⟩
    | some l =>
      rw [callListener_some hl]
      refine ⟨⟨[mk l], runUserOps_trace _ _, fun hx tr h1 h2 h3 => ?_⟩, runUserOps_listening _ _⟩
      rw [runUserOps_trace] at h2
      have : tr = s.trace ++ [mk l] := by
        refine h2.eq_of_length ?_
        have := h2.length_le
        simp only [List.length_append, List.length_cons, List.length_nil] at this ⊢
        omega
      subst this
      rcases hm : runUserOps env (env.react (s.trace ++ [mk l])) { s with trace := s.trace ++ [mk l] } with ⟨(a | _ | _ | _), s1⟩ <;>
        rw [hm] at hx
      · exact runUserOps_stop _ h3 _ _ hm
      all_goals cases hx
  last s v := ⟨⟨[], by simp, fun _ tr h1 h2 => absurd h2.length_le (by simp only []; omega)⟩, id⟩

theorem Env.Passive.returns (h : env.Passive) : env.Returns := fun tr s => by
  obtain ⟨s', e, _⟩ := h tr s; exact ⟨s', e⟩

theorem Env.Quiet.passive (h : env.Quiet) : env.Passive := fun tr s => ⟨s, by rw [h tr]; rfl, rfl⟩

theorem Env.Quiet.tame (h : env.Quiet) : env.Tame := fun tr op ho => by rw [h tr] at ho; cases ho

theorem passiveRel (h : env.Passive) : SockRel env (fun _ s s' => s'.listening = s.listening) where
  refl _ := rfl
  weaken := id
  trans h1 h2 := h2.trans h1
  call mk _ s := by
    cases hl : s.listener with
    | none => rw [callListener_none hl]
    | some l =>
      rw [callListener_some hl]
      obtain ⟨s', e, h'⟩ := h (s.trace ++ [mk l]) { s with trace := s.trace ++ [mk l] }
      rw [e]; exact h'
  last _ _ := rfl

end OatWS
