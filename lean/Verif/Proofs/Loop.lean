import Verif.Spec.Loop
import Verif.Proofs.Follow
import Verif.Proofs.Stale
import Verif.Proofs.FrameStream
/-! Facts about the receive loop for all listeners. -/

namespace OatWS
open RFC6455

theorem listenLoop_listening (env : Env) (fuel : Nat) (h : Header) (st : St) (hf : st.inp.sched.length < fuel) :
    ∃ n, Listening env h st n (listenLoop env fuel h st).1 (listenLoop env fuel h st).2 := by
  induction fuel generalizing h st with
  | zero => omega
  | succ fuel ih =>
    unfold listenLoop
    rcases hi : iterateFrame env h st with ⟨(h' | e | _ | u), st'⟩
    · simp only []
      have := iterateFrame_progress env h st hi
      by_cases hc : h'.opcode = 8
      · rw [if_neg (fun e => e.1 hc)]; exact ⟨1, .closed hi hc⟩
      · cases hl : st'.sock.listening with
        | false => rw [if_neg (by simp)]; exact ⟨1, .stopped hi hl⟩
        | true =>
          rw [if_pos ⟨hc, rfl⟩]
          obtain ⟨n, hn⟩ := ih h' st' (by omega)
          exact ⟨n + 1, .next hi hc hl hn⟩
    · exact ⟨0, .throws hi⟩
    · exact ⟨0, .blocks hi⟩
    · exact ⟨0, .undefined hi⟩

theorem Listening.det {env : Env} {h st n x st' n2 x2 st2} (h1 : Listening env h st n x st') (h2 : Listening env h st n2 x2 st2) :
    n = n2 ∧ x = x2 ∧ st' = st2 := by
  induction h1 generalizing n2 x2 st2 with
  | throws e1 => cases h2 <;> simp_all
  | blocks e1 => cases h2 <;> simp_all
  | undefined e1 => cases h2 <;> simp_all
  | closed e1 _ => cases h2 <;> simp_all
  | stopped e1 _ => cases h2 <;> simp_all
  | next e1 e2 e3 _ ih =>
    cases h2 with
    | next e1' e2' e3' h' =>
      rw [e1] at e1'
      injection e1' with a b; injection a with a
      subst a b
      obtain ⟨rfl, rfl, rfl⟩ := ih h'
      exact ⟨rfl, rfl, rfl⟩
    | _ => simp_all

/-! ### Bytes consumed -/

/-- The program consumes bytes from the front of the input. -/
def Eats {α} (m : P St α) : Prop := ∀ st, (m st).2.inp.bytes <:+ st.inp.bytes

theorem Eats.pure {α} (a : α) : Eats (Pure.pure a : P St α) := fun _ => List.suffix_rfl
theorem Eats.fail {α} (e : Err) : Eats (P.fail e : P St α) := fun _ => List.suffix_rfl
theorem Eats.get : Eats (P.get : P St St) := fun _ => List.suffix_rfl

theorem Eats.bind {α β} {m : P St α} {f : α → P St β} (h : Eats m) (h' : ∀ a, Eats (f a)) :
    Eats (m >>= f) := by
  intro s
  have h1 := h s
  rw [P.bind_def, P.bind_apply]
  rcases hm : m s with ⟨(a | _ | _ | _), s'⟩ <;> rw [hm] at h1 <;> simp only []
  · exact List.IsSuffix.trans (h' a s') h1
  all_goals exact h1

theorem Eats.ite {α} {c : Prop} [Decidable c] {a b : P St α} (ha : Eats a) (hb : Eats b) : Eats (if c then a else b) := by
  split
  · exact ha
  · exact hb

theorem Eats.lift {α} (m : P Sock α) : Eats (liftSock m) := fun _ => List.suffix_rfl

theorem lowRead_eats {o bytes c r bytes'} (h : lowRead o bytes c = (r, bytes')) : bytes' <:+ bytes := by
  unfold lowRead at h
  cases o <;> simp only [] at h
  · split at h <;> (injection h with _ h; subst h)
    · exact List.suffix_rfl
    · exact List.drop_suffix _ _
  all_goals (injection h with _ h; subst h; exact List.suffix_rfl)

theorem loop_eats (env : Env) (h : Header) (short cap) (sched bytes s p acc) :
    (readPayloadLoop env h short cap sched bytes s p acc).2.inp.bytes <:+ bytes := by
  induction sched generalizing bytes s p acc with
  | nil =>
    unfold readPayloadLoop
    split <;> exact List.suffix_rfl
  | cons o sched ih =>
    unfold readPayloadLoop
    split
    · simp only []
      generalize (if s.config.readBufferSize > h.payloadLength - p then h.payloadLength - p
        else s.config.readBufferSize) = want
      split
      · exact List.suffix_rfl
      · split
        all_goals (rename_i hr; have := lowRead_eats hr)
        · split
          · exact this
          · split
            · exact (ih _ _ _ _).trans this
            · split
              · exact (ih _ _ _ _).trans this
              all_goals exact this
        · exact (ih _ _ _ _).trans this
        · exact this
        · exact this
    · exact List.suffix_rfl

theorem readPayload_eats (env h short) : Eats (readPayload env h short) := by
  unfold readPayload
  refine .ite (.fail _) (Eats.bind Eats.get fun st => .ite (.fail _) (Eats.bind ?_ fun acc => Eats.bind ?_ fun _ => .pure _))
  · intro st; exact loop_eats ..
  · unfold endMarker; exact .ite (.lift _) (.pure _)

theorem handleFrame_eats (env h) : Eats (handleFrame env h) := by
  unfold handleFrame
  refine .ite (Eats.bind Eats.get fun st => .ite (.fail _) (Eats.bind (readPayload_eats env h _) fun _ => .pure _)) ?_
  refine .ite (Eats.bind (Eats.lift _) fun b => .ite (Eats.bind (readPayload_eats env h _) fun _ => .pure _) (.fail _)) ?_
  refine .ite (Eats.bind (Eats.lift _) fun b => .ite (Eats.bind (readPayload_eats env h _) fun _ => .pure _) (.fail _)) ?_
  refine .ite (Eats.bind (readPayload_eats env h _) fun _ => .lift _) ?_
  refine .ite (Eats.bind (readPayload_eats env h _) fun _ => .lift _) ?_
  exact .ite (Eats.bind (readPayload_eats env h _) fun _ => .lift _) (.fail _)

/-- A frame that was handled used at least two bytes. -/
theorem iterateFrame_eats (env : Env) (h : Header) (st : St) {h' st'} (he : iterateFrame env h st = (.ret h', st')) :
    st'.inp.bytes <:+ st.inp.bytes ∧ st'.inp.bytes.length + 2 ≤ st.inp.bytes.length := by
  have e : iterateFrame env h st = P.bind (readFrameHeader env h)
      (fun h => P.bind (handleFrame env h) fun _ => Pure.pure h) st := rfl
  rw [e, P.bind_apply] at he
  rcases (readFrameHeader_reads env h st).outcome with ⟨k, hd, h1, sc, hk, e, hp, hh, hs1, hs2, hheal⟩ |
    ⟨k, x, sc, hk, hsl, e, hx, hp, hall⟩
  · rw [e] at he
    simp only [] at he
    have hs := handleFrame_eats env h1 (st.read k sc)
    have hk2 : 2 ≤ k := by
      obtain ⟨a, e, h2⟩ := parseHdr_suffix (hp [])
      have := congrArg List.length e
      rw [List.append_nil, List.append_nil, List.length_take, Nat.min_eq_left hk] at this
      omega
    have hb : (st.read k sc).inp.bytes = st.inp.bytes.drop k := rfl
    rw [hb] at hs
    rw [P.bind_apply] at he
    rcases hr : handleFrame env h1 (st.read k sc) with ⟨(a | _ | _ | _), s'⟩ <;> rw [hr] at he hs
    · have : st' = s' := by injection he with _ h2; exact h2.symm
      rw [this]
      refine ⟨hs.trans (List.drop_suffix _ _), ?_⟩
      have := hs.length_le
      rw [List.length_drop] at this
      simp only [] at this
      omega
    all_goals (injection he with h1 h2; cases h1)
  · rw [e] at he
    rcases hx with ⟨rfl, _⟩ | ⟨er, _, rfl⟩
    · injection he with h1 h2; cases h1
    · injection he with h1 h2; cases h1

/-! ### The stale header -/

theorem xor_restale (g h : Header) (n : Nat) (bs : List UInt8) :
    (if (g.restale h).hasMask then xorMask (g.restale h).mask n bs else bs) = (if h.hasMask then xorMask h.mask n bs else bs) := by
  cases hm : h.hasMask <;> simp [Header.restale, hm]

theorem loop_restale (env : Env) (g h : Header) (short cap) (sched bytes s p acc) :
    readPayloadLoop env (g.restale h) short cap sched bytes s p acc = readPayloadLoop env h short cap sched bytes s p acc := by
  have hl : (g.restale h).payloadLength = h.payloadLength := rfl
  have ho : (g.restale h).opcode = h.opcode := rfl
  induction sched generalizing bytes s p acc with
  | nil => unfold readPayloadLoop; rfl
  | cons o sched ih =>
    rw [readPayloadLoop, readPayloadLoop]
    simp only [xor_restale, hl, ho, ih]

theorem readPayload_restale (env : Env) (g h : Header) (short) : readPayload env (g.restale h) short = readPayload env h short := by
  unfold readPayload runPayloadLoop endMarker
  simp only [loop_restale]
  rfl

theorem handleFrame_restale (env : Env) (g h : Header) : handleFrame env (g.restale h) = handleFrame env h := by
  unfold handleFrame
  simp only [readPayload_restale]
  rfl

theorem iterateFrame_stale (env : Env) (g g' : Header) (st : St) :
    iterateFrame env g' st = ((iterateFrame env g st).1.map g'.restale, (iterateFrame env g st).2) := by
  have e : ∀ g, iterateFrame env g st = P.bind (readFrameHeader env g)
      (fun h => P.bind (handleFrame env h) fun _ => Pure.pure h) st := fun _ => rfl
  rw [e, e, P.bind_apply, P.bind_apply, readFrameHeader_stale env g g']
  rcases readFrameHeader env g st with ⟨(h | _ | _ | _), s'⟩
  · simp only [Exit.map]
    rw [handleFrame_restale]
    rw [P.bind_apply, P.bind_apply]
    rcases handleFrame env h s' with ⟨(_ | _ | _ | _), s''⟩ <;> rfl
  all_goals rfl

theorem listenLoop_stale (env : Env) (fuel : Nat) (g g' : Header) (st : St) :
    listenLoop env fuel g' st = listenLoop env fuel g st := by
  induction fuel generalizing g g' st with
  | zero => rfl
  | succ fuel ih =>
    simp only [listenLoop]
    rw [iterateFrame_stale env g g']
    rcases iterateFrame env g st with ⟨(h | _ | _ | _), s'⟩
    · simp only [Exit.map]
      have : (g'.restale h).opcode = h.opcode := rfl
      rw [this, ih h (g'.restale h)]
    all_goals rfl

/-! ### No overrun -/

theorem keepsConfig_ops {env : Env} (ops : List UserOp) (hops : ∀ c, UserOp.setConfig c ∉ ops) (s : Sock) :
    (runUserOps env ops s).2.config = s.config :=
  userOps_follow (env := env) (fun _ s s' => s'.config = s.config) (fun _ => rfl) (fun h1 h2 => h2.trans h1) ops
    (fun op ho s => by
      cases op with
      | stopListening => rfl
      | setListener l => rfl
      | setConfig c => exact absurd ho (hops c)
      | send call catches =>
        have := (send_keeps env call s).config
        unfold runUserOp
        rcases hs : send env call s with ⟨(_ | _ | _ | _), s'⟩ <;> rw [hs] at this <;> simp only [hs]
        · exact this
        · split <;> exact this
        all_goals exact this
      | throw => rfl) s

theorem keepsConfig_call {env : Env} (hk : env.KeepsConfig) (mk : Nat → Event) (s : Sock) :
    (callListener env mk s).2.config = s.config := by
  cases hl : s.listener with
  | none => rw [callListener_none hl]
  | some l => rw [callListener_some hl, keepsConfig_ops _ (hk _)]

/-- The two memory errors of the receive path. -/
def UB.isMemory : UB → Prop
  | .bufferOverflow | .negativeRead => True
  | .indexOverflow => False

def Exit.Safe {α} : Exit α → Prop
  | .ub u => ¬ u.isMemory
  | _ => True

theorem lowRead_le {o bytes c bs bytes'} (h : lowRead o bytes c = (.data bs, bytes')) : bs.length ≤ c := by
  cases o with
  | upTo n =>
    simp only [lowRead] at h
    split at h
    · cases h
    · injection h with h _; injection h with h; rw [← h, List.length_take]; omega
  | retry => cases h
  | zero => cases h
  | broken => cases h

/-- Safe, and the configuration is not changed. -/
def SafeP {α} (m : P St α) : Prop := ∀ st, (m st).1.Safe ∧ (m st).2.sock.config = st.sock.config

theorem SafeP.pure {α} (a : α) : SafeP (Pure.pure a : P St α) := fun _ => ⟨trivial, rfl⟩
theorem SafeP.fail {α} (e : Err) : SafeP (P.fail e : P St α) := fun _ => ⟨trivial, rfl⟩

theorem SafeP.bind {α β} {m : P St α} {f : α → P St β} (h : SafeP m) (h' : ∀ a, SafeP (f a)) : SafeP (m >>= f) := by
  intro s
  have h1 := h s
  rw [P.bind_def, P.bind_apply]
  rcases hm : m s with ⟨(a | _ | _ | _), s'⟩ <;> rw [hm] at h1 <;> simp only []
  · exact ⟨(h' a s').1, (h' a s').2.trans h1.2⟩
  all_goals exact h1

theorem SafeP.ite {α} {c : Prop} [Decidable c] {a b : P St α} (ha : SafeP a) (hb : SafeP b) : SafeP (if c then a else b) := by
  split
  · exact ha
  · exact hb

theorem send_safe (env : Env) (call : SendCall) (s : Sock) : (send env call s).1.Safe := by
  have conn : ∀ d s, (connWriteExact d s).1.Safe := by
    intro d s; unfold connWriteExact; split <;> trivial
  have bind : ∀ {α β} {m : P Sock α} {f : α → P Sock β}, (∀ s, (m s).1.Safe) → (∀ a s, (f a s).1.Safe) → ∀ s, ((m >>= f) s).1.Safe := by
    intro α β m f h1 h2 s
    have h := h1 s
    rw [P.bind_def, P.bind_apply]
    rcases hm : m s with ⟨(a | _ | _ | _), s'⟩ <;> rw [hm] at h <;> simp only []
    · exact h2 a s'
    all_goals exact h
  have expect : ∀ d n e s, (writeExpect d n e s).1.Safe := by
    intro d n e
    unfold writeExpect
    refine bind (conn d) fun a s => ?_
    split <;> trivial
  have len : ∀ h sc s, (writeLength env h sc s).1.Safe := by
    intro h sc s
    unfold writeLength
    split
    · exact expect ..
    · split
      · exact expect ..
      · trivial
  have mask : ∀ h s, (writeMask h s).1.Safe := by
    intro h s
    unfold writeMask
    split
    · exact expect ..
    · trivial
  have hdr : ∀ h s, (writeFrameHeader env h s).1.Safe := by
    intro h
    unfold writeFrameHeader
    exact bind (expect _ _ _) fun _ => bind (len _ _) fun _ => mask _
  have shdr : ∀ h fin op n s, (sendFrameHeader env h fin op n s).1.Safe := by
    intro h fin op n
    unfold sendFrameHeader
    refine bind (by intros; trivial) fun a => ?_
    intro s
    simp only []
    split
    · exact bind (by intros; trivial) (fun h => bind (hdr h) (by intros; trivial)) s
    · exact bind (by intros; trivial) (fun h => bind (hdr h) (by intros; trivial)) s
  have one : ∀ fin op m s, (sendOneFrame env fin op m s).1.Safe := by
    intro fin op m s
    unfold sendOneFrame
    split
    · refine bind (shdr _ _ _ _) (fun h s => ?_) s
      split
      · split
        · exact (id : ¬ UB.isMemory .indexOverflow)
        · exact bind (conn _) (by intros; trivial) s
      · exact bind (conn _) (by intros; trivial) s
    · exact bind (shdr _ _ _ _) (by intros; trivial) s
  have stop : ∀ op m s, (sendOrStop env op m s).1.Safe := by
    intro op m
    unfold sendOrStop
    refine bind (one _ _ _) fun ok s => ?_
    split
    · trivial
    · exact bind (by intros; trivial) (by intros; trivial) s
  cases call with
  | oneFrame fin op m => exact bind (one _ _ _) (by intros; trivial) s
  | _ => exact stop _ _ _

theorem call_safe (env : Env) (mk : Nat → Event) (s : Sock) : (callListener env mk s).1.Safe := by
  cases hl : s.listener with
  | none => rw [callListener_none hl]; trivial
  | some l =>
    rw [callListener_some hl]
    generalize env.react _ = ops
    generalize ({ s with trace := s.trace ++ [mk l] } : Sock) = s0
    induction ops generalizing s0 with
    | nil => trivial
    | cons op ops ih =>
      have e : runUserOps env (op :: ops) s0 = P.bind (runUserOp env op) (fun _ => runUserOps env ops) s0 := rfl
      have h1 : (runUserOp env op s0).1.Safe := by
        cases op with
        | send call catches =>
          have := send_safe env call s0
          unfold runUserOp
          rcases hs : send env call s0 with ⟨(_ | _ | _ | _), s'⟩ <;> rw [hs] at this <;> simp only [hs]
          · trivial
          · split <;> trivial
          · trivial
          · exact this
        | _ => trivial
      rw [e, P.bind_apply]
      rcases hm : runUserOp env op s0 with ⟨(a | _ | _ | _), s'⟩ <;> rw [hm] at h1 <;> simp only []
      · exact ih s'
      all_goals exact h1

theorem SafeP.call {env : Env} (hk : env.KeepsConfig) (mk) : SafeP (liftSock (callListener env mk)) :=
  fun st => ⟨call_safe env mk st.sock, keepsConfig_call hk mk st.sock⟩

theorem loop_safe {env : Env} (hk : env.KeepsConfig) (h : Header) (short : Bool) (cap : Nat) (sched : List IoOutcome)
    (bytes : List UInt8) (s : Sock) (p : Int) (acc : List UInt8)
    (hcap : s.config.readBufferSize = (cap : Int)) :
    (readPayloadLoop env h short cap sched bytes s p acc).1.Safe ∧
      (readPayloadLoop env h short cap sched bytes s p acc).2.sock.config = s.config := by
  induction sched generalizing bytes s p acc with
  | nil =>
    unfold readPayloadLoop
    split <;> exact ⟨trivial, rfl⟩
  | cons o sched ih =>
    unfold readPayloadLoop
    split
    · rename_i hp
      simp only []
      generalize hw : (if s.config.readBufferSize > h.payloadLength - p then h.payloadLength - p
        else s.config.readBufferSize) = want
      have hw0 : 0 ≤ want ∧ want ≤ cap := by rw [← hw]; split <;> omega
      rw [if_neg (by omega)]
      split
      · rename_i bs bytes' hr
        have := lowRead_le hr
        rw [if_neg (by omega)]
        split
        · exact ih _ _ _ _ hcap
        · split
          all_goals
            rename_i hc
            have hsafe := call_safe env (fun l => .readMessage l h.opcode
              (if h.hasMask = true then xorMask h.mask p.toNat bs else bs)) s
            have hcfg := keepsConfig_call hk (fun l => .readMessage l h.opcode
              (if h.hasMask = true then xorMask h.mask p.toNat bs else bs)) s
            rw [hc] at hsafe hcfg
          · have := ih bytes' _ (p + bs.length) acc (by rw [hcfg]; exact hcap)
            exact ⟨this.1, this.2.trans hcfg⟩
          all_goals exact ⟨hsafe, hcfg⟩
      · exact ih _ _ _ _ hcap
      · exact ⟨trivial, rfl⟩
      · exact ⟨trivial, rfl⟩
    · exact ⟨trivial, rfl⟩

theorem readPayload_safe {env : Env} (hk : env.KeepsConfig) (h short) : SafeP (readPayload env h short) := by
  unfold readPayload
  refine .ite (.fail _) ?_
  intro st
  rw [P.bind_def, P.bind_apply]
  simp only [P.get]
  split
  · exact ⟨trivial, rfl⟩
  · rename_i hneg
    have h1 : (runPayloadLoop env h short st).1.Safe ∧ (runPayloadLoop env h short st).2.sock.config = st.sock.config :=
      loop_safe hk h short _ _ _ _ _ _ (by omega)
    have h2 : ∀ acc, SafeP (P.bind (endMarker env h short) fun _ => (Pure.pure acc : P St (List UInt8))) := by
      intro acc
      refine SafeP.bind ?_ fun _ => .pure _
      unfold endMarker
      exact .ite (SafeP.call hk _) (.pure _)
    show (P.bind (runPayloadLoop env h short) (fun acc => P.bind (endMarker env h short) fun _ => (Pure.pure acc : P St (List UInt8))) st).1.Safe ∧
      (P.bind (runPayloadLoop env h short) (fun acc => P.bind (endMarker env h short) fun _ => (Pure.pure acc : P St (List UInt8))) st).2.sock.config = _
    rw [P.bind_apply]
    rcases hm : runPayloadLoop env h short st with ⟨(a | _ | _ | _), s'⟩ <;> rw [hm] at h1 <;> simp only []
    · exact ⟨(h2 a s').1, (h2 a s').2.trans h1.2⟩
    all_goals exact h1

theorem handleFrame_safe {env : Env} (hk : env.KeepsConfig) (h) : SafeP (handleFrame env h) := by
  have hc : SafeP (liftSock (checkForContinuation h)) := by
    intro st
    unfold liftSock checkForContinuation
    split
    · rename_i e; split at e
      · cases e; exact ⟨trivial, rfl⟩
      · split at e
        · cases e; exact ⟨trivial, rfl⟩
        · cases e; exact ⟨trivial, rfl⟩
  unfold handleFrame
  refine .ite (SafeP.bind (fun _ => ⟨trivial, rfl⟩) fun st => .ite (.fail _) (SafeP.bind (readPayload_safe hk h _) fun _ => .pure _)) ?_
  refine .ite (SafeP.bind hc fun b => .ite (SafeP.bind (readPayload_safe hk h _) fun _ => .pure _) (.fail _)) ?_
  refine .ite (SafeP.bind hc fun b => .ite (SafeP.bind (readPayload_safe hk h _) fun _ => .pure _) (.fail _)) ?_
  refine .ite (SafeP.bind (readPayload_safe hk h _) fun _ => SafeP.call hk _) ?_
  refine .ite (SafeP.bind (readPayload_safe hk h _) fun _ => SafeP.call hk _) ?_
  exact .ite (SafeP.bind (readPayload_safe hk h _) fun _ => SafeP.call hk _) (.fail _)

theorem iterateFrame_safe {env : Env} (hk : env.KeepsConfig) (h) : SafeP (iterateFrame env h) := by
  unfold iterateFrame
  refine SafeP.bind ?_ fun h => SafeP.bind (handleFrame_safe hk h) fun _ => .pure _
  intro st
  refine ⟨?_, by rw [readFrameHeader_sock]⟩
  rcases (readFrameHeader_reads env h st).outcome with ⟨k, hd, h1, sc, hk, e, _⟩ | ⟨k, x, sc, hk, hsl, e, hx, _⟩
  · rw [e]; trivial
  · rw [e]
    rcases hx with ⟨rfl, _⟩ | ⟨er, _, rfl⟩ <;> trivial

theorem listenLoop_safe {env : Env} (hk : env.KeepsConfig) (fuel h) : SafeP (listenLoop env fuel h) := by
  induction fuel generalizing h with
  | zero => intro st; exact ⟨trivial, rfl⟩
  | succ fuel ih =>
    intro st
    unfold listenLoop
    have h1 := iterateFrame_safe hk h st
    rcases hi : iterateFrame env h st with ⟨(h' | _ | _ | _), st'⟩ <;> rw [hi] at h1 <;> simp only []
    · split
      · exact ⟨(ih h' st').1, (ih h' st').2.trans h1.2⟩
      · exact ⟨trivial, h1.2⟩
    all_goals exact h1

end OatWS
