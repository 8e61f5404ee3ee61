import Verif.Proofs.Send
import Verif.Proofs.Mask
import Verif.Spec.Send
/-! Lemmas about `sendFrameHeader`, `sendOneFrame` and the public send methods. -/

namespace OatWS
open RFC6455

/-- The socket after the mask bytes for one frame were drawn (if masking). -/
def Sock.drawn (s : Sock) : Sock :=
  { s with rngPos := if s.config.maskOutgoingMessages then s.rngPos + 4 else s.rngPos }

/-- The header `sendFrameHeader` fills. -/
def filledHeader (env : Env) (s : Sock) (fin : Bool) (opcode : UInt8) (size : Int) : Header :=
  { fin, rsv1 := false, rsv2 := false, rsv3 := false, opcode, hasMask := s.config.maskOutgoingMessages,
    payloadLength := size,
    mask := if s.config.maskOutgoingMessages
      then ⟨env.rng s.rngPos, env.rng (s.rngPos + 1), env.rng (s.rngPos + 2), env.rng (s.rngPos + 3)⟩
      else default }

theorem sendFrameHeader_wrote (env : Env) (fin opcode) (size : Int) (h0 : 0 ≤ size) (h1 : size < 2 ^ 63) (s : Sock) :
    Wrote s.drawn (filledHeader env s fin opcode size).wire (filledHeader env s fin opcode size)
      (sendFrameHeader env default fin opcode size s) := by
  have key : sendFrameHeader env default fin opcode size s
      = P.bind (writeFrameHeader env (filledHeader env s fin opcode size))
          (fun _ => Pure.pure (filledHeader env s fin opcode size)) s.drawn := by
    unfold sendFrameHeader filledHeader Sock.drawn
    cases hm : s.config.maskOutgoingMessages <;> simp [hm, bind, P.bind, P.get, pure, P.pure, generateMaskForFrame] <;> rfl
  rw [key]
  have := Wrote.bind (f := fun _ => (Pure.pure (filledHeader env s fin opcode size) : P Sock Header))
    (writeFrameHeader_wrote env (filledHeader env s fin opcode size) h0 h1 s.drawn)
    (fun sc => Wrote.pure _ _)
  rw [List.append_nil] at this
  exact this

theorem filledHeader_key (env s fin opcode size) :
    (filledHeader env s fin opcode size).key
      = if s.config.maskOutgoingMessages then some (maskBytesAt env s.rngPos) else none := by
  unfold Header.key filledHeader maskBytesAt Mask.bytes
  cases s.config.maskOutgoingMessages <;> simp

theorem filledHeader_wire (env s fin opcode) (msg : List UInt8) :
    (filledHeader env s fin opcode msg.length).wire
      ++ applyKey? (filledHeader env s fin opcode msg.length).key msg
      = (frameFor env s fin opcode (some msg)).encode := by
  unfold Header.wire Frame.encode
  rw [filledHeader_key]
  rfl

theorem filledHeader_wire_length (env s fin opcode) (msg : List UInt8) :
    (filledHeader env s fin opcode msg.length).wire.length = (frameFor env s fin opcode (some msg)).headerLength := by
  unfold Header.wire Frame.headerLength
  rw [filledHeader_key]
  rfl

theorem frameFor_nil (env s fin opcode) : frameFor env s fin opcode (some []) = frameFor env s fin opcode none := rfl

/-- Everything that can happen in `sendOneFrame` (without the index overflow). -/
structure SentOne (s1 : Sock) (F : Frame) (r : Exit Bool × Sock) : Prop where
  outcome : (∃ sc, r = (.ret true, s1.wrote F.encode sc)) ∨
    (∃ k sc, k < F.headerLength ∧ (r = (.block, s1.wrote (F.encode.take k) sc) ∨
      ∃ e, e.isWrite ∧ r = (.throw e, s1.wrote (F.encode.take k) sc))) ∨
    (∃ k sc, F.headerLength ≤ k ∧ k < F.encode.length ∧
      (r = (.block, s1.wrote (F.encode.take k) sc) ∨ r = (.ret false, s1.wrote (F.encode.take k) sc)))
  live : ∀ m, Healthy (F.encode.length + m) s1.out.sched →
    ∃ sc, Healthy m sc ∧ r = (.ret true, s1.wrote F.encode sc)

theorem sendOneFrame_cons (env fin opcode b bs) (s : Sock) :
    sendOneFrame env fin opcode (some (b :: bs)) s =
    P.bind (sendFrameHeader env default fin opcode (b :: bs).length) (fun h =>
      if h.hasMask then
        if (b :: bs).length ≥ 2 ^ 31 then P.undef .indexOverflow
        else P.bind (connWriteExact (xorMask h.mask 0 (b :: bs))) fun res => Pure.pure (decide (res = (b :: bs).length))
      else P.bind (connWriteExact (b :: bs)) fun res => Pure.pure (decide (res = (b :: bs).length))) s := rfl

theorem sendOneFrame_sent (env fin opcode) (message : Option (List UInt8)) (s : Sock) (hlen : (message.getD []).length < 2 ^ 63)
    (hm : s.config.maskOutgoingMessages = true → (message.getD []).length < 2 ^ 31) :
    SentOne s.drawn (frameFor env s fin opcode message) (sendOneFrame env fin opcode message s) := by
  -- the empty message
  have hempty : SentOne s.drawn (frameFor env s fin opcode (some []))
      (P.bind (sendFrameHeader env default fin opcode 0) (fun _ => Pure.pure true) s) := by
    have h := sendFrameHeader_wrote env fin opcode 0 (by omega) (by omega) s
    have hw := filledHeader_wire env s fin opcode []
    have hl := filledHeader_wire_length env s fin opcode []
    rw [applyKey?_nil, List.append_nil] at hw
    simp only [List.length_nil, Int.ofNat_zero] at hw hl
    rw [hw] at h hl
    constructor
    · rcases h.outcome with ⟨sc, e⟩ | ⟨k, sc, hk, e | ⟨er, her, e⟩⟩
      · exact .inl ⟨sc, by rw [P.bind, e]; rfl⟩
      · exact .inr (.inl ⟨k, sc, by omega, .inl (by rw [P.bind, e])⟩)
      · exact .inr (.inl ⟨k, sc, by omega, .inr ⟨er, her, by rw [P.bind, e]⟩⟩)
    · intro m hh
      obtain ⟨sc, hsc, e⟩ := h.live m hh
      exact ⟨sc, hsc, by rw [P.bind, e]; rfl⟩
  match message with
  | none => exact hempty
  | some [] => exact hempty
  | some (b :: bs) =>
    simp only [Option.getD_some] at hlen hm
    rw [sendOneFrame_cons env fin opcode b bs s]
    generalize hmsg : b :: bs = msg at *
    have h := sendFrameHeader_wrote env fin opcode msg.length (by omega) (by omega) s
    have hw := filledHeader_wire env s fin opcode msg
    have hl := filledHeader_wire_length env s fin opcode msg
    generalize hH : filledHeader env s fin opcode msg.length = H at *
    -- what the second phase writes
    have hcont : ∀ s', (if H.hasMask then
        if msg.length ≥ 2 ^ 31 then P.undef .indexOverflow
        else P.bind (connWriteExact (xorMask H.mask 0 msg)) fun res => Pure.pure (decide (res = msg.length))
      else P.bind (connWriteExact msg) fun res => (Pure.pure (decide (res = msg.length)) : P Sock Bool)) s'
      = P.bind (connWriteExact (applyKey? H.key msg)) (fun res => Pure.pure (decide (res = msg.length))) s' := by
      intro s'
      have hmm : H.hasMask = s.config.maskOutgoingMessages := by rw [← hH]; rfl
      unfold Header.key
      cases hh : H.hasMask
      · rfl
      · have := hm (by rw [← hmm, hh])
        rw [if_pos rfl, if_pos rfl, if_neg (by omega)]
        simp only [applyKey?, applyKey, xorMask_eq]
    have hlen2 : (applyKey? H.key msg).length = msg.length := applyKey?_length _ _
    generalize hd : applyKey? H.key msg = data at *
    constructor
    · rcases h.outcome with ⟨sc, e⟩ | ⟨k, sc, hk, e | ⟨er, her, e⟩⟩
      · rw [P.bind, e]
        simp only []
        rw [hcont, P.bind, connWriteExact_eq]
        obtain ⟨k, sc', hk, h' | ⟨hlt, h'⟩⟩ := writeExact_spec (s.drawn.wrote H.wire sc).out.sched
          (s.drawn.wrote H.wire sc).out.written data 0
        · rw [h']
          by_cases hkl : k = msg.length
          · refine .inl ⟨sc', ?_⟩
            rw [← hw]
            have : data.take k = data := List.take_of_length_le (by omega)
            rw [this]
            simp [Sock.wrote, hkl, pure, P.pure]
          · refine .inr (.inr ⟨H.wire.length + k, sc', by omega, ?_, .inr ?_⟩)
            · rw [← hw, List.length_append]; omega
            · rw [← hw, List.take_length_add_append]
              simp [Sock.wrote, hkl, pure, P.pure]
        · rw [h']
          refine .inr (.inr ⟨H.wire.length + k, sc', by omega, ?_, .inl ?_⟩)
          · rw [← hw, List.length_append]; omega
          · rw [← hw, List.take_length_add_append]
            simp [Sock.wrote]
      · refine .inr (.inl ⟨k, sc, by omega, .inl ?_⟩)
        rw [P.bind, e, ← hw, List.take_append_of_le_length (by omega)]
      · refine .inr (.inl ⟨k, sc, by omega, .inr ⟨er, her, ?_⟩⟩)
        rw [P.bind, e, ← hw, List.take_append_of_le_length (by omega)]
    · intro m hh
      rw [← hw, List.length_append, Nat.add_assoc] at hh
      obtain ⟨sc, hsc, e⟩ := h.live _ hh
      obtain ⟨sc', hsc', e'⟩ := writeExact_live (s.drawn.wrote H.wire sc).out.sched
          (s.drawn.wrote H.wire sc).out.written data 0 m hsc
      refine ⟨sc', hsc', ?_⟩
      rw [P.bind, e]
      simp only []
      rw [hcont, P.bind, connWriteExact_eq, e', ← hw]
      simp [Sock.wrote, hlen2, pure, P.pure]

theorem sendOneFrame_none (env fin opcode) : sendOneFrame env fin opcode none = sendOneFrame env fin opcode (some []) := rfl

theorem sendOneFrame_getD (env fin opcode) (message : Option (List UInt8)) :
    sendOneFrame env fin opcode message = sendOneFrame env fin opcode (some (message.getD [])) := by
  cases message <;> rfl

/-- With masking and 2^31 bytes or more: the index overflows, unless the header could not be written. -/
theorem sendOneFrame_overflow (env fin opcode) (msg : List UInt8) (s : Sock) (hlen : msg.length < 2 ^ 63)
    (hm : s.config.maskOutgoingMessages = true) (hbig : 2 ^ 31 ≤ msg.length)
    (hh : Healthy (frameFor env s fin opcode (some msg)).headerLength s.out.sched) :
    ∃ s', sendOneFrame env fin opcode (some msg) s = (.ub .indexOverflow, s') := by
  match msg with
  | [] => simp at hbig
  | b :: bs =>
    rw [sendOneFrame_cons env fin opcode b bs s]
    generalize hmsg : b :: bs = msg at *
    have h := sendFrameHeader_wrote env fin opcode msg.length (by omega) (by omega) s
    have hl := filledHeader_wire_length env s fin opcode msg
    obtain ⟨sc, _, e⟩ := h.live 0 (by rw [hl]; exact hh)
    rw [P.bind, e]
    have hmm : (filledHeader env s fin opcode msg.length).hasMask = true := hm
    simp only [hmm, if_true]
    rw [if_pos hbig]
    exact ⟨_, rfl⟩

/-! ### The public send methods -/

theorem sendOrStop_eq (env opcode message) (s : Sock) : sendOrStop env opcode message s =
    match sendOneFrame env true opcode message s with
    | (.ret true, s') => (.ret (), s')
    | (.ret false, s') => (.throw .sendFailed, { s' with listening := false })
    | (.throw e, s') => (.throw e, s')
    | (.block, s') => (.block, s')
    | (.ub u, s') => (.ub u, s') := by
  show P.bind (sendOneFrame env true opcode message) _ s = _
  unfold P.bind
  rcases sendOneFrame env true opcode message s with ⟨(_ | _ | _ | _), s'⟩ <;> try rfl
  rename_i a
  cases a <;> rfl

/-- Everything that can happen in one of the wrappers. -/
structure SentCall (s1 : Sock) (F : Frame) (r : Exit Unit × Sock) : Prop where
  outcome : (∃ sc, r = (.ret (), s1.wrote F.encode sc)) ∨
    (∃ k sc, k < F.headerLength ∧ (r = (.block, s1.wrote (F.encode.take k) sc) ∨
      ∃ e, e.isWrite ∧ r = (.throw e, s1.wrote (F.encode.take k) sc))) ∨
    (∃ k sc, F.headerLength ≤ k ∧ k < F.encode.length ∧
      (r = (.block, s1.wrote (F.encode.take k) sc) ∨
       r = (.throw .sendFailed, { s1.wrote (F.encode.take k) sc with listening := false })))
  live : ∀ m, Healthy (F.encode.length + m) s1.out.sched →
    ∃ sc, Healthy m sc ∧ r = (.ret (), s1.wrote F.encode sc)

theorem sendOrStop_sent (env opcode) (message : Option (List UInt8)) (s : Sock)
    (hlen : (message.getD []).length < 2 ^ 63)
    (hm : s.config.maskOutgoingMessages = true → (message.getD []).length < 2 ^ 31) :
    SentCall s.drawn (frameFor env s true opcode message) (sendOrStop env opcode message s) := by
  have h := sendOneFrame_sent env true opcode message s hlen hm
  rw [sendOrStop_eq]
  constructor
  · rcases h.outcome with ⟨sc, e⟩ | ⟨k, sc, hk, e | ⟨er, her, e⟩⟩ | ⟨k, sc, hk, hk', e | e⟩ <;> rw [e]
    · exact .inl ⟨sc, rfl⟩
    · exact .inr (.inl ⟨k, sc, hk, .inl rfl⟩)
    · exact .inr (.inl ⟨k, sc, hk, .inr ⟨er, her, rfl⟩⟩)
    · exact .inr (.inr ⟨k, sc, hk, hk', .inl rfl⟩)
    · exact .inr (.inr ⟨k, sc, hk, hk', .inr rfl⟩)
  · intro m hh
    obtain ⟨sc, hsc, e⟩ := h.live m hh
    exact ⟨sc, hsc, by rw [e]⟩

theorem close_payload (env : Env) (code : UInt16) (message : Option (List UInt8)) :
    store16 env.host (hton16 env.host code) ++ message.getD [] = bigEndian 2 code.toNat ++ message.getD [] := by
  rw [store16_hton16, bigEndian_two]
  have h := u16_lt code
  congr 3
  omega

/-- The wrapper methods all are `sendOrStop` of their content. -/
theorem send_wrapper (env : Env) (c : SendCall) (hc : ∀ fin op m, c ≠ .oneFrame fin op m) :
    send env c = sendOrStop env c.content.2.1 (some c.content.2.2) ∧ c.content.1 = true := by
  have hg : ∀ op (m : Option (List UInt8)), sendOrStop env op m = sendOrStop env op (some (m.getD [])) := by
    intro op m; cases m <;> rfl
  cases c with
  | oneFrame fin op m => exact absurd rfl (hc fin op m)
  | close code m =>
    refine ⟨?_, rfl⟩
    show sendOrStop env OPCODE_CLOSE (some (store16 env.host (hton16 env.host code) ++ m.getD [])) = _
    rw [close_payload]
    rfl
  | closeEmpty => exact ⟨rfl, rfl⟩
  | ping m => exact ⟨hg _ m, rfl⟩
  | pong m => exact ⟨hg _ m, rfl⟩
  | text m => exact ⟨hg _ m, rfl⟩
  | binary m => exact ⟨hg _ m, rfl⟩

end OatWS
