import Verif.Proofs.SendFrame
import Verif.Proofs.FrameStream
import Verif.Spec.Fixtures
/-! # C04, C21, C22, C23, C27, C42: sending -/

namespace OatWS
open RFC6455

/-- The message can be sent without undefined behaviour: shorter than 2^63 bytes, and than 2^31 if it is masked. -/
def Sendable (s : Sock) (message : Option (List UInt8)) : Prop :=
  (message.getD []).length < 2 ^ 63 ∧ (s.config.maskOutgoingMessages = true → (message.getD []).length < 2 ^ 31)

instance (s message) : Decidable (Sendable s message) := by unfold Sendable; exact inferInstance

theorem frameFor_valid (env : Env) (s : Sock) (fin opcode) (message : Option (List UInt8)) (h : Sendable s message) :
    (frameFor env s fin opcode message).Valid := by
  refine ⟨Nat.mod_lt _ (by omega), ?_, h.1⟩
  intro k hk
  simp only [frameFor] at hk
  split at hk
  · injection hk with hk; rw [← hk]; rfl
  · cases hk

/-! ## C04, C21 -/

/-- **C04** for `sendOneFrame`: when it returns true, exactly the one frame was appended to the connection, and the only
other change is that the mask bytes were drawn from the random source (if masking). -/
theorem C04_sendOneFrame (env : Env) (fin : Bool) (opcode : UInt8) (message : Option (List UInt8)) (s s' : Sock)
    (hs : Sendable s message) (h : sendOneFrame env fin opcode message s = (.ret true, s')) :
    s'.out.written = s.out.written ++ (frameFor env s fin opcode message).encode ∧
    s' = { s with out := s'.out, rngPos := s.rngPos + if s.config.maskOutgoingMessages then 4 else 0 } := by
  rcases (sendOneFrame_sent env fin opcode message s hs.1 hs.2).outcome with ⟨sc, e⟩ | ⟨k, sc, hk, e | ⟨er, _, e⟩⟩ |
    ⟨k, sc, hk, _, e | e⟩ <;> rw [h] at e <;> injection e with e1 e2 <;> try (cases e1; done)
  subst e2
  have hd : s.drawn.out = s.out := by unfold Sock.drawn; split <;> rfl
  refine ⟨by simp only [Sock.wrote, hd], ?_⟩
  unfold Sock.wrote Sock.drawn
  split <;> rfl

/-- **C21** for `sendOneFrame`: it never executes undefined behaviour here; `true` means the whole frame was handed over;
in every other case (false, exception, blocked) a proper prefix of the frame was; on a connection that does not fail the
result is `true`. -/
theorem C21_sendOneFrame (env : Env) (fin : Bool) (opcode : UInt8) (message : Option (List UInt8)) (s : Sock)
    (hs : Sendable s message) :
    ∃ x s', sendOneFrame env fin opcode message s = (x, s') ∧ (∀ u, x ≠ .ub u) ∧
      (x = .ret true → s'.out.written = s.out.written ++ (frameFor env s fin opcode message).encode) ∧
      (x ≠ .ret true → ∃ part, part <+: (frameFor env s fin opcode message).encode ∧
        part.length < (frameFor env s fin opcode message).encode.length ∧ s'.out.written = s.out.written ++ part) ∧
      (Healthy (frameFor env s fin opcode message).encode.length s.out.sched → x = .ret true) := by
  have hS := sendOneFrame_sent env fin opcode message s hs.1 hs.2
  have hd : s.drawn.out = s.out := by unfold Sock.drawn; split <;> rfl
  have hlive : Healthy (frameFor env s fin opcode message).encode.length s.out.sched →
      (sendOneFrame env fin opcode message s).1 = .ret true := fun hh => by
    obtain ⟨sc, _, e⟩ := hS.live 0 (by rw [hd]; exact hh)
    rw [e]
  have hhl : (frameFor env s fin opcode message).headerLength ≤ (frameFor env s fin opcode message).encode.length := by
    simp [Frame.headerLength, Frame.encode]
  have hw : ∀ bs sc, (s.drawn.wrote bs sc).out.written = s.out.written ++ bs := fun bs sc => by
    simp only [Sock.wrote, hd]
  have hpart : ∀ k, k < (frameFor env s fin opcode message).encode.length →
      (frameFor env s fin opcode message).encode.take k <+: (frameFor env s fin opcode message).encode ∧
      ((frameFor env s fin opcode message).encode.take k).length < (frameFor env s fin opcode message).encode.length :=
    fun k hk => ⟨List.take_prefix _ _, by rw [List.length_take]; omega⟩
  rcases hS.outcome with ⟨sc, e⟩ | ⟨k, sc, hk, e | ⟨er, _, e⟩⟩ | ⟨k, sc, _, hk, e | e⟩ <;> rw [e] at hlive ⊢ <;>
    refine ⟨_, _, rfl, nofun, ?_, ?_, hlive⟩
  · exact fun _ => hw _ _
  · exact fun h => absurd rfl h
  · nofun
  · exact fun _ => ⟨_, (hpart k (by omega)).1, (hpart k (by omega)).2, hw _ _⟩
  · nofun
  · exact fun _ => ⟨_, (hpart k (by omega)).1, (hpart k (by omega)).2, hw _ _⟩
  · nofun
  · exact fun _ => ⟨_, (hpart k (by omega)).1, (hpart k (by omega)).2, hw _ _⟩
  · intro h; injection h with h; cases h
  · exact fun _ => ⟨_, (hpart k (by omega)).1, (hpart k (by omega)).2, hw _ _⟩

/-- The content of a send call is sendable. -/
def SendCall.Sendable (s : Sock) (c : SendCall) : Prop := OatWS.Sendable s (some c.content.2.2)

instance (s : Sock) (c : SendCall) : Decidable (c.Sendable s) := by unfold SendCall.Sendable; exact inferInstance

/-- The frame a call stands for. -/
def SendCall.frame (env : Env) (s : Sock) (c : SendCall) : Frame :=
  frameFor env s c.content.1 c.content.2.1 (some c.content.2.2)

/-- A call of any of the public send methods, reduced to what is shared: (its exit, the new state). -/
theorem C04_C21_any_send (env : Env) (c : SendCall) (hc : ∀ fin op m, c ≠ .oneFrame fin op m) (s : Sock) (hs : c.Sendable s) :
    ∃ x s', send env c s = (x, s') ∧ (∀ u, x ≠ .ub u) ∧
      (x = .ret () → s'.out.written = s.out.written ++ (c.frame env s).encode ∧
        s' = { s with out := s'.out, rngPos := s.rngPos + if s.config.maskOutgoingMessages then 4 else 0 }) ∧
      (x ≠ .ret () → ∃ part, part <+: (c.frame env s).encode ∧
        part.length < (c.frame env s).encode.length ∧ s'.out.written = s.out.written ++ part) ∧
      (Healthy (c.frame env s).encode.length s.out.sched → x = .ret ()) := by
  obtain ⟨hsend, hfin⟩ := send_wrapper env c hc
  rw [hsend, SendCall.frame, hfin]
  generalize hop : c.content.2.1 = opcode
  generalize hmsg : c.content.2.2 = msg
  have hs' : Sendable s (some msg) := by rw [← hmsg]; exact hs
  have hS := sendOrStop_sent env opcode (some msg) s hs'.1 hs'.2
  have hd : s.drawn.out = s.out := by unfold Sock.drawn; split <;> rfl
  have hlive : Healthy (frameFor env s true opcode (some msg)).encode.length s.out.sched →
      (sendOrStop env opcode (some msg) s).1 = .ret () := fun hh => by
    obtain ⟨sc, _, e⟩ := hS.live 0 (by rw [hd]; exact hh)
    rw [e]
  have hhl : (frameFor env s true opcode (some msg)).headerLength ≤ (frameFor env s true opcode (some msg)).encode.length := by
    simp [Frame.headerLength, Frame.encode]
  have hw : ∀ bs sc, (s.drawn.wrote bs sc).out.written = s.out.written ++ bs := fun bs sc => by
    simp only [Sock.wrote, hd]
  have hpart : ∀ k, k < (frameFor env s true opcode (some msg)).encode.length →
      (frameFor env s true opcode (some msg)).encode.take k <+: (frameFor env s true opcode (some msg)).encode ∧
      ((frameFor env s true opcode (some msg)).encode.take k).length
        < (frameFor env s true opcode (some msg)).encode.length :=
    fun k hk => ⟨List.take_prefix _ _, by rw [List.length_take]; omega⟩
  rcases hS.outcome with ⟨sc, e⟩ | ⟨k, sc, hk, e | ⟨er, _, e⟩⟩ | ⟨k, sc, _, hk, e | e⟩ <;> rw [e] at hlive ⊢ <;>
    refine ⟨_, _, rfl, nofun, ?_, ?_, hlive⟩
  · refine fun _ => ⟨hw _ _, ?_⟩
    simp only [Sock.wrote, Sock.drawn]; split <;> rfl
  · exact fun h => absurd rfl h
  · nofun
  · exact fun _ => ⟨_, (hpart k (by omega)).1, (hpart k (by omega)).2, hw _ _⟩
  · nofun
  · exact fun _ => ⟨_, (hpart k (by omega)).1, (hpart k (by omega)).2, hw _ _⟩
  · nofun
  · exact fun _ => ⟨_, (hpart k (by omega)).1, (hpart k (by omega)).2, hw _ _⟩
  · nofun
  · exact fun _ => ⟨_, (hpart k (by omega)).1, (hpart k (by omega)).2, hw _ _⟩


/-- A masked binary frame of three bytes on a connection that writes byte by byte. -/
example : ∃ s', sendOneFrame Fixture.env true OPCODE_BINARY (some [1, 2, 3])
      (Sock.new { maskOutgoingMessages := true } ⟨[0xAA], Fixture.slow 9⟩) = (.ret true, s') ∧
      s'.out.written = [0xAA, 0x82, 0x83, 3, 20, 37, 54, 2, 22, 38] := ⟨_, rfl, by decide⟩

/-- The connection breaks inside the payload: false, and a prefix was written. -/
example : ∃ s', sendOneFrame Fixture.env true OPCODE_BINARY (some [1, 2, 3])
      (Sock.new {} ⟨[], [.upTo 5, .upTo 0, .broken]⟩) = (.ret false, s') ∧
      s'.out.written = [0x82, 0x03, 1] := ⟨_, rfl, by decide⟩

/-- `sendClose(1000, "x")` and `sendPing(null)` meet the hypotheses of `C04_C21_any_send`. -/
example : (SendCall.close 1000 (some [0x78])).Sendable (Sock.new { maskOutgoingMessages := true } ⟨[], []⟩) ∧
    (SendCall.ping none).Sendable (Sock.new {} ⟨[], []⟩) := by decide

/-! ## C22 -/

/-- **C22**, full statement: a send wrapper that throws has switched listening off. -/
def C22_statement : Prop := ∀ (env : Env) (c : SendCall) (s s' : Sock) (e : Err),
  (∀ fin op m, c ≠ .oneFrame fin op m) → c.Sendable s → send env c s = (.throw e, s') → s'.listening = false

/-- **C22 is violated** by the code: when the *header* cannot be written, the exception leaves `sendOneFrame` and passes
the wrapper before `stopListening()` (WebSocket.cpp:119, 351-353). -/
theorem C22_violated : ¬ C22_statement := by
  intro h
  have := h Fixture.env (.text (some [1])) { Sock.new {} ⟨[], [.broken]⟩ with listening := true }
    { Sock.new {} ⟨[], []⟩ with listening := true } .headerWrite nofun (by decide) (by rfl)
  cases this

/-- **C22**, what holds: a wrapper throws either one of the header-write errors, with part of the header written and the
listening flag untouched, or `sendFailed`, with the header and part of the payload written and listening switched off. -/
theorem C22_partial (env : Env) (c : SendCall) (hc : ∀ fin op m, c ≠ .oneFrame fin op m) (s s' : Sock) (e : Err)
    (hs : c.Sendable s) (h : send env c s = (.throw e, s')) :
    (e = .sendFailed ∧ s'.listening = false ∧ ∃ k, (c.frame env s).headerLength ≤ k ∧ k < (c.frame env s).encode.length ∧
      s'.out.written = s.out.written ++ (c.frame env s).encode.take k) ∨
    (e.isWrite ∧ s'.listening = s.listening ∧ ∃ k, k < (c.frame env s).headerLength ∧
      s'.out.written = s.out.written ++ (c.frame env s).encode.take k) := by
  obtain ⟨hsend, hfin⟩ := send_wrapper env c hc
  rw [SendCall.frame, hfin]
  rw [hsend] at h
  generalize hop : c.content.2.1 = opcode at h ⊢
  have hs' : OatWS.Sendable s (some c.content.2.2) := hs
  generalize hmsg : c.content.2.2 = msg at h hs' ⊢
  have hS := sendOrStop_sent env opcode (some msg) s hs'.1 hs'.2
  have hd : s.drawn.out = s.out ∧ s.drawn.listening = s.listening := by unfold Sock.drawn; split <;> exact ⟨rfl, rfl⟩
  have hw : ∀ bs sc, (s.drawn.wrote bs sc).out.written = s.out.written ++ bs := fun bs sc => by
    simp only [Sock.wrote, hd.1]
  rcases hS.outcome with ⟨sc, g⟩ | ⟨k, sc, hk, g | ⟨er, hw2, g⟩⟩ | ⟨k, sc, hk1, hk2, g | g⟩ <;> rw [h] at g <;>
    injection g with g1 g2 <;> try (cases g1; done)
  · injection g1 with g1
    subst g1 g2
    exact .inr ⟨hw2, hd.2, k, hk, hw _ _⟩
  · injection g1 with g1
    subst g1 g2
    exact .inl ⟨rfl, rfl, k, hk1, hk2, hw _ _⟩

/-- A ping whose payload cannot be written stops listening. -/
example : ∃ s', send Fixture.env (.ping (some [1, 2])) { Sock.new {} ⟨[], [.upTo 1, .upTo 0, .zero]⟩ with listening := true }
    = (.throw .sendFailed, s') ∧ s'.listening = false := ⟨_, rfl, rfl⟩

/-! ## C23 -/

/-- **C23.** A null message and an empty one are sent the same way: same result, same state, and what is sent is a frame
without payload. -/
theorem C23_null_is_empty (env : Env) (fin : Bool) (opcode : UInt8) (s : Sock) :
    sendOneFrame env fin opcode none s = sendOneFrame env fin opcode (some []) s ∧
    (∀ s', sendOneFrame env fin opcode none s = (.ret true, s') →
      s'.out.written = s.out.written ++ (frameFor env s fin opcode none).encode ∧
      (frameFor env s fin opcode none).payload = []) := by
  refine ⟨rfl, fun s' h => ⟨(C04_sendOneFrame env fin opcode none s s' ⟨?_, fun _ => ?_⟩ h).1, rfl⟩⟩
  · exact Nat.two_pow_pos 63
  · exact Nat.two_pow_pos 31

/-- **C23** for the other methods. -/
theorem C23_wrappers (env : Env) :
    send env (.ping none) = send env (.ping (some [])) ∧ send env (.pong none) = send env (.pong (some [])) ∧
    send env (.text none) = send env (.text (some [])) ∧ send env (.binary none) = send env (.binary (some [])) ∧
    ∀ code, send env (.close code none) = send env (.close code (some [])) :=
  ⟨rfl, rfl, rfl, rfl, fun _ => rfl⟩

example : ∃ s', sendOneFrame Fixture.env true OPCODE_TEXT none (Sock.new { maskOutgoingMessages := true } ⟨[], Fixture.slow 6⟩)
    = (.ret true, s') ∧ s'.out.written = [0x81, 0x80, 3, 20, 37, 54] := ⟨_, rfl, by decide⟩

/-! ## C27 -/

/-- **C27.** Sending never executes undefined behaviour with fewer than 2^31 bytes (masked) or 2^63 bytes (unmasked). -/
theorem C27_no_ub (env : Env) (fin : Bool) (opcode : UInt8) (message : Option (List UInt8)) (s : Sock)
    (hs : Sendable s message) (u : UB) (s' : Sock) : sendOneFrame env fin opcode message s ≠ (.ub u, s') := by
  obtain ⟨x, s1, e, h, _⟩ := C21_sendOneFrame env fin opcode message s hs
  rw [e]; intro e'; injection e' with e'; exact h u e'

example (u : UB) (s' : Sock) : sendOneFrame Fixture.env true OPCODE_BINARY (some [1, 2, 3]) (Sock.new { maskOutgoingMessages := true } ⟨[], Fixture.slow 9⟩) ≠ (.ub u, s') :=
  C27_no_ub _ _ _ _ _ (by decide) u s'

/-- **C27**, the boundary: a masked message of 2^31 bytes or more overflows the index as soon as its header is written. -/
theorem C27_ub_at_2_31 (env : Env) (fin : Bool) (opcode : UInt8) (msg : List UInt8) (s : Sock)
    (hm : s.config.maskOutgoingMessages = true) (h : 2 ^ 31 ≤ msg.length) (h' : msg.length < 2 ^ 63)
    (hh : Healthy (frameFor env s fin opcode (some msg)).headerLength s.out.sched) :
    ∃ s', sendOneFrame env fin opcode (some msg) s = (.ub .indexOverflow, s') :=
  sendOneFrame_overflow env fin opcode msg s h' hm h hh

/-- Such a message exists: 2^31 zero bytes. -/
example : ∃ s', sendOneFrame Fixture.env true OPCODE_BINARY (some (List.replicate (2 ^ 31) 0))
    (Sock.new { maskOutgoingMessages := true } ⟨[], List.replicate 14 (.upTo 0)⟩) = (.ub .indexOverflow, s') := by
  refine C27_ub_at_2_31 _ _ _ _ _ rfl ?_ ?_ ?_
  · rw [List.length_replicate]; exact Nat.le_refl _
  · rw [List.length_replicate]; decide
  · have : ∀ (l : List UInt8), l.length = 2147483648 → (frameFor Fixture.env (Sock.new { maskOutgoingMessages := true }
        ⟨[], List.replicate 14 (.upTo 0)⟩) true OPCODE_BINARY (some l)).headerLength = 14 := by
      intro l hl
      simp only [Frame.headerLength, frameFor, Option.getD_some, encodeHeader, hl]
      decide
    rw [this _ (List.length_replicate)]
    decide

/-! ## C42 -/

/-- The call returned normally and reported success. -/
inductive Succeeds (env : Env) : SendCall → Sock → Sock → Prop
  | oneFrame {fin op m s s'} : sendOneFrame env fin op m s = (.ret true, s') → Succeeds env (.oneFrame fin op m) s s'
  | other {c s s'} : (∀ fin op m, c ≠ .oneFrame fin op m) → send env c s = (.ret (), s') → Succeeds env c s s'

/-- Successful calls one after the other. -/
inductive SucceedAll (env : Env) : List SendCall → Sock → Sock → Prop
  | nil {s} : SucceedAll env [] s s
  | cons {c cs s s1 s2} : c.Sendable s → Succeeds env c s s1 → SucceedAll env cs s1 s2 → SucceedAll env (c :: cs) s s2

theorem Succeeds.wrote {env c s s'} (h : Succeeds env c s s') (hs : c.Sendable s) :
    s'.out.written = s.out.written ++ (c.frame env s).encode ∧
    s' = { s with out := s'.out, rngPos := s.rngPos + if s.config.maskOutgoingMessages then 4 else 0 } := by
  cases h with
  | oneFrame h =>
    rename_i fin op m
    rw [sendOneFrame_getD] at h
    have := C04_sendOneFrame env fin op _ s s' (by exact hs) h
    exact this
  | other hc h =>
    obtain ⟨x, s1, e, _, h1, _⟩ := C04_C21_any_send env c hc s hs
    rw [h] at e
    injection e with e1 e2
    subst e2
    exact h1 e1.symm

/-- The frames of successive calls: call number `i` uses the random bytes `4*i .. 4*i+3` after the socket's position, if it
masks. -/
def framesFrom (env : Env) (masked : Bool) : Nat → List SendCall → List Frame
  | _, [] => []
  | pos, c :: cs =>
    { fin := c.content.1, opcode := c.content.2.1.toNat % 16,
      maskKey := if masked then some (maskBytesAt env pos) else none, payload := c.content.2.2 } ::
      framesFrom env masked (pos + 4) cs

theorem framesFrom_unmasked (env : Env) (cs : List SendCall) (p q : Nat) :
    framesFrom env false p cs = framesFrom env false q cs := by
  induction cs generalizing p q with
  | nil => rfl
  | cons c cs ih => simp only [framesFrom, ih (p + 4) (q + 4)]; rfl

/-- **C42, C33** (successive sends). The connection carries the frames of the calls, one after the other in call order. All
of them are masked or all unmasked, as configured; with masking, frame number `i` uses the four random bytes number
`4*i .. 4*i+3`, so that no byte of the random source is used twice. -/
theorem C42_sends (env : Env) (cs : List SendCall) (s s' : Sock) (h : SucceedAll env cs s s') :
    s'.out.written = s.out.written ++ wireOf (framesFrom env s.config.maskOutgoingMessages s.rngPos cs) ∧
    s'.config = s.config := by
  induction h with
  | nil => simp [wireOf, framesFrom]
  | @cons c cs s s1 s2 hs hc _ ih =>
    obtain ⟨w, e⟩ := hc.wrote hs
    have hcfg : s1.config = s.config := by rw [e]
    have hpos : s1.rngPos = s.rngPos + if s.config.maskOutgoingMessages then 4 else 0 := by rw [e]
    refine ⟨?_, by rw [ih.2, hcfg]⟩
    rw [ih.1, w, hcfg, hpos, List.append_assoc]
    congr 1
    unfold wireOf
    rw [framesFrom, List.flatMap_cons]
    congr 2
    cases s.config.maskOutgoingMessages with
    | true => rfl
    | false =>
      exact framesFrom_unmasked _ _ _ _

/-- **C42.** A socket made by the server-side constructor used by the connection handlers
(`createShared(connection, false)`) never masks. -/
theorem C42_server_unmasked (env : Env) (out : OutStream) (cs : List SendCall) (s' : Sock)
    (h : SucceedAll env cs (Sock.newMask false out) s') :
    ∃ fs, s'.out.written = out.written ++ wireOf fs ∧ fs.length = cs.length ∧ ∀ f ∈ fs, f.maskKey = none := by
  refine ⟨_, (C42_sends env cs _ _ h).1, ?_, ?_⟩
  · have : ∀ m p, (framesFrom env m p cs).length = cs.length := by
      intro m p
      clear h
      induction cs generalizing p with
      | nil => rfl
      | cons c cs ih => simp [framesFrom, ih]
    exact this _ _
  · have : ∀ p, ∀ f ∈ framesFrom env false p cs, f.maskKey = none := by
      intro p
      clear h
      induction cs generalizing p with
      | nil => intro f hf; cases hf
      | cons c cs ih =>
        intro f hf
        rcases List.mem_cons.mp hf with rfl | hf
        · rfl
        · exact ih _ f hf
    exact this _

example : ∃ s', SucceedAll Fixture.env [.text (some [1]), .ping none] (Sock.newMask false ⟨[9], Fixture.slow 13⟩) s' ∧
    ∃ fs, s'.out.written = [9] ++ wireOf fs ∧ fs.length = 2 ∧ ∀ f ∈ fs, f.maskKey = none :=
  have key : SucceedAll Fixture.env [.text (some [1]), .ping none] (Sock.newMask false ⟨[9], Fixture.slow 13⟩) _ :=
    .cons (by decide) (.other nofun rfl) (.cons (by decide) (.other nofun rfl) .nil)
  ⟨_, key, C42_server_unmasked Fixture.env ⟨[9], Fixture.slow 13⟩ _ _ key⟩

/-- **C42.** With masking configured, frame number `i` is masked with four fresh bytes of the random source. -/
theorem C42_client_masked (env : Env) (masked : Bool) (hm : masked = true) (pos : Nat) (cs : List SendCall) (i : Nat) (f : Frame)
    (h : (framesFrom env masked pos cs)[i]? = some f) :
    f.maskKey = some [env.rng (pos + 4 * i), env.rng (pos + 4 * i + 1), env.rng (pos + 4 * i + 2), env.rng (pos + 4 * i + 3)] := by
  subst hm
  induction cs generalizing pos i with
  | nil => cases h
  | cons c cs ih =>
    cases i with
    | zero => injection h with h; rw [← h]; rfl
    | succ i =>
      have := ih (pos + 4) i h
      rw [this]
      simp only [show pos + 4 + 4 * i = pos + 4 * (i + 1) by omega]

/-- **C42** (clients). With masking configured, what a sequence of successful sends puts on the connection is one frame for each call; all are masked, the `i`-th with the four bytes number `4i` to `4i + 3` behind the
position of the random source at the beginning, so that no byte is used twice. -/
theorem C42_client_keys (env : Env) (cs : List SendCall) (s s' : Sock) (hm : s.config.maskOutgoingMessages = true) (h : SucceedAll env cs s s') :
    ∃ fs, s'.out.written = s.out.written ++ wireOf fs ∧ fs.length = cs.length ∧
      ∀ (i : Nat) (f : Frame), fs[i]? = some f → f.maskKey =
        some [env.rng (s.rngPos + 4 * i), env.rng (s.rngPos + 4 * i + 1), env.rng (s.rngPos + 4 * i + 2), env.rng (s.rngPos + 4 * i + 3)] := by
  refine ⟨_, (C42_sends env cs s s' h).1, ?_, fun i f hf => C42_client_masked env _ hm _ cs i f hf⟩
  have : ∀ m p, (framesFrom env m p cs).length = cs.length := by
    intro m p
    clear h
    induction cs generalizing p with
    | nil => rfl
    | cons c cs ih => simp [framesFrom, ih]
  exact this _ _

/-- Two masked sends in a row. -/
example : ∃ s', SucceedAll Fixture.env [.text (some [1]), .ping none] (Sock.new { maskOutgoingMessages := true } ⟨[], Fixture.slow 13⟩) s' ∧
    s'.out.written = [0x81, 0x81, 3, 20, 37, 54, 2] ++ [0x89, 0x80, 71, 88, 105, 122] := by
  refine ⟨_, .cons (by decide) (.other nofun rfl) (.cons (by decide) (.other nofun rfl) .nil), by decide⟩

end OatWS
