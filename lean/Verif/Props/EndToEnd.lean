import Verif.Props.Reject
import Verif.Props.Send
import Verif.Proofs.Truncate
import Verif.Spec.Messages
/-! # C24 - C26: from the sender's calls to the receiver's callbacks -/

namespace OatWS
open RFC6455

theorem reassemble_pieces {l B op d evs} (h : DataCallbacks l B op d evs) (acc : List UInt8) (rest : List Event) :
    reassemble acc (evs ++ rest) = reassemble (acc ++ d) rest := by
  obtain ⟨opc, chunks, rfl, rfl, hc, rfl⟩ := h
  induction chunks generalizing acc with
  | nil => simp
  | cons c cs ih =>
    have hpos := (hc c (by simp)).1
    cases c with
    | nil => simp at hpos
    | cons b bs =>
      rw [List.map_cons, List.cons_append, reassemble, ih _ (fun c hcm => hc c (by simp [hcm]))]
      simp

/-- The message a single-frame message frame stands for. -/
def frameMsg (f : Frame) : Msg :=
  if f.opcode = 9 then .ping f.payload else if f.opcode = 10 then .pong f.payload
  else .data (UInt8.ofNat f.opcode) f.payload

theorem reassemble_frames {l B fs evs o o'} (ha : AcceptedAll o fs o') (hfin : ∀ f ∈ fs, f.fin = true)
    (h : FramesEvents l B fs evs) (rest : List Event) :
    reassemble [] (evs ++ rest) = (fs.map frameMsg ++ (reassemble [] rest).1, (reassemble [] rest).2) := by
  induction ha generalizing evs with
  | nil => rw [show evs = [] from h]; rfl
  | @cons o f fs o' hv hacc h8 _ ih =>
    obtain ⟨e, es, rfl, h1, h2⟩ := h
    have ih' := ih (fun g hg => hfin g (by simp [hg])) h2
    have hf := hfin f (by simp)
    unfold FrameEvents at h1
    rw [hf] at h1
    rw [List.append_assoc]
    split at h1 <;> rename_i h9
    · rw [h1]; simp [reassemble, ih', frameMsg, h9]
    · split at h1 <;> rename_i h10
      · rw [h1]; simp [reassemble, ih', frameMsg, h10]
      · obtain ⟨pieces, hd, rfl⟩ := h1
        rw [List.append_assoc, reassemble_pieces hd]
        simp [reassemble, ih', frameMsg, h9, h10]

theorem events_to {l B fs evs} (h : FramesEvents l B fs evs) : ∀ e ∈ evs, e.to = l := by
  induction fs generalizing evs with
  | nil => rw [show evs = [] from h]; nofun
  | cons f fs ih =>
    obtain ⟨e, es, rfl, h1, h2⟩ := h
    intro x hx
    rcases List.mem_append.mp hx with hx | hx
    · unfold FrameEvents at h1
      split at h1
      · rw [h1] at hx; simp at hx; rw [hx]; rfl
      · split at h1
        · rw [h1] at hx; simp at hx; rw [hx]; rfl
        · split at h1
          · obtain ⟨c, _, h1⟩ := h1
            rw [h1] at hx; simp at hx; rw [hx]; rfl
          · obtain ⟨p, ⟨opc, chunks, _, _, _, rfl⟩, rfl⟩ := h1
            rcases List.mem_append.mp hx with hx | hx
            · obtain ⟨c, _, rfl⟩ := List.mem_map.mp hx; rfl
            · simp at hx; rw [hx.2]; rfl
    · exact ih h2 x hx

/-- The frame of a send call. -/
def callFrame (env : Env) (masked : Bool) (pos : Nat) (c : SendCall) : Frame :=
  { fin := c.content.1, opcode := c.content.2.1.toNat % 16,
    maskKey := if masked then some (maskBytesAt env pos) else none, payload := c.content.2.2 }

theorem callFrame_valid (env : Env) (masked : Bool) (pos : Nat) (c : SendCall) (h : c.content.2.2.length < 2 ^ 63) :
    (callFrame env masked pos c).Valid := by
  refine ⟨Nat.mod_lt _ (by omega), ?_, h⟩
  intro k hk
  simp only [callFrame] at hk
  split at hk
  · injection hk with hk; rw [← hk]; rfl
  · cases hk

theorem framesFrom_accepted (env : Env) (masked : Bool) (cs : List SendCall) (hm : ∀ c ∈ cs, c.isMessage)
    (hl : ∀ c ∈ cs, c.content.2.2.length < 2 ^ 63) (pos : Nat) :
    AcceptedAll false (framesFrom env masked pos cs) false ∧ (∀ f ∈ framesFrom env masked pos cs, f.fin = true) ∧
      (framesFrom env masked pos cs).map frameMsg = cs.map SendCall.msg := by
  induction cs generalizing pos with
  | nil => exact ⟨.nil, nofun, rfl⟩
  | cons c cs ih =>
    obtain ⟨i1, i2, i3⟩ := ih (fun c hc => hm c (by simp [hc])) (fun c hc => hl c (by simp [hc])) (pos + 4)
    have hv := callFrame_valid env masked pos c (hl c (by simp))
    have hc := hm c (by simp)
    have key : Accepted false (callFrame env masked pos c) ∧ (callFrame env masked pos c).opcode ≠ 8 ∧
        openAfterFrame false (callFrame env masked pos c) = false ∧ (callFrame env masked pos c).fin = true ∧
        frameMsg (callFrame env masked pos c) = c.msg := by
      cases c <;> first | exact hc.elim | skip
      · exact ⟨.inr ⟨.inr (.inl rfl), hc⟩, by simp [callFrame, SendCall.content], rfl, rfl, rfl⟩
      · exact ⟨.inr ⟨.inr (.inr rfl), hc⟩, by simp [callFrame, SendCall.content], rfl, rfl, rfl⟩
      · exact ⟨.inl ⟨.inr (.inl rfl), rfl⟩, by simp [callFrame, SendCall.content], rfl, rfl, rfl⟩
      · exact ⟨.inl ⟨.inr (.inr rfl), rfl⟩, by simp [callFrame, SendCall.content], rfl, rfl, rfl⟩
    obtain ⟨k1, k2, k3, k4, k5⟩ := key
    have i1' : AcceptedAll (openAfterFrame false (callFrame env masked pos c)) (framesFrom env masked (pos + 4) cs) false := by
      rw [k3]; exact i1
    refine ⟨.cons hv k1 k2 i1', ?_, ?_⟩
    · intro f hf
      rcases List.mem_cons.mp hf with rfl | hf
      · exact k4
      · exact i2 f hf
    · rw [framesFrom, List.map_cons, i3, List.map_cons]
      exact congrArg (· :: _) k5

theorem framesFrom_append (env : Env) (masked : Bool) (pos : Nat) (cs ds : List SendCall) :
    framesFrom env masked pos (cs ++ ds) =
      framesFrom env masked pos cs ++ framesFrom env masked (pos + 4 * cs.length) ds := by
  induction cs generalizing pos with
  | nil => simp [framesFrom]
  | cons c cs ih =>
    simp only [List.cons_append, framesFrom, ih, List.length_cons]
    rw [show pos + 4 + 4 * cs.length = pos + 4 * (cs.length + 1) by omega]

theorem SucceedAll.lengths {env cs s s'} (h : SucceedAll env cs s s') : ∀ c ∈ cs, c.content.2.2.length < 2 ^ 63 := by
  induction h with
  | nil => nofun
  | @cons c cs s s1 s2 hs _ _ ih =>
    intro d hd
    rcases List.mem_cons.mp hd with rfl | hd
    · have := hs.1
      cases d <;> exact this
    · exact ih d hd

theorem be2 (code : UInt16) (m : List UInt8) :
    fromBigEndian ((bigEndian 2 code.toNat ++ m).take 2) = code.toNat ∧ (bigEndian 2 code.toNat ++ m).drop 2 = m ∧
      2 ≤ (bigEndian 2 code.toNat ++ m).length := by
  have h2 : (bigEndian 2 code.toNat).length = 2 := rfl
  refine ⟨?_, ?_, ?_⟩
  · rw [List.take_left' h2]
    exact fromBigEndian_two _ code.toNat_lt
  · rw [List.drop_left' h2]
  · rw [List.length_append, h2]; omega

/-- The close frame of a close call decodes to its message. -/
theorem close_args (env : Env) (masked : Bool) (pos : Nat) (c : SendCall) (hc : c.isClose) :
    ∃ code reason, c.msg = .close code reason ∧ (callFrame env masked pos c).opcode = 8 ∧
      (callFrame env masked pos c).payload.length ≤ 125 ∧
      (callFrame env masked pos c).payload.drop 2 = reason ∧
      (if 2 ≤ (callFrame env masked pos c).payload.length then fromBigEndian ((callFrame env masked pos c).payload.take 2)
        else 0) = code.toNat := by
  cases c <;> first | exact hc.elim | skip
  · rename_i code m
    obtain ⟨b1, b2, b3⟩ := be2 code (m.getD [])
    refine ⟨code, m.getD [], rfl, rfl, ?_, b2, ?_⟩
    · change (bigEndian 2 code.toNat ++ m.getD []).length ≤ 125
      have : (m.getD []).length ≤ 123 := hc
      rw [List.length_append, show (bigEndian 2 code.toNat).length = 2 from rfl]; omega
    · exact (if_pos b3).trans b1
  · exact ⟨0, [], rfl, rfl, Nat.zero_le _, rfl, rfl⟩

/-! ## C24 -/

/-- **C24.** The sender, in any state, makes any sequence of text and binary messages and pings/pongs of at most 125 bytes,
ended or not by one close, and all the calls succeed. The receiver (no fragmented message open) listens on the bytes this
put on the wire. What its listener puts together from the callbacks is exactly the messages sent, in that order, each
once and with equal content, and nothing is left over. -/
theorem C24_end_to_end (envS : Env) (s s' : Sock) (cs last : List SendCall) (hcs : ∀ c ∈ cs, c.isMessage)
    (hlast : last = [] ∨ ∃ c, last = [c] ∧ c.isClose) (hsent : SucceedAll envS (cs ++ last) s s')
    (envR : Env) (h : Header) (st : St) (l B : Nat) (hU : Undisturbed envR st l B false)
    (hb : s'.out.written = s.out.written ++ st.inp.bytes) :
    ∃ evs st', listen envR h st = (.ret (), st') ∧ st'.sock.trace = st.sock.trace ++ evs ∧ (∀ e ∈ evs, e.to = l) ∧
      reassemble [] evs = ((cs ++ last).map SendCall.msg, []) ∧ st'.inp.bytes = [] := by
  have hw := (C42_sends envS _ _ _ hsent).1
  rw [hb] at hw
  have hw := List.append_cancel_left hw
  have hlen := hsent.lengths
  obtain ⟨a1, a2, a3⟩ := framesFrom_accepted envS s.config.maskOutgoingMessages cs hcs (fun c hc => hlen c (by simp [hc])) s.rngPos
  rcases hlast with rfl | ⟨c, rfl, hc⟩
  · rw [List.append_nil] at hw ⊢
    obtain ⟨evs, st', e, htr, hf, hbytes⟩ := C08_C09_frames_heard envR h st l B false false hU _ a1 hw
    refine ⟨evs, st', e, htr, events_to hf, ?_, hbytes⟩
    have := reassemble_frames a1 a2 hf []
    rw [List.append_nil] at this
    rw [this, a3]; simp [reassemble]
  · rw [framesFrom_append] at hw
    obtain ⟨code, reason, hmsg, h8, h125, hdrop, hcode⟩ := close_args envS s.config.maskOutgoingMessages
      (s.rngPos + 4 * cs.length) c hc
    have hv := callFrame_valid envS s.config.maskOutgoingMessages (s.rngPos + 4 * cs.length) c (hlen c (by simp))
    obtain ⟨evs, code', st', _, e, hf, htr, hbytes, hcode'⟩ := C16_close_ends_listening envR h st l B false false hU _ a1 _ hv h8 h125 []
      (by rw [hw, wireOf_append, List.append_nil]; exact congrArg (_ ++ ·) (wireOf_one _))
    rw [hcode] at hcode'
    have : code' = code := UInt16.toNat_inj.mp hcode'
    subst this
    refine ⟨_, st', e, htr, ?_, ?_, hbytes⟩
    · intro e he
      rcases List.mem_append.mp he with he | he
      · exact events_to hf e he
      · simp at he; rw [he]; rfl
    · rw [reassemble_frames a1 a2 hf, a3, hdrop]
      simp [reassemble, hmsg]

/-- A client sends a text, a ping, an empty binary message and a close. -/
def Fixture.calls : List SendCall := [.text (some [0x61, 0x62, 0x63]), .ping (some [1]), .binary none]
def Fixture.sender : Sock := Sock.new { maskOutgoingMessages := true } ⟨[], Fixture.slow 60⟩

example : ∃ s', SucceedAll Fixture.env (Fixture.calls ++ [.close 1000 (some [0x78])]) Fixture.sender s' ∧
    ∃ evs st', listen Fixture.env default (Fixture.receiving s'.out.written) = (.ret (), st') ∧ st'.sock.trace = [] ++ evs ∧
      (∀ e ∈ evs, e.to = 7) ∧
      reassemble [] evs = ([.text [0x61, 0x62, 0x63], .ping [1], .binary [], .close 1000 [0x78]], []) ∧ st'.inp.bytes = [] := by
  refine ⟨_, .cons (by decide) (.other nofun rfl) (.cons (by decide) (.other nofun rfl) (.cons (by decide) (.other nofun rfl)
    (.cons (by decide) (.other nofun rfl) .nil))), ?_⟩
  refine C24_end_to_end Fixture.env Fixture.sender _ Fixture.calls [.close 1000 (some [0x78])] ?_ (.inr ⟨_, rfl, show 1 ≤ 123 by decide⟩)
    (.cons (by decide) (.other nofun rfl) (.cons (by decide) (.other nofun rfl) (.cons (by decide) (.other nofun rfl)
    (.cons (by decide) (.other nofun rfl) .nil)))) _ _ _ 7 2 (Fixture.undisturbed _ (by decide +kernel)) rfl
  intro c hc
  simp only [Fixture.calls, List.mem_cons, List.not_mem_nil, or_false] at hc
  rcases hc with rfl | rfl | rfl
  · trivial
  · show 1 ≤ 125; decide
  · trivial

/-! ## C25 -/

/-- **C25.** After a successful `sendClose(code, reason)` with at most 123 bytes of reason, the peer that listens on these
bytes (fragmented message open or not) hears exactly one callback: `onClose` with this code and this reason. -/
theorem C25_close_round_trip (envS : Env) (s s' : Sock) (code : UInt16) (reason : Option (List UInt8))
    (hr : (reason.getD []).length ≤ 123) (hsent : send envS (.close code reason) s = (.ret (), s'))
    (envR : Env) (h : Header) (st : St) (l B : Nat) (o : Bool) (hU : Undisturbed envR st l B o)
    (hb : s'.out.written = s.out.written ++ st.inp.bytes) :
    ∃ st', listen envR h st = (.ret (), st') ∧ st'.sock.trace = st.sock.trace ++ [.onClose l code (reason.getD [])] := by
  have hS : (SendCall.close code reason).Sendable s := by
    have : (bigEndian 2 code.toNat ++ reason.getD []).length ≤ 125 := by
      rw [List.length_append, show (bigEndian 2 code.toNat).length = 2 from rfl]; omega
    exact ⟨Nat.lt_of_le_of_lt this (by decide), fun _ => Nat.lt_of_le_of_lt this (by decide)⟩
  have hw := (C42_sends envS _ _ _ (.cons hS (.other nofun hsent) .nil)).1
  rw [hb] at hw
  have hw := List.append_cancel_left hw
  obtain ⟨code', reason', hmsg, h8, h125, hdrop, hcode⟩ := close_args envS s.config.maskOutgoingMessages s.rngPos
    (.close code reason) hr
  injection hmsg with e1 e2
  subst e1 e2
  have hv := callFrame_valid envS s.config.maskOutgoingMessages s.rngPos (.close code reason) (Nat.lt_of_le_of_lt h125 (by decide))
  obtain ⟨evs, code', st', _, e, hf, htr, hbytes, hcode'⟩ := C16_close_ends_listening envR h st l B o o hU [] .nil _ hv h8 h125 []
    (by rw [hw, List.append_nil]; exact wireOf_one _)
  rw [hcode] at hcode'
  rw [show evs = [] from hf, hdrop, UInt16.toNat_inj.mp hcode'] at htr
  exact ⟨st', e, htr⟩

/-- **C25.** `sendClose()`, and any close frame with fewer than two payload bytes, is reported as code 0, empty reason. -/
theorem C25_short_close (envR : Env) (h : Header) (st : St) (l B : Nat) (o : Bool) (hU : Undisturbed envR st l B o)
    (f : Frame) (hv : f.Valid) (h8 : f.opcode = 8) (hl : f.payload.length < 2) (hb : st.inp.bytes = f.encode) :
    ∃ st', listen envR h st = (.ret (), st') ∧ st'.sock.trace = st.sock.trace ++ [.onClose l 0 []] := by
  obtain ⟨evs, code', st', _, e, hf, htr, hbytes, hcode'⟩ := C16_close_ends_listening envR h st l B o o hU [] .nil _ hv h8
    (by omega) [] (by rw [hb, List.append_nil]; rfl)
  rw [if_neg (by omega)] at hcode'
  rw [show evs = [] from hf, UInt16.toNat_inj.mp (hcode'.trans (by rfl : 0 = (0 : UInt16).toNat)),
    List.drop_eq_nil_of_le (by omega)] at htr
  exact ⟨st', e, htr⟩

theorem C25_sendClose_empty (envS : Env) (s s' : Sock) (hsent : send envS .closeEmpty s = (.ret (), s'))
    (envR : Env) (h : Header) (st : St) (l B : Nat) (o : Bool) (hU : Undisturbed envR st l B o)
    (hb : s'.out.written = s.out.written ++ st.inp.bytes) :
    ∃ st', listen envR h st = (.ret (), st') ∧ st'.sock.trace = st.sock.trace ++ [.onClose l 0 []] := by
  have hS : SendCall.closeEmpty.Sendable s := ⟨by decide, fun _ => by decide⟩
  have hw := (C42_sends envS _ _ _ (.cons hS (.other nofun hsent) .nil)).1
  rw [hb] at hw
  have hw := List.append_cancel_left hw
  exact C25_short_close envR h st l B o hU (callFrame envS s.config.maskOutgoingMessages s.rngPos .closeEmpty)
    (callFrame_valid _ _ _ _ (by decide)) rfl (by simp [callFrame, SendCall.content]) (by rw [hw]; exact wireOf_one _)

example : ∃ s', send Fixture.env (.close 4321 (some [0x78, 0x79])) Fixture.sender = (.ret (), s') ∧
    ∃ st', listen Fixture.env default (Fixture.receiving s'.out.written) = (.ret (), st') ∧
      st'.sock.trace = [] ++ [.onClose 7 4321 [0x78, 0x79]] :=
  ⟨_, rfl, C25_close_round_trip Fixture.env Fixture.sender _ 4321 (some [0x78, 0x79]) (by decide) rfl Fixture.env default
    _ 7 2 false (Fixture.undisturbed _ (by decide +kernel)) rfl⟩

/-- A close frame with a one-byte payload. -/
example : ∃ st', listen Fixture.env default (Fixture.receiving [0x88, 1, 0x55]) = (.ret (), st') ∧
    st'.sock.trace = [] ++ [.onClose 7 0 []] :=
  C25_short_close Fixture.env default _ 7 2 false (Fixture.undisturbed _ (by decide)) { fin := true, opcode := 8, payload := [0x55] }
    ⟨by decide, nofun, by decide⟩ rfl (by decide) rfl

/-! ## C26 -/

/-- **C26**, full statement: every control message that was sent without an error is heard by the peer. -/
def C26_statement : Prop := ∀ (envS : Env) (s s' : Sock) (c : SendCall), c.isControl → c.Sendable s →
  send envS c s = (.ret (), s') → ∀ (envR : Env) (h : Header) (st : St) (l B : Nat), Undisturbed envR st l B false →
    s'.out.written = s.out.written ++ st.inp.bytes →
    ∃ evs st', listen envR h st = (.ret (), st') ∧ st'.sock.trace = st.sock.trace ++ evs ∧ reassemble [] evs = ([c.msg], [])

/-- **C26**, what happens to every control message whose payload (for a close: 2 bytes more than the reason) exceeds 125
bytes: the send reports success, and the peer refuses the frame, with no callback. -/
theorem C26_actual (envS : Env) (s s' : Sock) (c : SendCall) (hc : c.isControl) (hS : c.Sendable s)
    (hlen : 125 < c.content.2.2.length) (hsent : send envS c s = (.ret (), s')) (envR : Env) (h : Header) (st : St) (l B : Nat)
    (o : Bool) (hU : Undisturbed envR st l B o) (hb : s'.out.written = s.out.written ++ st.inp.bytes) :
    ∃ st', listenBody envR h st = (.throw .controlTooLong, st') ∧ listen envR h st = (.ret (), st') ∧
      st'.sock.trace = st.sock.trace := by
  have hne : ∀ fin op m, c ≠ .oneFrame fin op m := by intro fin op m e; subst e; exact hc
  have hw := (C42_sends envS _ _ _ (.cons hS (.other hne hsent) .nil)).1
  rw [hb] at hw
  have hw := List.append_cancel_left hw
  have h63 := (SucceedAll.cons hS (.other hne hsent) .nil).lengths c (by simp)
  have hv := callFrame_valid envS s.config.maskOutgoingMessages s.rngPos c h63
  have hop : (callFrame envS s.config.maskOutgoingMessages s.rngPos c).opcode = 8 ∨
      (callFrame envS s.config.maskOutgoingMessages s.rngPos c).opcode = 9 ∨
      (callFrame envS s.config.maskOutgoingMessages s.rngPos c).opcode = 10 := by
    cases c <;> first | exact hc.elim | (simp [callFrame, SendCall.content])
  have hna : ¬ Accepted o (callFrame envS s.config.maskOutgoingMessages s.rngPos c) := by
    rintro (⟨hd, _⟩ | ⟨_, h125⟩)
    · unfold isDataOpcode at hd; omega
    · exact absurd h125 (Nat.not_le.mpr hlen)
  have hi := interpretFrame_refused o _ hv hna []
  rw [if_pos hop] at hi
  obtain ⟨evs, evs', x, st', e1, e2, hbytes, hf, hren, htr, hx, _⟩ := listen_then_over envR hU.tame hU.passive l B hU.pos h st
    hU.listener hU.size o o hU.isOpen hU.healthy [] _
    (by rw [hw]; exact (wireOf_one _).trans (List.append_nil _).symm) .nil _ _ _ hi
    (applyKey? (callFrame envS s.config.maskOutgoingMessages s.rngPos c).maskKey
      (callFrame envS s.config.maskOutgoingMessages s.rngPos c).payload)
    (by rw [List.append_nil, Frame.encode, Frame.headerLength, List.take_left' rfl])
  rw [show evs = [] from hf, hren.nil_inv] at htr
  rw [show x = .throw .controlTooLong from hx] at e1
  exact ⟨st', e1, e2, by simpa using htr⟩

/-- A ping of 126 bytes. -/
def Fixture.bigPing : SendCall := .ping (some (List.replicate 126 0))

def Fixture.bigSender : Sock := Sock.new {} ⟨[], [.upTo 999, .upTo 999, .upTo 999]⟩

theorem C26_witness : (send Fixture.env Fixture.bigPing Fixture.bigSender).1 = .ret () ∧
    Healthy ((send Fixture.env Fixture.bigPing Fixture.bigSender).2.out.written.length + 1)
      (Fixture.slow ((send Fixture.env Fixture.bigPing Fixture.bigSender).2.out.written.length + 1)) ∧
    Fixture.bigPing.Sendable Fixture.bigSender ∧ 125 < Fixture.bigPing.content.2.2.length := by decide +kernel

/-- **C26** is false of the code: a ping of 126 bytes is sent without an error and never heard. -/
theorem C26_violated : ¬ C26_statement := by
  intro hall
  obtain ⟨w1, w2, w3, w4⟩ := C26_witness
  generalize hsent : send Fixture.env Fixture.bigPing Fixture.bigSender = x at w1 w2
  obtain ⟨x1, s'⟩ := x
  simp only [] at w1 w2
  subst w1
  have hU := Fixture.undisturbed s'.out.written w2
  have hb : s'.out.written = Fixture.bigSender.out.written ++ (Fixture.receiving s'.out.written).inp.bytes := rfl
  obtain ⟨evs, st', e, htr, hr⟩ := hall _ _ _ Fixture.bigPing trivial w3 hsent Fixture.env default _ 7 2 hU hb
  obtain ⟨st2, _, e2, htr2⟩ := C26_actual _ _ _ Fixture.bigPing trivial w3 w4 hsent Fixture.env default _ 7 2 false hU hb
  rw [e] at e2
  injection e2 with _ e2
  subst e2
  rw [htr2] at htr
  have : evs = [] := by simpa using htr
  subst this
  change (([], []) : List Msg × List UInt8) = _ at hr
  injection hr with hr _
  cases hr

/-- **C26**, the part that holds: control messages whose payload has at most 125 bytes are heard. -/
theorem C26_partial (envS : Env) (s s' : Sock) (c : SendCall) (hc : c.isControl) (hS : c.Sendable s)
    (hlen : c.content.2.2.length ≤ 125) (hsent : send envS c s = (.ret (), s')) (envR : Env) (h : Header) (st : St) (l B : Nat)
    (hU : Undisturbed envR st l B false) (hb : s'.out.written = s.out.written ++ st.inp.bytes) :
    ∃ evs st', listen envR h st = (.ret (), st') ∧ st'.sock.trace = st.sock.trace ++ evs ∧
      reassemble [] evs = ([c.msg], []) := by
  have hne : ∀ fin op m, c ≠ .oneFrame fin op m := by intro fin op m e; subst e; exact hc
  have hall : SucceedAll envS [c] s s' := .cons hS (.other hne hsent) .nil
  have : (∃ cs last, [c] = cs ++ last ∧ (∀ c ∈ cs, c.isMessage) ∧ (last = [] ∨ ∃ c, last = [c] ∧ c.isClose)) := by
    cases c <;> first | exact hc.elim | skip
    · refine ⟨[], _, rfl, nofun, .inr ⟨_, rfl, ?_⟩⟩
      rename_i code m
      have : (bigEndian 2 code.toNat ++ m.getD []).length ≤ 125 := hlen
      rw [List.length_append, show (bigEndian 2 code.toNat).length = 2 from rfl] at this
      show (m.getD []).length ≤ 123
      omega
    · exact ⟨[], _, rfl, nofun, .inr ⟨_, rfl, trivial⟩⟩
    · exact ⟨[_], [], rfl, by intro c hc; simp at hc; subst hc; exact hlen, .inl rfl⟩
    · exact ⟨[_], [], rfl, by intro c hc; simp at hc; subst hc; exact hlen, .inl rfl⟩
  obtain ⟨cs, last, e, h1, h2⟩ := this
  rw [e] at hall
  obtain ⟨evs, st', r1, r2, _, r3, _⟩ := C24_end_to_end envS s s' cs last h1 h2 hall envR h st l B hU hb
  rw [← e] at r3
  exact ⟨evs, st', r1, r2, r3⟩

example : ∃ s', send Fixture.env (.ping (some [1, 2, 3])) Fixture.sender = (.ret (), s') ∧
    ∃ evs st', listen Fixture.env default (Fixture.receiving s'.out.written) = (.ret (), st') ∧ st'.sock.trace = [] ++ evs ∧
      reassemble [] evs = ([.ping [1, 2, 3]], []) :=
  ⟨_, rfl, C26_partial Fixture.env Fixture.sender _ (.ping (some [1, 2, 3])) trivial (by decide) (by decide) rfl Fixture.env default
    _ 7 2 (Fixture.undisturbed _ (by decide +kernel)) rfl⟩

end OatWS
