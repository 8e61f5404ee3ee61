import Verif.Model.Polling
import Verif.Props.Polling
import Verif.Proofs.AsyncHeader
/-! # C91: what the caller's header object says after a call of `iterateFrame` -/

namespace OatWS
open RFC6455

theorem HdrOf.says {hd : Hdr} {h : Header} (hh : HdrOf hd h) : Says h hd := by
  refine ⟨hh.fin, ⟨hh.rsv1, hh.rsv2, hh.rsv3⟩, hh.opcode, ?_, ?_, ?_⟩
  · have := hh.key
    unfold Header.key at this
    rw [← this]
    cases h.hasMask <;> rfl
  · intro key hkey
    have := hh.key
    unfold Header.key at this
    rw [hkey] at this
    split at this
    · injection this
    · cases this
  · intro hl
    rw [hh.len]
    exact toInt64_small hl

/-- The exit of a call, with a value. -/
def Exit.with {α β : Type} (b : β) : Exit α → Exit β
  | .ret _ => .ret b
  | .throw e => .throw e
  | .block => .block
  | .ub u => .ub u

theorem bits_says (env : Env) (b0 b1 : UInt8) (h : Header) (rest : List UInt8) (hd : Hdr) (r : List UInt8) (hp : parseHdr (b0 :: b1 :: rest) = some (hd, r)) :
    SaysBits (unpackHeaderBits (hton16 env.host (load16 env.host b0 b1)) h).1 hd := by
  have hb0 := u8_lt b0
  have hb1 := u8_lt b1
  have hu := unpackHeaderBits_eq (hton16 env.host (load16 env.host b0 b1)) h
  rw [hton16_load16] at hu
  rw [hu]
  have e2 : (256 * b0.toNat + b1.toNat) / 128 % 2 = 1 ↔ 128 ≤ b1.toNat := by omega
  have e3 : (256 * b0.toNat + b1.toNat) / 256 % 16 = b0.toNat % 16 := by omega
  have e4 : (256 * b0.toNat + b1.toNat) / 32768 % 2 = 1 ↔ 128 ≤ b0.toNat := by omega
  have e5 : (256 * b0.toNat + b1.toNat) / 16384 % 2 = b0.toNat / 64 % 2 := by omega
  have e6 : (256 * b0.toNat + b1.toNat) / 8192 % 2 = b0.toNat / 32 % 2 := by omega
  have e7 : (256 * b0.toNat + b1.toNat) / 4096 % 2 = b0.toNat / 16 % 2 := by omega
  have hop : (UInt8.ofNat (b0.toNat % 16)).toNat = b0.toNat % 16 := ofNat8 (by omega)
  simp only [e2, e3, e4, e5, e6, e7]
  dsimp only [parseHdr] at hp
  cases hl : parseLength (b1.toNat % 128) rest with
  | none => rw [hl] at hp; cases hp
  | some lr =>
    rw [hl] at hp
    dsimp only [Option.bind] at hp
    cases hk : parseKey (128 ≤ b1.toNat) lr.2 with
    | none => rw [hk] at hp; cases hp
    | some kr =>
      rw [hk] at hp
      injection hp with hp
      injection hp with hp _
      subst hp
      refine ⟨rfl, ⟨rfl, rfl, rfl⟩, hop, ?_⟩
      dsimp only
      unfold parseKey at hk
      by_cases hm : 128 ≤ b1.toNat
      · simp only [hm, decide_true, if_true] at hk ⊢
        cases ht : takeN 4 lr.2 with
        | none => rw [ht] at hk; cases hk
        | some kr' => rw [ht] at hk; injection hk with hk; subst hk; rfl
      · simp only [hm, decide_false] at hk ⊢
        injection hk with hk
        subst hk
        rfl

/-- What `connReadExact` does. -/
theorem connReadExact_cases (n : Nat) (st : St) :
    (∃ sc, n ≤ st.inp.bytes.length ∧ connReadExact n st = (.ret (st.inp.bytes.take n), st.read n sc)) ∨
    (∃ k sc, k < n ∧ k ≤ st.inp.bytes.length ∧ (connReadExact n st = (.ret (st.inp.bytes.take k), st.read k sc) ∨ connReadExact n st = (.block, st.read k sc))) := by
  unfold connReadExact
  rcases readExact_spec st.inp.sched st.inp.bytes n [] with ⟨sc, h1, h2, _⟩ | ⟨k, sc, h1, h2, _, h3, _⟩
  · exact .inl ⟨sc, h1, by rw [h2]; rfl⟩
  · rcases h3 with h3 | ⟨h3, _⟩
    · exact .inr ⟨k, sc, h1, h2, .inl (by rw [h3]; rfl)⟩
    · exact .inr ⟨k, sc, h1, h2, .inr (by rw [h3]; rfl)⟩

theorem connReadExact_le (n : Nat) (st : St) : (connReadExact n st).2.inp.bytes.length ≤ st.inp.bytes.length := by
  rcases connReadExact_cases n st with ⟨_, _, h1⟩ | ⟨_, _, _, _, h1 | h1⟩ <;> rw [h1] <;> simp [St.read]

/-- The part of `readFrameHeader` behind the length. -/
theorem maskInto (env : Env) (h : Header) (st : St) :
    let m := (if h.hasMask then P.bind (onSt (connReadExact 4)) (fun key => P.bind (storeHeader { h with mask := h.mask.overwrite key }) fun _ => match key with
      | [_, _, _, _] => (Pure.pure () : P StH Unit)
      | _ => P.fail .maskRead) else Pure.pure ()) (st, h)
    (∃ h' st', Async.maskTail h st = (.ret h', st') ∧ m = (.ret (), (st', h'))) ∨
    (∃ st' h', Async.maskTail h st = (.throw .maskRead, st') ∧ m = (.throw .maskRead, (st', h')) ∧ st'.inp.bytes.length ≤ st.inp.bytes.length ∧ ∃ k, h' = { h with mask := k }) ∨
    (∃ st' h', Async.maskTail h st = (.block, st') ∧ m = (.block, (st', h'))) := by
  unfold Async.maskTail
  cases hm : h.hasMask with
  | false => exact .inl ⟨h, st, rfl, rfl⟩
  | true =>
    simp only [if_true]
    rw [P.bind_apply, P.bind_apply]
    unfold onSt
    have hle := connReadExact_le 4 st
    rcases hc : connReadExact 4 st with ⟨(bs | _ | _ | _), st'⟩ <;> rw [hc] at hle
    · match bs with
      | [a, b, c, d] => exact .inl ⟨_, _, rfl, rfl⟩
      | [] => exact .inr (.inl ⟨_, _, rfl, rfl, hle, _, rfl⟩)
      | [_] => exact .inr (.inl ⟨_, _, rfl, rfl, hle, _, rfl⟩)
      | [_, _] => exact .inr (.inl ⟨_, _, rfl, rfl, hle, _, rfl⟩)
      | [_, _, _] => exact .inr (.inl ⟨_, _, rfl, rfl, hle, _, rfl⟩)
      | _ :: _ :: _ :: _ :: _ :: _ => exact .inr (.inl ⟨_, _, rfl, rfl, hle, _, rfl⟩)
    · rcases connReadExact_cases 4 st with ⟨_, _, h1⟩ | ⟨_, _, _, _, h1 | h1⟩ <;> rw [h1] at hc <;> cases hc
    · exact .inr (.inr ⟨_, _, rfl, rfl⟩)
    · rcases connReadExact_cases 4 st with ⟨_, _, h1⟩ | ⟨_, _, _, _, h1 | h1⟩ <;> rw [h1] at hc <;> cases hc

theorem read_le (st : St) (k : Nat) (sc : List IoOutcome) : (st.read k sc).inp.bytes.length ≤ st.inp.bytes.length := by simp [St.read]

theorem readFrameHeaderInto_eq (env : Env) : readFrameHeaderInto env = P.bind (onSt (connReadExact 2)) (fun bs => match bs with
    | [b0, b1] => P.bind theHeader fun h => P.bind (storeHeader (unpackHeaderBits (hton16 env.host (load16 env.host b0 b1)) h).1) fun _ =>
        P.bind (onSt (readLength env (unpackHeaderBits (hton16 env.host (load16 env.host b0 b1)) h).2)) fun len =>
          P.bind (storeHeader { (unpackHeaderBits (hton16 env.host (load16 env.host b0 b1)) h).1 with payloadLength := len }) fun _ =>
            if (unpackHeaderBits (hton16 env.host (load16 env.host b0 b1)) h).1.hasMask then
              P.bind (onSt (connReadExact 4)) (fun key => P.bind (storeHeader { (unpackHeaderBits (hton16 env.host (load16 env.host b0 b1)) h).1 with payloadLength := len, mask := (unpackHeaderBits (hton16 env.host (load16 env.host b0 b1)) h).1.mask.overwrite key }) fun _ => match key with
                | [_, _, _, _] => (Pure.pure () : P StH Unit)
                | _ => P.fail .maskRead)
            else Pure.pure ()
    | _ => P.fail .headerRead) := rfl

/-- `readFrameHeader`, with the header object: the same, and what is in the object. -/
theorem readInto (env : Env) (h : Header) (st : St) :
    (∃ h' st', readFrameHeader env h st = (.ret h', st') ∧ readFrameHeaderInto env (st, h) = (.ret (), (st', h'))) ∨
    (∃ e st' h', readFrameHeader env h st = (.throw e, st') ∧ readFrameHeaderInto env (st, h) = (.throw e, (st', h')) ∧
      ((h' = h ∧ st.inp.bytes.length < st'.inp.bytes.length + 2) ∨
       (st'.inp.bytes.length + 2 ≤ st.inp.bytes.length ∧ ∃ b0 b1 rest len k, st.inp.bytes = b0 :: b1 :: rest ∧
         h' = { (unpackHeaderBits (hton16 env.host (load16 env.host b0 b1)) h).1 with payloadLength := len, mask := k }))) ∨
    (∃ st' h', readFrameHeader env h st = (.block, st') ∧ readFrameHeaderInto env (st, h) = (.block, (st', h'))) := by
  rw [Async.readFrameHeader_eq, readFrameHeaderInto_eq, P.bind_apply, P.bind_apply]
  have ho : ∀ {α : Type} (m : P St α) (s : St) (hx : Header), onSt m (s, hx) = ((m s).1, ((m s).2, hx)) := fun _ _ _ => rfl
  rw [ho]
  rcases connReadExact_cases 2 st with ⟨sc, hl, h1⟩ | ⟨k, sc, hk, hl, h1 | h1⟩
  · rw [h1]
    match hb : st.inp.bytes, hl with
    | b0 :: b1 :: rest, _ =>
      dsimp only [List.take]
      rw [P.bind_apply, P.bind_apply]
      dsimp only [theHeader]
      rw [P.bind_apply]
      dsimp only [storeHeader]
      rw [P.bind_apply, ho]
      have hu := unpackHeaderBits_eq (hton16 env.host (load16 env.host b0 b1)) h
      have hm : (unpackHeaderBits (hton16 env.host (load16 env.host b0 b1)) h).2.toNat < 128 := by
        rw [hu]
        dsimp only
        rw [ofNat8 (by omega)]
        omega
      have hrl := (readLength_reads env (unpackHeaderBits (hton16 env.host (load16 env.host b0 b1)) h).2 hm (st.read 2 sc)).outcome
      rcases hu2 : unpackHeaderBits (hton16 env.host (load16 env.host b0 b1)) h with ⟨u, l1⟩
      rw [hu2] at hrl
      dsimp only at hrl ⊢
      have hb2 : (st.read 2 sc).inp.bytes.length + 2 = st.inp.bytes.length := by rw [hb]; simp [St.read, hb]
      rcases hrl with ⟨k, n, len, sc', hk, e, -⟩ | ⟨k, x, sc', hk, -, e, hx, -⟩
      · rw [e]
        dsimp only
        rw [P.bind_apply]
        have hb3 : ((st.read 2 sc).read k sc').inp.bytes.length + 2 ≤ st.inp.bytes.length := by
          have : ((st.read 2 sc).read k sc').inp.bytes.length ≤ (st.read 2 sc).inp.bytes.length := read_le _ _ _
          omega
        rcases maskInto env { u with payloadLength := len } ((st.read 2 sc).read k sc') with ⟨h', st', g1, g2⟩ | ⟨st', h', g1, g2, g3, m, g4⟩ | ⟨st', h', g1, g2⟩
        · exact .inl ⟨h', st', g1, g2⟩
        · refine .inr (.inl ⟨_, st', h', g1, g2, .inr ⟨by rw [hb] at hb3; simp only [List.length_cons] at hb3 ⊢; omega, b0, b1, rest, len, m, rfl, (by rw [hu2]; exact g4)⟩⟩)
        · exact .inr (.inr ⟨st', h', g1, g2⟩)
      · rw [e]
        rcases hx with ⟨rfl, _⟩ | ⟨er, _, rfl⟩
        · exact .inr (.inr ⟨_, _, rfl, rfl⟩)
        · have hb3 : ((st.read 2 sc).read k sc').inp.bytes.length ≤ (st.read 2 sc).inp.bytes.length := read_le _ _ _
          exact .inr (.inl ⟨er, _, u, rfl, rfl, .inr ⟨by rw [hb] at hb2; simp only [List.length_cons] at hb2 ⊢; omega, b0, b1, rest, u.payloadLength, u.mask, rfl, (by rw [hu2])⟩⟩)
  · rw [h1]
    refine .inr (.inl ⟨.headerRead, st.read k sc, h, ?_, ?_, .inl ⟨rfl, by simp [St.read]; omega⟩⟩)
    · match hq : st.inp.bytes.take k with
      | [] => rfl
      | [_] => rfl
      | _ :: _ :: _ =>
        have := congrArg List.length hq
        simp only [List.length_take, List.length_cons] at this
        omega
    · match hq : st.inp.bytes.take k with
      | [] => rfl
      | [_] => rfl
      | _ :: _ :: _ =>
        have := congrArg List.length hq
        simp only [List.length_take, List.length_cons] at this
        omega
  · rw [h1]
    exact .inr (.inr ⟨_, _, rfl, rfl⟩)

/-- **C91** (the header object as part of the state). The call with its header object does what `iterateFrame` of the other theorems does. -/
theorem C91_into (env : Env) (h : Header) (st : St) :
    iterateFrame env h st = ((iterateFrameInto env (st, h)).1.with (iterateFrameInto env (st, h)).2.2, (iterateFrameInto env (st, h)).2.1) := by
  have e1 : iterateFrame env h st = P.bind (readFrameHeader env h) (fun h => P.bind (handleFrame env h) fun _ => Pure.pure h) st := rfl
  have e2 : iterateFrameInto env = P.bind (readFrameHeaderInto env) (fun _ => P.bind theHeader fun h => onSt (handleFrame env h)) := rfl
  rw [e1, e2, P.bind_apply, P.bind_apply]
  rcases readInto env h st with ⟨h', st', g1, g2⟩ | ⟨e, st', h', g1, g2, _⟩ | ⟨st', h', g1, g2⟩
  · rw [g1, g2]
    dsimp only
    rw [P.bind_apply, P.bind_apply]
    dsimp only [theHeader, onSt]
    rcases handleFrame env h' st' with ⟨(_ | _ | _ | _), s⟩ <;> rfl
  · rw [g1, g2]; rfl
  · rw [g1, g2]; rfl

/-- **C91** (after a call). Whether a call returns or throws: the object says what the frame's header says, if it could be read: so also if the frame was refused, a callback threw, or the payload could not be read. If not, the call
has thrown an error of reading and made no callback; the object is as before if less than two bytes could be read; otherwise it says what the two bytes say (and behind them whatever could be read). -/
theorem C91_object (env : Env) (h : Header) (st : St) (x : Exit Unit) (st' : St) (h' : Header) (e : iterateFrameInto env (st, h) = (x, (st', h'))) (hx : x ≠ .block) :
    (∃ hd rest, parseHdr st.inp.bytes = some (hd, rest) ∧ Says h' hd) ∨
    ((∃ er, er.isRead ∧ x = .throw er) ∧ st'.sock = st.sock ∧
      ((st.inp.bytes.length < st'.inp.bytes.length + 2 ∧ h' = h) ∨
       (st'.inp.bytes.length + 2 ≤ st.inp.bytes.length ∧ ∀ more hd rest, parseHdr (st.inp.bytes ++ more) = some (hd, rest) → SaysBits h' hd))) := by
  have e2 : iterateFrameInto env = P.bind (readFrameHeaderInto env) (fun _ => P.bind theHeader fun h => onSt (handleFrame env h)) := rfl
  rw [e2, P.bind_apply] at e
  have hr := (readFrameHeader_reads env h st).outcome
  rcases readInto env h st with ⟨h2, st2, g1, g2⟩ | ⟨er, st2, h2, g1, g2, g3⟩ | ⟨st2, h2, g1, g2⟩
  · rw [g2] at e
    dsimp only at e
    rw [P.bind_apply] at e
    dsimp only [theHeader, onSt] at e
    injection e with _ e
    injection e with _ e
    subst e
    rw [g1] at hr
    rcases hr with ⟨k, hd, a, sc, hk, q, hp, hh, -⟩ | ⟨k, y, sc, hk, -, q, hy, -⟩
    · injection q with q1 q2
      injection q1 with q1
      subst q1
      have hp' := hp (st.inp.bytes.drop k)
      rw [List.take_append_drop] at hp'
      exact .inl ⟨hd, _, hp', hh.says⟩
    · injection q with q1 q2
      subst q1
      rcases hy with ⟨hy, _⟩ | ⟨_, _, hy⟩ <;> cases hy
  · rw [g2] at e
    injection e with e0 e
    injection e with e1 e2
    subst e0 e1 e2
    rw [g1] at hr
    rcases hr with ⟨k, hd, a, sc, hk, q, -⟩ | ⟨k, y, sc, hk, -, q, hy, -⟩
    · injection q with q1 _; cases q1
    · injection q with q1 q2
      subst q1
      rcases hy with ⟨hy, _⟩ | ⟨e3, hrd, hy⟩
      · cases hy
      · refine .inr ⟨⟨e3, hrd, by injection hy with hy; rw [hy]⟩, by rw [q2]; rfl, ?_⟩
        rcases g3 with ⟨g3, g4⟩ | ⟨g3, b0, b1, rest, len, m, g5, g6⟩
        · exact .inl ⟨g4, g3⟩
        · refine .inr ⟨g3, fun more hd r hp => ?_⟩
          rw [g5] at hp
          have := bits_says env b0 b1 h (rest ++ more) hd r hp
          rw [g6]
          exact ⟨this.fin, this.rsv, this.opcode, this.masked⟩
  · rw [g2] at e
    injection e with e0 _
    exact absurd e0.symm hx

/-- **C91** (the refused frame). So a call that refuses a frame tells the caller which frame it was: it throws the reason, and the header object contains the header that is refused. -/
theorem C91_refused_object (env : Env) (h : Header) (st : St) (o : Bool) (ho : OpenIs o st.sock.lastOpcode) (hd : Hdr) (rest : List UInt8) (hh : parseHdr st.inp.bytes = some (hd, rest))
    (e : Err) (hr : refusal o hd = some e) (hs : Healthy (st.inp.bytes.length + 1) st.inp.sched) :
    ∃ st' h', iterateFrameInto env (st, h) = (.throw e, (st', h')) ∧ st'.sock = st.sock ∧ st'.inp.bytes = rest ∧ Says h' hd := by
  obtain ⟨st', he, hb', hs'⟩ := C49_refused_for_reason env h st o ho hd rest hh e hr hs
  have hpe : ¬ e.isRead := by
    unfold refusal at hr
    repeat' split at hr
    all_goals (first | (cases hr; done) | (injection hr with hr; subst hr; exact id))
  rw [C91_into] at he
  rcases hq : iterateFrameInto env (st, h) with ⟨x, s, h'⟩
  rw [hq] at he
  injection he with h1 h2
  dsimp only at h1 h2
  subst h2
  have hx : x = .throw e := by cases x <;> cases h1; rfl
  subst hx
  rcases C91_object env h st _ _ _ hq (by intro h; cases h) with ⟨hd', r', p1, p2⟩ | ⟨⟨er, h3, h4⟩, _⟩
  · rw [hh] at p1
    injection p1 with p1
    injection p1 with p1 _
    subst p1
    exact ⟨_, h', rfl, hs', hb', p2⟩
  · injection h4 with h4
    rw [← h4] at h3
    exact absurd h3 hpe

/-! ## Concrete cases -/

/-- The hypotheses of `C91_refused_object` are met: the reserved opcode 3. -/
example : ∃ st' h', iterateFrameInto Fixture.stopper (Fixture.receiving [0x83, 0x01, 0x7], default) = (.throw .unknownFrame, (st', h')) ∧ st'.inp.bytes = [0x7] ∧ h'.opcode.toNat = 3 := by
  obtain ⟨st', h', h1, _, h2, h3⟩ := C91_refused_object Fixture.stopper default (Fixture.receiving [0x83, 0x01, 0x7]) false rfl ⟨true, false, false, false, 3, none, 1⟩ [0x7] (by decide) .unknownFrame (by decide)
    (by decide)
  exact ⟨st', h', h1, h2, h3.opcode⟩

/-- The hypotheses of `C91_object` are met, in the case that the header is cut off behind two bytes: the object says "text, masked", the length is that from before. -/
example : (match iterateFrameInto Fixture.stopper (Fixture.receiving [0x81, 0xfe, 0x1], { (default : Header) with payloadLength := 77 }) with
    | (x, (_, h')) => (x == .throw .len2Read, h'.opcode, h'.hasMask, h'.payloadLength)) = (true, 1, true, 77) := by decide +kernel

end OatWS
