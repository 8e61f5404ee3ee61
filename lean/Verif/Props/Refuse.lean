import Verif.Proofs.LastOpcode
import Verif.Spec.Fragmentation
import Verif.Spec.Fixtures
import Verif.Proofs.Truncate
/-! # C10, C11, C12 for every listener; C49, C50: exactly which frames are refused -/

namespace OatWS
open RFC6455

theorem header_rest {bs : List UInt8} {k : Nat} {hd hd' : Hdr} {rest : List UInt8}
    (hp : parseHdr bs = some (hd, rest)) (hk : ∀ tail, parseHdr (bs.take k ++ tail) = some (hd', tail)) :
    hd' = hd ∧ bs.drop k = rest := by
  have := hk (bs.drop k)
  rw [List.take_append_drop, hp] at this
  injection this with this
  injection this with h1 h2
  exact ⟨h1.symm, h2.symm⟩

theorem header_unread {bs : List UInt8} {k : Nat} {hd : Hdr} {rest : List UInt8}
    (hp : parseHdr bs = some (hd, rest)) (hk : parseHdr (bs.take k) = none) : rest <:+ bs.drop k := by
  obtain ⟨a, e, hy⟩ := parseHdr_prefix hp
  by_cases hka : k ≤ a.length
  · refine ⟨a.drop k, ?_⟩
    rw [e, List.drop_append, Nat.sub_eq_zero_of_le hka, List.drop_zero]
  · exfalso
    have e2 : bs.take k = a ++ rest.take (k - a.length) := by
      rw [e, List.take_append, List.take_of_length_le (by omega)]
    rw [e2, hy] at hk
    cases hk

/-- A frame to be refused: for every listener, configuration and schedule, the socket is left exactly as it was (no callback, no
write, nothing changed), at most the header is consumed, and the error is the protocol error unless the connection fails before
the header is complete. -/
theorem refused_any (env : Env) (h : Header) (st : St) (o : Bool) (ho : OpenIs o st.sock.lastOpcode) (hd : Hdr) (rest : List UInt8)
    (hp : parseHdr st.inp.bytes = some (hd, rest)) (e : Err) (hr : refusal o hd = some e) :
    ∃ x st', iterateFrame env h st = (x, st') ∧ st'.sock = st.sock ∧ rest <:+ st'.inp.bytes ∧
      (x = .throw e ∧ st'.inp.bytes = rest ∨ x = .block ∨ ∃ e', e'.isRead ∧ x = .throw e') ∧
      (Healthy (st.inp.bytes.length + 1) st.inp.sched → x = .throw e ∧ st'.inp.bytes = rest) := by
  rcases iterateFrame_header env h st with ⟨k, hd', h', sc, _, hk, hh, he⟩ | ⟨k, x, sc, _, he, hk, hx, hall⟩
  · obtain ⟨rfl, hrest⟩ := header_rest hp hk
    have := handleFrame_refused env hh (st.read k sc) (o := o) ho hr
    rw [he, P.bind_apply, this]
    refine ⟨_, _, rfl, rfl, ?_, .inl ⟨rfl, hrest⟩, fun _ => ⟨rfl, hrest⟩⟩
    show rest <:+ st.inp.bytes.drop k
    rw [hrest]; exact List.suffix_refl _
  · refine ⟨x, _, he, rfl, header_unread hp hk, .inr (hx.imp (fun h => h.1) id), fun hH => ?_⟩
    have := hall (hH.mono (by omega))
    rw [this, List.take_length, hp] at hk
    cases hk

/-- A listener that answers every callback with a ping, changes the listener and throws. -/
def Fixture.wild : Env := { Fixture.env with react := fun _ => [.send (.ping none) true, .setListener none, .throw] }

/-- **C10** for every listener, configuration and schedule: a ping, pong or close header announcing 126 or more bytes. -/
theorem C10_any_listener (env : Env) (h : Header) (st : St) (o : Bool) (ho : OpenIs o st.sock.lastOpcode) (hd : Hdr) (rest : List UInt8)
    (hp : parseHdr st.inp.bytes = some (hd, rest)) (hc : hd.opcode = 8 ∨ hd.opcode = 9 ∨ hd.opcode = 10)
    (hlen : 126 ≤ hd.len) (hlen' : hd.len < 2 ^ 63) :
    ∃ x st', iterateFrame env h st = (x, st') ∧ st'.sock = st.sock ∧ rest <:+ st'.inp.bytes ∧
      (x = .throw .controlTooLong ∧ st'.inp.bytes = rest ∨ x = .block ∨ ∃ e', e'.isRead ∧ x = .throw e') ∧
      (Healthy (st.inp.bytes.length + 1) st.inp.sched → x = .throw .controlTooLong ∧ st'.inp.bytes = rest) := by
  refine refused_any env h st o ho hd rest hp _ ?_
  unfold refusal
  rw [if_neg (by omega), if_neg (by omega), if_pos hc, if_pos ⟨hlen, hlen'⟩]

/-- **C11** for every listener, configuration and schedule: a reserved opcode. -/
theorem C11_any_listener (env : Env) (h : Header) (st : St) (o : Bool) (ho : OpenIs o st.sock.lastOpcode) (hd : Hdr) (rest : List UInt8)
    (hp : parseHdr st.inp.bytes = some (hd, rest))
    (hop : (3 ≤ hd.opcode ∧ hd.opcode ≤ 7) ∨ (11 ≤ hd.opcode ∧ hd.opcode ≤ 15)) :
    ∃ x st', iterateFrame env h st = (x, st') ∧ st'.sock = st.sock ∧ rest <:+ st'.inp.bytes ∧
      (x = .throw .unknownFrame ∧ st'.inp.bytes = rest ∨ x = .block ∨ ∃ e', e'.isRead ∧ x = .throw e') ∧
      (Healthy (st.inp.bytes.length + 1) st.inp.sched → x = .throw .unknownFrame ∧ st'.inp.bytes = rest) := by
  refine refused_any env h st o ho hd rest hp _ ?_
  unfold refusal
  rw [if_neg (by omega), if_neg (by omega), if_neg (by omega)]

example : ∃ x st', iterateFrame Fixture.wild default (Fixture.receiving [0x8B, 0x01, 9]) = (x, st') ∧ st'.sock = (Fixture.receiving []).sock ∧ [9] <:+ st'.inp.bytes ∧
    (x = .throw .unknownFrame ∧ st'.inp.bytes = [9] ∨ x = .block ∨ ∃ e', e'.isRead ∧ x = .throw e') ∧
    (Healthy 4 (Fixture.slow 4) → x = .throw .unknownFrame ∧ st'.inp.bytes = [9]) :=
  C11_any_listener Fixture.wild default (Fixture.receiving [0x8B, 0x01, 9]) false rfl ⟨true, false, false, false, 11, none, 1⟩ [9] (by decide) (by decide)

/-- **C12** for every listener, configuration and schedule: a continuation frame when no message is open, a text or binary frame
when one is. -/
theorem C12_any_listener (env : Env) (h : Header) (st : St) (o : Bool) (ho : OpenIs o st.sock.lastOpcode) (hd : Hdr) (rest : List UInt8)
    (hp : parseHdr st.inp.bytes = some (hd, rest)) (e : Err)
    (hbad : hd.opcode = 0 ∧ o = false ∧ e = .continuationState ∨ (hd.opcode = 1 ∨ hd.opcode = 2) ∧ o = true ∧ e = .continuationExpected) :
    ∃ x st', iterateFrame env h st = (x, st') ∧ st'.sock = st.sock ∧ rest <:+ st'.inp.bytes ∧
      (x = .throw e ∧ st'.inp.bytes = rest ∨ x = .block ∨ ∃ e', e'.isRead ∧ x = .throw e') ∧
      (Healthy (st.inp.bytes.length + 1) st.inp.sched → x = .throw e ∧ st'.inp.bytes = rest) := by
  refine refused_any env h st o ho hd rest hp _ ?_
  unfold refusal
  rcases hbad with ⟨h0, rfl, rfl⟩ | ⟨h1, rfl, rfl⟩
  · rw [if_pos h0]; rfl
  · rw [if_neg (by omega), if_pos h1]; rfl

example : ∃ x st', iterateFrame Fixture.wild default (Fixture.receiving [0x8A, 0x7E, 0, 126, 1]) = (x, st') ∧
    st'.sock = (Fixture.receiving []).sock ∧ [1] <:+ st'.inp.bytes ∧
      (x = .throw .controlTooLong ∧ st'.inp.bytes = [1] ∨ x = .block ∨ ∃ e', e'.isRead ∧ x = .throw e') ∧
      (Healthy 6 (Fixture.slow 6) → x = .throw .controlTooLong ∧ st'.inp.bytes = [1]) :=
  C10_any_listener Fixture.wild default (Fixture.receiving [0x8A, 0x7E, 0, 126, 1]) false rfl
    ⟨true, false, false, false, 10, none, 126⟩ [1] (by decide) (by decide) (by decide) (by decide)

example : Healthy 6 (Fixture.slow 6) := by decide

example : parseHdr [0x8B, 0x01, 9] = some (⟨true, false, false, false, 11, none, 1⟩, [9]) ∧
    parseHdr [0x80, 0x01, 9] = some (⟨true, false, false, false, 0, none, 1⟩, [9]) ∧
    OpenIs false (Fixture.receiving [0x80, 0x01, 9]).sock.lastOpcode := ⟨by decide, by decide, rfl⟩

/-! ## C49 -/

/-- **C49.** `iterateFrame` throws one of the four protocol errors only when the bytes consumed are a complete header that is to be
refused with exactly this error (`refusal`, Spec/Refusal.lean), and then the socket is unchanged and nothing behind the header is
consumed. For every listener, configuration, byte stream and schedule. -/
theorem C49_refused_only_for_reason (env : Env) (h : Header) (st : St) (o : Bool) (ho : OpenIs o st.sock.lastOpcode) (e : Err) (st' : St)
    (he : iterateFrame env h st = (.throw e, st')) (hpe : e.isProtocol) :
    ∃ hd rest, parseHdr st.inp.bytes = some (hd, rest) ∧ refusal o hd = some e ∧ st'.inp.bytes = rest ∧ st'.sock = st.sock := by
  rcases iterateFrame_header env h st with ⟨k, hd, h', sc, _, hk, hh, hi⟩ | ⟨k, x, sc, _, hi, _, hx, _⟩
  · have hp := hk (st.inp.bytes.drop k)
    rw [List.take_append_drop] at hp
    rw [hi, P.bind_apply] at he
    cases hr : refusal o hd with
    | some e' =>
      rw [handleFrame_refused env hh (st.read k sc) (o := o) ho hr] at he
      simp only [] at he
      injection he with he1 he2
      injection he1 with he1
      subst he1 he2
      exact ⟨hd, _, hp, hr, rfl, rfl⟩
    | none =>
      have := handleFrame_plain env hh (st.read k sc) (o := o) ho hr
      rcases hf : handleFrame env h' (st.read k sc) with ⟨(_ | _ | _ | _), s'⟩ <;> rw [hf] at he this <;> simp only [] at he
      · cases he
      · injection he with he1 _
        injection he1 with he1
        subst he1
        exact absurd hpe this
      · cases he
      · cases he
  · rw [hi] at he
    injection he with he _
    subst he
    rcases hx with ⟨hx, _⟩ | ⟨e', her, hx⟩
    · cases hx
    · injection hx with hx
      subst hx
      cases e <;> first | exact absurd hpe id | exact absurd her id

/-- **C49**, the converse: a header that is to be refused is refused, with its error, once it is delivered. -/
theorem C49_refused_for_reason (env : Env) (h : Header) (st : St) (o : Bool) (ho : OpenIs o st.sock.lastOpcode) (hd : Hdr)
    (rest : List UInt8) (hp : parseHdr st.inp.bytes = some (hd, rest)) (e : Err) (hr : refusal o hd = some e)
    (hh : Healthy (st.inp.bytes.length + 1) st.inp.sched) :
    ∃ st', iterateFrame env h st = (.throw e, st') ∧ st'.inp.bytes = rest ∧ st'.sock = st.sock := by
  obtain ⟨x, st', h1, h2, _, _, h5⟩ := refused_any env h st o ho hd rest hp e hr
  obtain ⟨rfl, h6⟩ := h5 hh
  exact ⟨st', h1, h6, h2⟩

/-- A frame that is not to be refused never causes a protocol error. -/
theorem C49_not_refused (env : Env) (h : Header) (st : St) (o : Bool) (ho : OpenIs o st.sock.lastOpcode) (hd : Hdr)
    (rest : List UInt8) (hp : parseHdr st.inp.bytes = some (hd, rest)) (hr : refusal o hd = none) :
    ∀ e st', iterateFrame env h st = (.throw e, st') → ¬ e.isProtocol := by
  intro e st' he hpe
  obtain ⟨hd', rest', hp', hr', _⟩ := C49_refused_only_for_reason env h st o ho e st' he hpe
  rw [hp] at hp'
  injection hp' with hp'
  injection hp' with hp' _
  rw [← hp', hr] at hr'
  cases hr'

example : ∃ st', iterateFrame Fixture.wild default (Fixture.receiving [0x87, 0x01, 9]) = (.throw .unknownFrame, st') ∧ st'.inp.bytes = [9]
    ∧ st'.sock = (Fixture.receiving []).sock :=
  C49_refused_for_reason Fixture.wild default (Fixture.receiving [0x87, 0x01, 9]) false rfl ⟨true, false, false, false, 7, none, 1⟩ [9]
    (by decide) _ (by decide) (by decide)

/-! ## C50 -/

theorem iterateFrame_open (env : Env) (h : Header) (st : St) (o : Bool) (ho : OpenIs o st.sock.lastOpcode) {h' : Header} {st' : St}
    (he : iterateFrame env h st = (.ret h', st')) : OpenIs (o || decide h'.begins) st'.sock.lastOpcode := by
  rcases iterateFrame_header env h st with ⟨k, hd, h2, sc, _, _, _, hi⟩ | ⟨k, x, sc, _, hi, _, hx, _⟩
  · rw [hi, P.bind_apply] at he
    have hl := handleFrame_last env h2 (st.read k sc)
    rcases hf : handleFrame env h2 (st.read k sc) with ⟨(_ | _ | _ | _), s'⟩ <;> rw [hf] at he hl <;> simp only [] at he hl
    · injection he with he1 he2
      injection he1 with he1
      subst he1 he2
      rw [hl]
      show OpenIs _ (if (h2.opcode = 1 ∨ h2.opcode = 2) ∧ ¬ (st.sock.lastOpcode = 1 ∨ st.sock.lastOpcode = 2) then
        (if h2.fin then -1 else (h2.opcode.toNat : Int)) else st.sock.lastOpcode)
      cases o with
      | true =>
        have ho : st.sock.lastOpcode = 1 ∨ st.sock.lastOpcode = 2 := by simpa [OpenIs] using ho
        rw [if_neg (fun x => x.2 ho)]
        simpa [OpenIs] using ho
      | false =>
        have ho' : st.sock.lastOpcode = -1 := ho
        have hn : ¬ (st.sock.lastOpcode = 1 ∨ st.sock.lastOpcode = 2) := by omega
        rw [Bool.false_or]
        by_cases c : h2.opcode = 1 ∨ h2.opcode = 2
        · rw [if_pos ⟨c, hn⟩]
          by_cases hf : h2.fin = true
          · rw [if_pos hf, decide_eq_false (fun x => by rw [x.2] at hf; cases hf)]; rfl
          · rw [if_neg hf, decide_eq_true ⟨c, by simpa using hf⟩]
            rcases c with c | c <;> rw [c]
            · exact .inl rfl
            · exact .inr rfl
        · rw [if_neg (fun x => c x.1), decide_eq_false (fun x => c x.1)]
          exact ho
    all_goals cases he
  · rw [hi] at he
    injection he with he _
    subst he
    rcases hx with ⟨hx, _⟩ | ⟨e', _, hx⟩ <;> cases hx

theorem Handled.isOpen {env : Env} {st st' : St} {hs : List Header} (hH : Handled env st hs st') (h0 : st.sock.lastOpcode = -1) :
    OpenIs (hs.any fun h => decide h.begins) st'.sock.lastOpcode := by
  induction hH with
  | start => exact h0
  | frame _ he ih =>
    have := iterateFrame_open env _ _ _ ih he
    simpa using this
  | @user _ st' ops x s _ he ih =>
    have := runUserOps_last env ops st'.sock
    rw [he] at this
    show OpenIs _ s.lastOpcode
    rw [this]; exact ih
  | network _ ih => exact ih

/-- **C50.** The fragmentation rule of the code, exactly: after any history of a new socket (frames received, anything done by the
application and the network in between), the next frame, once its header is delivered, is refused for its place in the message
sequence iff: it is a continuation frame and *no frame ever received* was a non-final text or binary frame; or it is a text or
binary frame and *some frame ever received* was one. (Whether the fragmented message was completed since does not matter.) -/
theorem C50_fragmentation_rule (env : Env) (st st' : St) (hs : List Header) (hH : Handled env st hs st') (h0 : st.sock.lastOpcode = -1)
    (hd : Hdr) (rest : List UInt8) (hp : parseHdr st'.inp.bytes = some (hd, rest))
    (hh : Healthy (st'.inp.bytes.length + 1) st'.inp.sched) (h : Header) :
    ((∃ st'', iterateFrame env h st' = (.throw .continuationState, st'')) ↔ hd.opcode = 0 ∧ ∀ h ∈ hs, ¬ h.begins) ∧
    ((∃ st'', iterateFrame env h st' = (.throw .continuationExpected, st'')) ↔
      (hd.opcode = 1 ∨ hd.opcode = 2) ∧ ∃ h ∈ hs, h.begins) := by
  have ho := hH.isOpen h0
  have only : ∀ e, e.isProtocol → ((∃ st'', iterateFrame env h st' = (.throw e, st'')) ↔
      refusal (hs.any fun h => decide h.begins) hd = some e) := by
    intro e hpe
    constructor
    · rintro ⟨st'', he⟩
      obtain ⟨hd', rest', hp', hr', _⟩ := C49_refused_only_for_reason env h st' _ ho e st'' he hpe
      rw [hp] at hp'
      injection hp' with hp'
      injection hp' with hp' _
      rw [hp']; exact hr'
    · intro hr
      obtain ⟨st'', he, _⟩ := C49_refused_for_reason env h st' _ ho hd rest hp e hr hh
      exact ⟨st'', he⟩
  rw [only .continuationState trivial, only .continuationExpected trivial]
  have hany : (hs.any fun h => decide h.begins) = true ↔ ∃ h ∈ hs, h.begins := by simp
  have hall : (hs.any fun h => decide h.begins) = false ↔ ∀ h ∈ hs, ¬ h.begins := by simp
  rw [← hany, ← hall]
  generalize (hs.any fun h => decide h.begins) = o
  unfold refusal
  constructor
  · by_cases c0 : hd.opcode = 0
    · rw [if_pos c0]; cases o <;> simp [c0]
    · rw [if_neg c0]
      constructor
      · intro x
        exfalso
        revert x
        split
        · cases o <;> nofun
        · split
          · split <;> nofun
          · nofun
      · exact fun x => absurd x.1 c0
  · by_cases c0 : hd.opcode = 0
    · rw [if_pos c0]; cases o <;> simp [c0]
    · rw [if_neg c0]
      by_cases c1 : hd.opcode = 1 ∨ hd.opcode = 2
      · rw [if_pos c1]; cases o <;> simp [c1]
      · rw [if_neg c1]
        constructor
        · intro x
          exfalso
          revert x
          split
          · split <;> nofun
          · nofun
        · exact fun x => absurd x.1 c1

/-- A history with a non-final text frame, a `stopListening`, and new bytes. -/
example : ∃ st' h', Handled Fixture.wild (Fixture.receiving [0x01, 0x00]) [h'] st' ∧ st'.inp.bytes = [0x81, 0x00] ∧ h'.begins := by
  rcases hf : iterateFrame Fixture.wild default (Fixture.receiving [0x01, 0x00]) with ⟨x, st'⟩
  have hx : ∃ h', x = .ret h' ∧ h'.opcode = 1 ∧ h'.fin = false := by
    have := congrArg Prod.fst hf
    rw [← show _ = x from this]
    refine ⟨{ (default : Header) with fin := false, opcode := 1 }, by decide +kernel, rfl, rfl⟩
  obtain ⟨h', rfl, h1, h2⟩ := hx
  exact ⟨_, h', .network (i := ⟨[0x81, 0x00], Fixture.slow 3⟩) (.user (ops := [.stopListening]) (.frame .start hf) rfl), rfl, .inl h1, h2⟩

end OatWS
