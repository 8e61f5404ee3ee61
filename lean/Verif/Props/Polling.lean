import Verif.Spec.Polling
import Verif.Props.Again
import Verif.Props.Resume
/-! # C91: driving the socket frame by frame with `iterateFrame` -/

namespace OatWS
open RFC6455

/-- **C91** (what the header object says). Whatever the listener does: if `iterateFrame` returns, then the first bytes were a header that is not refused, and the caller's object contains it (the length as a signed
number: C19). -/
theorem C91_header (env : Env) (h : Header) (st : St) (o : Bool) (ho : OpenIs o st.sock.lastOpcode) (h' : Header) (st' : St) (e : iterateFrame env h st = (.ret h', st')) :
    ∃ hd rest, parseHdr st.inp.bytes = some (hd, rest) ∧ refusal o hd = none ∧ h'.fin = hd.fin ∧ h'.rsv1 = hd.rsv1 ∧ h'.rsv2 = hd.rsv2 ∧ h'.rsv3 = hd.rsv3 ∧ h'.opcode.toNat = hd.opcode ∧
      h'.hasMask = hd.maskKey.isSome ∧ (∀ k, hd.maskKey = some k → [h'.mask.m0, h'.mask.m1, h'.mask.m2, h'.mask.m3] = k) ∧ (hd.len < 2 ^ 63 → h'.payloadLength = hd.len) := by
  rcases iterateFrame_header env h st with ⟨k, hd, h2, sc, hk, hp, hh, hi⟩ | ⟨k, x, sc, _, hi, _, hx, _⟩
  · have hp' := hp (st.inp.bytes.drop k)
    rw [List.take_append_drop] at hp'
    have hr : refusal o hd = none := by
      cases hr : refusal o hd with
      | none => rfl
      | some e2 =>
        exfalso
        rw [hi, P.bind_apply, handleFrame_refused env hh (st.read k sc) (o := o) ho hr] at e
        cases e
    have he : h2 = h' := by
      rw [hi, P.bind_apply] at e
      rcases hq : handleFrame env h2 (st.read k sc) with ⟨(_ | _ | _ | _), s⟩ <;> rw [hq] at e
      · injection e with e; injection e
      · cases e
      · cases e
      · cases e
    subst he
    refine ⟨hd, _, hp', hr, hh.fin, hh.rsv1, hh.rsv2, hh.rsv3, hh.opcode, ?_, ?_, ?_⟩
    · have := hh.key
      unfold Header.key at this
      rw [← this]
      cases h2.hasMask <;> rfl
    · intro key hkey
      have := hh.key
      unfold Header.key at this
      rw [hkey] at this
      split at this
      · injection this
      · cases this
    · intro hl
      rw [hh.len]
      exact toInt64_small hl
  · rw [hi] at e
    rcases hx with ⟨rfl, _⟩ | ⟨er, _, rfl⟩ <;> cases e

/-- **C91** (one call, one frame). A call of `iterateFrame` on a frame that is not refused returns; it has made exactly the callbacks of this frame, has read exactly this frame, and the caller's header object
contains the frame's header. A close frame is a frame as any other, and `stopListening` does not matter. -/
theorem C91_one_frame (env : Env) (h : Header) (st : St) (l B : Nat) (o : Bool) (hR : Ready env st l B o) (g : Frame) (hv : g.Valid) (hacc : Accepted o g) (rest : List UInt8)
    (hb : st.inp.bytes = g.encode ++ rest) :
    ∃ h' evs st', iterateFrame env h st = (.ret h', st') ∧ Reports h' g ∧ st'.sock.trace = st.sock.trace ++ evs ∧ FrameEvents l B g evs ∧ st'.inp.bytes = rest ∧
      Ready env st' l B (openAfterFrame o g) := by
  have hi := interpretFrame_accepted o g hv hacc rest
  rw [← hb] at hi
  obtain ⟨evs, x, st', e, hb', hr, htr, hfe⟩ := iterateFrame_over env hR.tame hR.returns B hR.pos h st hR.size o hR.isOpen hR.healthy _ rest _ _ hi hb
  rw [hR.listener] at hr
  have hx : ∃ a, x = .ret a ∧ OpenIs (openAfterFrame o g) st'.sock.lastOpcode := by
    by_cases h8 : g.opcode = 8
    · rw [if_pos h8] at hfe
      obtain ⟨⟨a, rfl, _⟩, hlast⟩ := hfe
      refine ⟨a, rfl, ?_⟩
      rw [hlast]
      have : openAfterFrame o g = o := by unfold openAfterFrame; rw [if_neg (by omega)]
      rw [this]; exact hR.isOpen
    · rw [if_neg h8] at hfe
      obtain ⟨⟨a, rfl, _⟩, ho', _⟩ := hfe
      exact ⟨a, rfl, ho'⟩
  obtain ⟨h', rfl, ho'⟩ := hx
  obtain ⟨k, ds, fe, evs3, st3, x, _, e2, _, _, _, _, g7, _⟩ := iterateFrame_handles env hR.tame h st B hR.pos hR.size o hR.isOpen
  rw [e] at e2
  injection e2 with _ e2
  subst e2
  have hth := iterateFrame_thrifty env h st
  rw [e] at hth
  obtain ⟨hd, rest', p1, _, p3, p4, p5, p6, p7, p8, p9, p10⟩ := C91_header env h st o hR.isOpen h' st' e
  rw [hb, parseHdr_encode g hv] at p1
  injection p1 with p1
  injection p1 with p1 _
  subst p1
  exact ⟨h', evs, st', e, ⟨p3, ⟨p4, p5, p6⟩, p7, p8, p9, p10 hv.2.2⟩, htr, Renders.frame hacc hr, hb', hR.tame, hR.returns, by rw [g7.listener]; exact hR.listener,
    by rw [g7.config]; exact hR.size, hR.pos, ho', hth trivial 1 hR.healthy⟩

/-- **C91** (n calls, n frames). As many calls as there are frames hear exactly these frames, and report their headers one after the other; nothing behind them is read. -/
theorem C91_polling (env : Env) (h : Header) (st : St) (l B : Nat) (o o' : Bool) (hR : Ready env st l B o) (fs : List Frame) (hp : Pollable o fs o') (rest : List UInt8)
    (hb : st.inp.bytes = wireOf fs ++ rest) :
    ∃ hs evs st', polls env fs.length h st = (.ret hs, st') ∧ ReportsAll hs fs ∧ st'.sock.trace = st.sock.trace ++ evs ∧ FramesEvents l B fs evs ∧ st'.inp.bytes = rest ∧
      Ready env st' l B o' := by
  induction hp generalizing h st with
  | nil => exact ⟨[], [], st, rfl, .nil, by simp, rfl, hb, hR⟩
  | @cons o o' f fs hv hacc _ ih =>
    rw [wireOf_cons, List.append_assoc] at hb
    obtain ⟨h', evs, st', e, hrep, htr, hfe, hb', hR'⟩ := C91_one_frame env h st l B o hR f hv hacc _ hb
    obtain ⟨hs, evs2, st2, e2, hrep2, htr2, hfe2, hb2, hR2⟩ := ih h' st' hR' hb'
    refine ⟨h' :: hs, evs ++ evs2, st2, ?_, .cons hrep hrep2, by rw [htr2, htr, List.append_assoc], ⟨evs, evs2, rfl, hfe, hfe2⟩, hb2, hR2⟩
    show P.bind (iterateFrame env h) (fun h' => P.bind (polls env fs.length h') fun hs => Pure.pure (h' :: hs)) st = _
    rw [P.bind_apply, e]
    dsimp only
    rw [P.bind_apply, e2]
    rfl

/-- **C91** (the call that fails says why). Behind the frames comes a header that is refused: the frames are heard; the next call throws the reason, makes no callback, and has consumed exactly that header, so a
further call would take the payload for frames (as C88). -/
theorem C91_refused (env : Env) (h : Header) (st : St) (l B : Nat) (o o' : Bool) (hR : Ready env st l B o) (fs : List Frame) (hp : Pollable o fs o') (tail : List UInt8)
    (hb : st.inp.bytes = wireOf fs ++ tail) (hd : Hdr) (rest : List UInt8) (hh : parseHdr tail = some (hd, rest)) (e : Err) (hr : refusal o' hd = some e) :
    ∃ evs st', polls env (fs.length + 1) h st = (.throw e, st') ∧ st'.sock.trace = st.sock.trace ++ evs ∧ FramesEvents l B fs evs ∧ st'.inp.bytes = rest ∧ Ready env st' l B o' := by
  induction hp generalizing h st with
  | nil =>
    have hb : st.inp.bytes = tail := by rw [hb]; rfl
    obtain ⟨st', he, hb', hs'⟩ := C49_refused_for_reason env h st _ hR.isOpen hd rest (by rw [hb]; exact hh) e hr hR.healthy
    have hpe : ¬ e.isRead := by
      unfold refusal at hr
      repeat' split at hr
      all_goals (first | (cases hr; done) | (injection hr with hr; subst hr; exact id))
    have hth := iterateFrame_thrifty env h st
    rw [he] at hth
    refine ⟨[], st', ?_, by rw [hs']; simp, rfl, hb', hR.tame, hR.returns, by rw [hs']; exact hR.listener, by rw [hs']; exact hR.size, hR.pos, by rw [hs']; exact hR.isOpen, hth hpe 1 hR.healthy⟩
    show P.bind (iterateFrame env h) (fun h' => P.bind (polls env 0 h') fun hs => Pure.pure (h' :: hs)) st = _
    rw [P.bind_apply, he]
  | @cons o o' f fs hv hacc _ ih =>
    rw [wireOf_cons, List.append_assoc] at hb
    obtain ⟨h', evs, st', e1, _, htr, hfe, hb', hR'⟩ := C91_one_frame env h st l B o hR f hv hacc _ hb
    obtain ⟨evs2, st2, e2, htr2, hfe2, hb2, hR2⟩ := ih h' st' hR' hb' hr
    refine ⟨evs ++ evs2, st2, ?_, by rw [htr2, htr, List.append_assoc], ⟨evs, evs2, rfl, hfe, hfe2⟩, hb2, hR2⟩
    show P.bind (iterateFrame env h) (fun h' => P.bind (polls env (fs.length + 1) h') fun hs => Pure.pure (h' :: hs)) st = _
    rw [P.bind_apply, e1]
    dsimp only
    rw [P.bind_apply, e2]

/-- **C91** (at the end of the stream). When all bytes are read, a call throws an error of reading (or waits for ever, if the connection does): no callback, nothing changed. -/
theorem C91_end (env : Env) (h : Header) (st : St) (hb : st.inp.bytes = []) :
    ∃ x sched, iterateFrame env h st = (x, { st with inp := ⟨[], sched⟩ }) ∧ (x = .block ∨ ∃ e, e.isRead ∧ x = .throw e) := by
  rcases iterateFrame_header env h st with ⟨k, hd, h2, sc, hk, hp, hh, hi⟩ | ⟨k, x, sc, _, hi, _, hx, _⟩
  · have := hp []
    rw [hb] at this
    simp [parseHdr] at this
  · refine ⟨x, sc, ?_, hx.imp (fun h => h.1) id⟩
    rw [hi]
    simp [St.read, hb]

/-- **C91** (`stopListening` has no effect on `iterateFrame`). A call does the same, whether the socket is listening or not, and whether the callbacks call `stopListening` or not; only the flag itself may
differ. -/
theorem C91_flag (env : Env) (hn : env.NoSends) (h : Header) (st : St) :
    iterateFrame env.nonstop h st.on = ((iterateFrame env h st).1, (iterateFrame env h st).2.on) := iterateFrame_nonstop hn h st

/-- **C91** (calls of `iterateFrame` and `listen` mixed). Whatever the listener does: after any number of calls of `iterateFrame` that returned, none of them with a close frame, a call of `listen` does exactly
what is left to do of a `listen` that was called in the beginning. -/
theorem C91_then_listen (env : Env) (hn : env.NoSends) (n : Nat) (h : Header) (st : St) (hs : List Header) (st' : St) (e : polls env n h st = (.ret hs, st')) (h8 : ∀ h ∈ hs, h.opcode ≠ 8)
    (h1 h2 : Header) : listen env.nonstop h1 st = listen env.nonstop h2 st' := by
  induction n generalizing h st hs with
  | zero =>
    cases e
    rw [listen_eq, listen_eq]
    have : listenBody env.nonstop h1 st' = listenBody env.nonstop h2 st' := listenLoop_stale env.nonstop _ h2 h1 _
    rw [this]
  | succ n ih =>
    have e : P.bind (iterateFrame env h) (fun h' => P.bind (polls env n h') fun hs => Pure.pure (h' :: hs)) st = _ := e
    rw [P.bind_apply] at e
    rcases hi : iterateFrame env h st with ⟨(h' | _ | _ | _), s1⟩ <;> rw [hi] at e
    · dsimp only at e
      rw [P.bind_apply] at e
      rcases hq : polls env n h' s1 with ⟨(hs' | _ | _ | _), s2⟩ <;> rw [hq] at e <;> cases e
      have hih := ih h' s1 hs' hq (fun x hx => h8 x (by simp [hx]))
      have hprog := iterateFrame_progress env h st hi
      have hbody : listenBody env.nonstop h1 st = listenBody env.nonstop h1 s1 := by
        show listenLoop env.nonstop (st.inp.sched.length + 1) h1 st.on = listenLoop env.nonstop (s1.inp.sched.length + 1) h1 s1.on
        rw [listenLoop_stale env.nonstop _ h h1 st.on]
        conv => lhs; unfold listenLoop
        rw [iterateFrame_nonstop hn, hi]
        dsimp only
        rw [if_pos ⟨h8 h' (by simp), rfl⟩, listenLoop_stale env.nonstop _ h1 h']
        exact listenLoop_fuel _ _ _ _ _ hprog (Nat.lt_succ_self _)
      rw [← hih, listen_eq, listen_eq, hbody]
    · cases e
    · cases e
    · cases e

/-! ## A concrete case: a listener that calls `stopListening` inside the first frame; "Hel", ping, "lo", close, and a ping behind the close frame -/

theorem exPolled_pollable : Pollable false [Fixture.hel, Fixture.ping, Fixture.lo, Fixture.closing, Fixture.ping] true := by
  refine .cons ⟨by decide, ?_, by decide⟩ (.inl ⟨.inr (.inl rfl), rfl⟩) (.cons ⟨by decide, ?_, by decide⟩ (.inr ⟨.inr (.inl rfl), by decide⟩)
    (.cons ⟨by decide, ?_, by decide⟩ (.inl ⟨.inl rfl, rfl⟩) (.cons ⟨by decide, ?_, by decide⟩ (.inr ⟨.inl rfl, by decide⟩) (.cons ⟨by decide, ?_, by decide⟩ (.inr ⟨.inr (.inl rfl), by decide⟩) .nil))))
  all_goals (intro k hk; first | (injection hk with hk; rw [← hk]; rfl) | cases hk)

def exPolled (tail : List UInt8) : St := Fixture.receiving (wireOf [Fixture.hel, Fixture.ping, Fixture.lo, Fixture.closing, Fixture.ping] ++ tail)

theorem exPolled_ready (tail : List UInt8) (h : Healthy ((exPolled tail).inp.bytes.length + 1) (exPolled tail).inp.sched) : Ready Fixture.stopper (exPolled tail) 7 2 false :=
  ⟨Fixture.stopper_tame, fun tr s => (Fixture.stopper_only tr s).imp fun _ h => h.1, rfl, rfl, by decide, rfl, h⟩

theorem stopper_noSends : Fixture.stopper.NoSends := by
  intro tr c b
  show _ ∉ (if tr.length = 2 then [UserOp.stopListening] else [])
  split <;> simp

/-- The hypotheses of `C91_one_frame`, `C91_header` and `C91_flag` are met. -/
example : ∃ h' evs st', iterateFrame Fixture.stopper default (exPolled []) = (.ret h', st') ∧ Reports h' Fixture.hel ∧ st'.sock.trace = [] ++ evs ∧ FrameEvents 7 2 Fixture.hel evs ∧
    (iterateFrame Fixture.stopper.nonstop default (exPolled []).on).1 = (iterateFrame Fixture.stopper default (exPolled [])).1 := by
  obtain ⟨h', evs, st', h1, h2, h3, h4, _⟩ := C91_one_frame Fixture.stopper default (exPolled []) 7 2 false (exPolled_ready [] (by decide)) Fixture.hel
    ⟨by decide, by decide, by decide⟩ (.inl ⟨.inr (.inl rfl), rfl⟩) (wireOf [Fixture.ping, Fixture.lo, Fixture.closing, Fixture.ping]) (by decide)
  exact ⟨h', evs, st', h1, h2, h3, h4, by rw [C91_flag Fixture.stopper stopper_noSends default (exPolled [])]⟩

/-- The hypotheses of `C91_polling` are met: five calls hear five frames, the close frame and the ping behind it among them. -/
example : ∃ hs evs st', polls Fixture.stopper 5 default (exPolled [0x81]) = (.ret hs, st') ∧ ReportsAll hs [Fixture.hel, Fixture.ping, Fixture.lo, Fixture.closing, Fixture.ping] ∧
    st'.sock.trace = [] ++ evs ∧ FramesEvents 7 2 [Fixture.hel, Fixture.ping, Fixture.lo, Fixture.closing, Fixture.ping] evs ∧ st'.inp.bytes = [0x81] := by
  obtain ⟨hs, evs, st', h1, h2, h3, h4, h5, _⟩ := C91_polling Fixture.stopper default (exPolled [0x81]) 7 2 false true (exPolled_ready [0x81] (by decide)) _ exPolled_pollable [0x81] rfl
  exact ⟨hs, evs, st', h1, h2, h3, h4, h5⟩

/-- The hypotheses of `C91_refused` are met: a frame with the reserved opcode 3. -/
example : ∃ evs st', polls Fixture.stopper 6 default (exPolled [0x83, 0x01, 0x7]) = (.throw .unknownFrame, st') ∧ st'.sock.trace = [] ++ evs ∧
    FramesEvents 7 2 [Fixture.hel, Fixture.ping, Fixture.lo, Fixture.closing, Fixture.ping] evs ∧ st'.inp.bytes = [0x7] := by
  obtain ⟨evs, st', h1, h2, h3, h4, _⟩ := C91_refused Fixture.stopper default (exPolled [0x83, 0x01, 0x7]) 7 2 false true (exPolled_ready [0x83, 0x01, 0x7] (by decide)) _ exPolled_pollable
    [0x83, 0x01, 0x7] rfl ⟨true, false, false, false, 3, none, 1⟩ [0x7] (by decide) .unknownFrame (by decide)
  exact ⟨evs, st', h1, h2, h3, h4⟩

/-- The hypothesis of `C91_end` is met; the call throws. -/
example : (Fixture.receiving []).inp.bytes = [] ∧ (iterateFrame Fixture.stopper default (Fixture.receiving [])).1.isRet = false := ⟨rfl, by decide +kernel⟩

/-- The hypotheses of `C91_then_listen` are met: three frames are polled, then `listen` is called. -/
example : ∃ hs st', polls Fixture.stopper 3 default (exPolled []) = (.ret hs, st') ∧ (∀ h ∈ hs, h.opcode ≠ 8) ∧ listen Fixture.stopper.nonstop default (exPolled []) = listen Fixture.stopper.nonstop default st' := by
  have hv : (match polls Fixture.stopper 3 default (exPolled []) with | (.ret hs, _) => hs.all fun h => decide (h.opcode ≠ 8) | _ => false) = true := by decide +kernel
  rcases hp : polls Fixture.stopper 3 default (exPolled []) with ⟨(hs | _ | _ | _), st'⟩ <;> rw [hp] at hv
  · have h8 : ∀ h ∈ hs, h.opcode ≠ 8 := fun h hh => of_decide_eq_true (List.all_eq_true.mp hv h hh)
    exact ⟨hs, st', rfl, h8, C91_then_listen Fixture.stopper stopper_noSends 3 default _ hs st' hp h8 default default⟩
  · cases hv
  · cases hv
  · cases hv

end OatWS
