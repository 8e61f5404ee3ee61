import Verif.Spec.Again
import Verif.Proofs.Thrown
import Verif.Props.AsyncEquiv
/-! # C88: calling `listen` again after it has returned -/

namespace OatWS
open RFC6455

theorem framesEvents_append {l B : Nat} {fs gs : List Frame} {es es' : List Event} (h : FramesEvents l B fs es) (h' : FramesEvents l B gs es') :
    FramesEvents l B (fs ++ gs) (es ++ es') := by
  induction fs generalizing es with
  | nil => rw [show es = [] from h]; exact h'
  | cons f fs ih =>
    obtain ⟨e, es2, rfl, h1, h2⟩ := h
    exact ⟨e, es2 ++ es', by rw [List.append_assoc], h1, ih h2⟩

theorem listenBody_arrives (env : Env) (h : Header) (st : St) (l B : Nat) (o o' : Bool) (hU : Undisturbed env st l B o)
    (fs : List Frame) (ha : AcceptedAll o fs o') (tail : List UInt8) (hb : st.inp.bytes = wireOf fs ++ tail) :
    ∃ fuel h' st' evs, listenBody env h st = listenLoop env (fuel + 1) h' st' ∧ st'.inp.bytes = tail ∧ Undisturbed env st' l B o' ∧
      st'.sock.listening = true ∧ st'.sock.trace = st.sock.trace ++ evs ∧ FramesEvents l B fs evs := by
  obtain ⟨fuel, h', st', evs, q1, q2, q3, q4, q5, q6, q7, q8, q9, q10⟩ := listenLoop_frames env hU.tame hU.passive l B hU.pos o o' fs ha tail
    (st.inp.sched.length + 1) h { st with sock := { st.sock with listening := true } } (Nat.lt_succ_self _) hU.listener hU.size hU.isOpen hU.healthy hb rfl
  obtain ⟨fuel, rfl⟩ : ∃ n, fuel = n + 1 := ⟨fuel - 1, by omega⟩
  exact ⟨fuel, h', st', evs, q1, q3, ⟨hU.tame, hU.passive, q4, q5, hU.pos, q6, by rw [q3]; exact q7⟩, q8, q9, q10⟩

/-- **C88** after a close frame. When `listen` has returned because of the close frame `g`, everything is ready for another call, which will take what
follows `g` on the connection. -/
theorem C88_after_close (env : Env) (h : Header) (st : St) (l B : Nat) (o o' : Bool) (hU : Undisturbed env st l B o)
    (fs : List Frame) (ha : AcceptedAll o fs o') (g : Frame) (hv : g.Valid) (h8 : g.opcode = 8) (h125 : g.payload.length ≤ 125)
    (rest : List UInt8) (hb : st.inp.bytes = wireOf fs ++ (g.encode ++ rest)) :
    ∃ evs st', listen env h st = (.ret (), st') ∧ st'.sock.trace = st.sock.trace ++ evs ∧ FramesEvents l B (fs ++ [g]) evs ∧
      st'.inp.bytes = rest ∧ Undisturbed env st' l B o' := by
  obtain ⟨fuel, h', st1, evs, q1, q2, q3, q4, q5, q6⟩ := listenBody_arrives env h st l B o o' hU fs ha _ hb
  have hacc : Accepted o' g := .inr ⟨.inl h8, h125⟩
  have hi := interpretFrame_accepted o' g hv hacc rest
  rw [if_pos h8, ← q2] at hi
  obtain ⟨evs2, x, st2, e, hb', hr, htr, hfe⟩ := iterateFrame_over env q3.tame q3.passive.returns B q3.pos h' st1 q3.size o' q3.isOpen q3.healthy _ rest _ _ hi q2
  obtain ⟨⟨a, rfl, ha8⟩, hlast⟩ := hfe
  have ha8 : a.opcode = OPCODE_CLOSE := by
    rcases ha8 with h | h
    · cases h
    · injection h
  obtain ⟨k, ds, fe, evs3, st3, x, _, e2, _, _, _, _, g7, _⟩ := iterateFrame_handles env q3.tame h' st1 B q3.pos q3.size o' q3.isOpen
  rw [e] at e2
  injection e2 with _ e2
  subst e2
  have hth := iterateFrame_thrifty env h' st1
  rw [e] at hth
  rw [q3.listener] at hr
  have hbody : listenBody env h st = (.ret (), st2) := by
    rw [q1]
    unfold listenLoop
    rw [e]
    simp only []
    rw [if_neg (fun c => c.1 ha8)]
  refine ⟨evs ++ evs2, st2, by rw [listen_eq, hbody], by rw [htr, q5, List.append_assoc],
    framesEvents_append q6 ⟨evs2, [], by simp, Renders.frame hacc hr, rfl⟩, hb', q3.tame, q3.passive, by rw [g7.listener]; exact q3.listener,
    by rw [g7.config]; exact q3.size, q3.pos, by rw [hlast]; exact q3.isOpen, hth trivial 1 q3.healthy⟩

/-- "Hel", ping, "lo", close and, behind the close frame, another ping: the second call of `listen` hears this one (`exAgain`). -/
example : ∃ evs st', listen Fixture.env default (Fixture.receiving (wireOf [Fixture.hel, Fixture.ping, Fixture.lo] ++ (Fixture.closing.encode ++ Fixture.ping.encode))) = (.ret (), st') ∧
    st'.sock.trace = [] ++ evs ∧ FramesEvents 7 2 ([Fixture.hel, Fixture.ping, Fixture.lo] ++ [Fixture.closing]) evs ∧ st'.inp.bytes = Fixture.ping.encode ∧
    Undisturbed Fixture.env st' 7 2 true :=
  C88_after_close Fixture.env default _ 7 2 false true (Fixture.undisturbed _ (by decide)) _ Fixture.accepted
    Fixture.closing ⟨by decide, nofun, by decide⟩ rfl (by decide) Fixture.ping.encode rfl

/-- **C88** after a refused frame. When `listen` has returned because it refused a frame with header `hd`, everything is ready for another call, which will
take what follows the *header*: the payload of the refused frame is read as if it were frames. -/
theorem C88_after_refusal (env : Env) (h : Header) (st : St) (l B : Nat) (o o' : Bool) (hU : Undisturbed env st l B o)
    (fs : List Frame) (ha : AcceptedAll o fs o') (tail : List UInt8) (hb : st.inp.bytes = wireOf fs ++ tail) (hd : Hdr)
    (rest : List UInt8) (hp : parseHdr tail = some (hd, rest)) (e : Err) (hr : refusal o' hd = some e) :
    ∃ evs st', listen env h st = (.ret (), st') ∧ st'.sock.trace = st.sock.trace ++ evs ∧ FramesEvents l B fs evs ∧
      st'.inp.bytes = rest ∧ Undisturbed env st' l B o' := by
  obtain ⟨fuel, h', st1, evs, q1, q2, q3, q4, q5, q6⟩ := listenBody_arrives env h st l B o o' hU fs ha _ hb
  obtain ⟨st2, he, hb2, hs2⟩ := C49_refused_for_reason env h' st1 o' q3.isOpen hd rest (by rw [q2]; exact hp) e hr q3.healthy
  have hpe : ¬ e.isRead := by
    unfold refusal at hr
    repeat' split at hr
    all_goals (first | (cases hr; done) | (injection hr with hr; subst hr; exact id))
  have hth := iterateFrame_thrifty env h' st1
  rw [he] at hth
  have hbody : listenBody env h st = (.throw e, st2) := by
    rw [q1]
    unfold listenLoop
    rw [he]
  exact ⟨evs, st2, by rw [listen_eq, hbody], by rw [hs2, q5], q6, hb2, q3.tame, q3.passive, by rw [hs2]; exact q3.listener,
    by rw [hs2]; exact q3.size, q3.pos, by rw [hs2]; exact q3.isOpen, hth hpe 1 q3.healthy⟩

/-- A frame with the reserved opcode 3 whose payload is the five octets of a text frame. -/
example : ∃ evs st', listen Fixture.env default (Fixture.receiving (wireOf [Fixture.text] ++ [0x83, 0x05, 0x81, 0x03, 0x61, 0x62, 0x63])) = (.ret (), st') ∧
    st'.sock.trace = [] ++ evs ∧ FramesEvents 7 2 [Fixture.text] evs ∧ st'.inp.bytes = [0x81, 0x03, 0x61, 0x62, 0x63] ∧ Undisturbed Fixture.env st' 7 2 false :=
  C88_after_refusal Fixture.env default _ 7 2 false false (Fixture.undisturbed _ (by decide)) [Fixture.text]
    (.cons ⟨by decide, nofun, by decide⟩ (.inl ⟨.inr (.inl rfl), rfl⟩) (by decide) .nil) [0x83, 0x05, 0x81, 0x03, 0x61, 0x62, 0x63] rfl
    ⟨true, false, false, false, 3, none, 5⟩ _ (by decide) .unknownFrame (by decide)

theorem listen_empty (env : Env) (h : Header) (st : St) (hb : st.inp.bytes = []) :
    ∃ sc s, (listen env h st).2 = ⟨{ st.sock with listening := true }, ⟨[], sc⟩⟩ ∧ (listen env h st).1 = s ∧ (s = .ret () ∨ s = .block) := by
  have hi : ∃ x sc, iterateFrame env h { st with sock := { st.sock with listening := true } } = (x, ⟨{ st.sock with listening := true }, ⟨[], sc⟩⟩) ∧
      (x = .block ∨ ∃ e, x = .throw e) := by
    have e : iterateFrame env h { st with sock := { st.sock with listening := true } } = P.bind (readFrameHeader env h)
        (fun h => P.bind (handleFrame env h) fun _ => Pure.pure h) { st with sock := { st.sock with listening := true } } := rfl
    rw [e, P.bind_apply]
    rcases (readFrameHeader_reads env h { st with sock := { st.sock with listening := true } }).outcome with ⟨k, hd, h1, sc, hk, e, hp, _⟩ |
      ⟨k, x, sc, hk, hsl, e, hx, hp, hall⟩
    · exfalso
      have := hp []
      rw [hb] at this
      simp [parseHdr] at this
    · rw [e]
      have hr : St.read { st with sock := { st.sock with listening := true } } k sc = ⟨{ st.sock with listening := true }, ⟨[], sc⟩⟩ := by
        simp [St.read, hb]
      rw [hr]
      rcases hx with ⟨rfl, _⟩ | ⟨er, _, rfl⟩
      · exact ⟨.block, sc, rfl, .inl rfl⟩
      · exact ⟨.throw er, sc, rfl, .inr ⟨er, rfl⟩⟩
  obtain ⟨x, sc, hi, hx⟩ := hi
  rw [listen_eq]
  have hbody : listenBody env h st = listenLoop env (st.inp.sched.length + 1) h { st with sock := { st.sock with listening := true } } := rfl
  rw [hbody]
  unfold listenLoop
  rw [hi]
  rcases hx with rfl | ⟨e, rfl⟩
  · exact ⟨sc, .block, rfl, rfl, .inr rfl⟩
  · exact ⟨sc, .ret (), rfl, rfl, .inl rfl⟩

/-- **C88** at the end of the stream: when nothing is left to be read, further calls of `listen` make no callback and send nothing - for every listener and
whatever the connection reports. -/
theorem C88_nothing_left (env : Env) (hs : List Header) (st : St) (hb : st.inp.bytes = []) :
    (listens env hs st).2.sock.trace = st.sock.trace ∧ (listens env hs st).2.sock.out = st.sock.out ∧ (listens env hs st).2.inp.bytes = [] := by
  induction hs generalizing st with
  | nil => exact ⟨rfl, rfl, hb⟩
  | cons h hs ih =>
    obtain ⟨sc, s, h1, h2, h3⟩ := listen_empty env h st hb
    show (P.bind (listen env h) (fun _ => listens env hs) st).2.sock.trace = _ ∧ (P.bind (listen env h) (fun _ => listens env hs) st).2.sock.out = _ ∧
      (P.bind (listen env h) (fun _ => listens env hs) st).2.inp.bytes = _
    rw [P.bind_apply]
    have hl : listen env h st = (s, ⟨{ st.sock with listening := true }, ⟨[], sc⟩⟩) := Prod.ext h2 h1
    rw [hl]
    rcases h3 with rfl | rfl
    · exact ih ⟨{ st.sock with listening := true }, ⟨[], sc⟩⟩ rfl
    · exact ⟨rfl, rfl, rfl⟩

/-- Three more calls, whatever the listener would do. -/
example : (listens Fixture.wild [default, default, default] (Fixture.receiving [])).2.sock.trace = [] ∧
    (listens Fixture.wild [default, default, default] (Fixture.receiving [])).2.sock.out = ⟨[], []⟩ ∧
    (listens Fixture.wild [default, default, default] (Fixture.receiving [])).2.inp.bytes = [] :=
  C88_nothing_left Fixture.wild [default, default, default] (Fixture.receiving []) rfl

/-- **C88**, the end of the stream: `listen` has heard everything, and nothing is left. -/
theorem C88_after_end (env : Env) (h : Header) (st : St) (l B : Nat) (o o' : Bool) (hU : Undisturbed env st l B o)
    (fs : List Frame) (ha : AcceptedAll o fs o') (hb : st.inp.bytes = wireOf fs) :
    ∃ evs st', listen env h st = (.ret (), st') ∧ st'.sock.trace = st.sock.trace ++ evs ∧ FramesEvents l B fs evs ∧ st'.inp.bytes = [] := by
  obtain ⟨evs, evs', x, st', e1, e2, hbytes, hf, hr, htr, hx, _⟩ := listen_then_over env hU.tame hU.passive l B hU.pos h st
    hU.listener hU.size o o' hU.isOpen hU.healthy fs [] (by rw [hb, List.append_nil]) ha [] [] .incomplete rfl [] rfl
  rw [hr.nil_inv, List.append_nil] at htr
  exact ⟨evs, st', e2, htr, hf, hbytes⟩

example := C88_after_end Fixture.env default (Fixture.receiving (wireOf [Fixture.hel, Fixture.ping, Fixture.lo])) 7 2 false true (Fixture.undisturbed _ (by decide))
  _ Fixture.accepted rfl

/-- **C88**, any number of calls: they share out the bytes of the connection as `Parts` says; together they hear exactly the frames `heard`, in order. -/
theorem C88_listen_repeatedly (env : Env) (st : St) (l B : Nat) (o : Bool) (hU : Undisturbed env st l B o) (heard : List (List Frame))
    (hP : Parts o st.inp.bytes heard) (hs : List Header) (hn : hs.length = heard.length) :
    ∃ evs st', listens env hs st = (.ret (), st') ∧ st'.sock.trace = st.sock.trace ++ evs ∧ FramesEvents l B heard.flatten evs := by
  generalize hbs : st.inp.bytes = bytes at hP
  induction hP generalizing st hs with
  | closed ha hv h8 h125 _ ih =>
    cases hs with
    | nil => cases hn
    | cons h hs =>
      obtain ⟨evs, st', e, htr, hf, hb, hU'⟩ := C88_after_close env h st l B _ _ hU _ ha _ hv h8 h125 _ hbs
      obtain ⟨evs2, st2, e2, htr2, hf2⟩ := ih st' hU' hs (by simpa using hn) hb
      refine ⟨evs ++ evs2, st2, ?_, by rw [htr2, htr, List.append_assoc], framesEvents_append hf hf2⟩
      show P.bind (listen env h) (fun _ => listens env hs) st = _
      rw [P.bind_apply, e]
      exact e2
  | refused ha hp hr _ ih =>
    cases hs with
    | nil => cases hn
    | cons h hs =>
      obtain ⟨evs, st', e, htr, hf, hb, hU'⟩ := C88_after_refusal env h st l B _ _ hU _ ha _ hbs _ _ hp _ hr
      obtain ⟨evs2, st2, e2, htr2, hf2⟩ := ih st' hU' hs (by simpa using hn) hb
      refine ⟨evs ++ evs2, st2, ?_, by rw [htr2, htr, List.append_assoc], framesEvents_append hf hf2⟩
      show P.bind (listen env h) (fun _ => listens env hs) st = _
      rw [P.bind_apply, e]
      exact e2
  | @ended _ _ fs ha =>
    obtain ⟨h, rfl⟩ : ∃ h, hs = [h] := List.length_eq_one_iff.mp hn
    obtain ⟨evs, st', e, htr, hf, _⟩ := C88_after_end env h st l B _ _ hU _ ha hbs
    refine ⟨evs, st', ?_, htr, by rw [List.flatten_singleton]; exact hf⟩
    show P.bind (listen env h) (fun _ => listens env []) st = _
    rw [P.bind_apply, e]
    rfl
  | none =>
    rw [List.length_eq_zero_iff.mp hn]
    exact ⟨[], st, rfl, by simp, rfl⟩

/-- A close frame, then the frame with the reserved opcode, whose payload is a text frame. -/
def exAgain : List UInt8 := wireOf [Fixture.hel, Fixture.ping, Fixture.lo] ++ (Fixture.closing.encode ++ (wireOf [Fixture.ping] ++ ([0x83, 0x03] ++ wireOf [Fixture.lo])))

theorem exAgain_parts : Parts false exAgain [[Fixture.hel, Fixture.ping, Fixture.lo, Fixture.closing], [Fixture.ping], [Fixture.lo]] := by
  refine .closed (fs := [Fixture.hel, Fixture.ping, Fixture.lo]) Fixture.accepted ⟨by decide, nofun, by decide⟩ rfl (by decide) ?_
  refine .refused (fs := [Fixture.ping]) (o' := true) (hd := ⟨true, false, false, false, 3, none, 3⟩) (e := .unknownFrame) (rest := wireOf [Fixture.lo])
    (.cons ⟨by decide, ?_, by decide⟩ (.inr ⟨.inr (.inl rfl), by decide⟩) (by decide) .nil) (by decide) (by decide) ?_
  · intro k hk; injection hk with hk; rw [← hk]; rfl
  · refine .ended (o' := true) (.cons ⟨by decide, ?_, by decide⟩ (.inl ⟨.inl rfl, rfl⟩) (by decide) .nil)
    intro k hk; injection hk with hk; rw [← hk]; rfl

/-- Three calls. -/
example := C88_listen_repeatedly Fixture.env (Fixture.receiving exAgain) 7 2 false (Fixture.undisturbed _ (by decide)) _ exAgain_parts [default, default, default] rfl

/-- The same, run. -/
example : (listens Fixture.env [default, default, default] (Fixture.receiving exAgain)).2.sock.trace =
    [.readMessage 7 1 [0x48], .readMessage 7 1 [0x65], .readMessage 7 1 [0x6c], .onPing 7 [0x21], .readMessage 7 0 [0x6c], .readMessage 7 0 [0x6f], .readMessage 7 0 [],
     .onClose 7 1000 [0x78], .onPing 7 [0x21], .readMessage 7 0 [0x6c], .readMessage 7 0 [0x6f], .readMessage 7 0 []] := by decide +kernel

/-- **C88**, what that means for a refused frame: if `g` is refused where it stands, and its payload octets on the wire happen to be the encodings of frames `gs`, then
the first call hears what comes before `g`; the second hears `gs`, which the peer never sent as frames, and then the frames `rest` that follow `g`. -/
theorem C88_payload_heard_as_frames (env : Env) (h1 h2 : Header) (st : St) (l B : Nat) (o o1 o2 : Bool) (hU : Undisturbed env st l B o)
    (fs : List Frame) (ha : AcceptedAll o fs o1) (g : Frame) (hv : g.Valid) (hn : ¬ Accepted o1 g) (gs rest : List Frame)
    (hg : applyKey? g.maskKey g.payload = wireOf gs) (hgs : AcceptedAll o1 (gs ++ rest) o2) (hb : st.inp.bytes = wireOf (fs ++ g :: rest)) :
    ∃ evs evs' st', listens env [h1, h2] st = (.ret (), st') ∧ (listen env h1 st).2.sock.trace = st.sock.trace ++ evs ∧ FramesEvents l B fs evs ∧
      st'.sock.trace = st.sock.trace ++ (evs ++ evs') ∧ FramesEvents l B (gs ++ rest) evs' := by
  have hb' : st.inp.bytes = wireOf fs ++ (g.encode ++ wireOf rest) := by rw [hb, wireOf_append, wireOf_cons]
  obtain ⟨e, hr⟩ : ∃ e, refusal o1 (hdrOfFrame g) = some e := by
    unfold refusal
    have hlen : (hdrOfFrame g).len = g.payload.length := rfl
    have hop : (hdrOfFrame g).opcode = g.opcode := rfl
    have hlt := hv.2.2
    rw [hop, hlen]
    unfold Accepted isDataOpcode isControlOpcode mayStart at hn
    by_cases c0 : g.opcode = 0
    · rw [if_pos c0]
      cases o1
      · exact ⟨_, rfl⟩
      · exact absurd (.inl ⟨.inl c0, by rw [if_pos c0]⟩) hn
    · rw [if_neg c0]
      by_cases c1 : g.opcode = 1 ∨ g.opcode = 2
      · rw [if_pos c1]
        cases o1
        · exact absurd (.inl ⟨.inr c1, by rw [if_neg c0]⟩) hn
        · exact ⟨_, rfl⟩
      · rw [if_neg c1]
        by_cases c8 : g.opcode = 8 ∨ g.opcode = 9 ∨ g.opcode = 10
        · rw [if_pos c8]
          by_cases c : g.payload.length ≤ 125
          · exact absurd (.inr ⟨c8, c⟩) hn
          · rw [if_pos ⟨by omega, hlt⟩]; exact ⟨_, rfl⟩
        · rw [if_neg c8]; exact ⟨_, rfl⟩
  obtain ⟨evs, st1, e1, htr, hf, hb1, hU1⟩ := C88_after_refusal env h1 st l B o o1 hU fs ha _ hb' _ _ (parseHdr_encode g hv _) e hr
  rw [hg, ← wireOf_append] at hb1
  obtain ⟨evs2, st2, e2, htr2, hf2, _⟩ := C88_after_end env h2 st1 l B o1 o2 hU1 _ hgs hb1
  refine ⟨evs, evs2, st2, ?_, by rw [e1]; exact htr, hf, by rw [htr2, htr, List.append_assoc], hf2⟩
  show P.bind (listen env h1) (fun _ => P.bind (listen env h2) (fun _ => listens env [])) st = _
  rw [P.bind_apply, e1]
  show P.bind (listen env h2) (fun _ => listens env []) st1 = _
  rw [P.bind_apply, e2]
  rfl

/-- A text frame of 124 octets, and a ping whose payload is that frame's 126 octets. -/
def exInner : Frame := { fin := true, opcode := 1, payload := List.replicate 124 0x61 }
def exOuter : Frame := { fin := true, opcode := 9, payload := exInner.encode }

/-- The peer sent a ping of 126 octets (which it must not), and "abc". Two calls of `listen` hear a text message of 124 octets that was never sent, and "abc". -/
example := C88_payload_heard_as_frames Fixture.env default default (Fixture.receiving (wireOf ([] ++ exOuter :: [Fixture.text]))) 7 2 false false false
  (Fixture.undisturbed _ (by decide +kernel)) [] .nil exOuter ⟨by decide +kernel, nofun, by decide +kernel⟩
  (by rintro (⟨h, _⟩ | ⟨_, h⟩)
      · exact absurd h (by unfold isDataOpcode; decide)
      · exact absurd h (by decide +kernel))
  [exInner] [Fixture.text] (by rw [wireOf_one]; rfl)
  (.cons ⟨by decide +kernel, nofun, by decide +kernel⟩ (.inl ⟨.inr (.inl rfl), rfl⟩) (by decide +kernel)
    (.cons ⟨by decide +kernel, nofun, by decide +kernel⟩ (.inl ⟨.inr (.inl rfl), rfl⟩) (by decide +kernel) .nil)) rfl

/-- **C88** after an exception. For every listener (that leaves listener and configuration alone): when `listen` has ended because a callback threw while the frames `gs` were
heard, the callback was one for some frame `g` of them. What is left on the connection is the rest of the payload of `g` - nothing, unless it was thrown for a piece of data that is not the last - and then
the frames behind `g`; the socket is as ready to listen as before (it considers `g` received: `openAfterFrame`). Or the exception came after all of `gs` was heard. -/
theorem C88_after_exception (env : Env) (ht : env.Tame) (l B : Nat) (hB : 0 < B) (h : Header) (st : St) (hl : st.sock.listener = some l)
    (hs : st.sock.config.readBufferSize = B) (o o' : Bool) (ho : OpenIs o st.sock.lastOpcode) (hh : Healthy (st.inp.bytes.length + 1) st.inp.sched)
    (gs : List Frame) (ha : AcceptedAll o gs o') (tail : List UInt8) (hb : st.inp.bytes = wireOf gs ++ tail) (e : Err) (st' : St)
    (he0 : listenBody env h st = (.throw e, st')) (hc : e.ofCallback) :
    listen env h st = (.ret (), st') ∧ Threw env e st'.sock ∧
    ((∃ fs g rest p o1 evs evs', gs = fs ++ g :: rest ∧ AcceptedAll o fs o1 ∧ st'.sock.trace = st.sock.trace ++ (evs ++ evs') ∧ FramesEvents l B fs evs ∧ Begun l B g p evs' ∧
      st'.inp.bytes = (applyKey? g.maskKey g.payload).drop p ++ (wireOf rest ++ tail) ∧ st'.sock.listener = some l ∧ st'.sock.config = st.sock.config ∧
      OpenIs (openAfterFrame o1 g) st'.sock.lastOpcode ∧ Healthy (st'.inp.bytes.length + 1) st'.inp.sched) ∨
    (∃ evs more, st'.sock.trace = st.sock.trace ++ (evs ++ more) ∧ FramesEvents l B gs evs ∧ st'.inp.bytes <:+ tail)) := by
  refine ⟨by rw [listen_eq, he0], ?_⟩
  have he : listenLoop env (st.inp.sched.length + 1) h { st with sock := { st.sock with listening := true } } = (.throw e, st') := he0
  suffices main : ∀ (fuel : Nat) (h : Header) (st : St), st.inp.sched.length < fuel → st.sock.listener = some l → st.sock.config.readBufferSize = B → OpenIs o st.sock.lastOpcode →
      Healthy (st.inp.bytes.length + 1) st.inp.sched → st.inp.bytes = wireOf gs ++ tail → listenLoop env fuel h st = (.throw e, st') →
      Threw env e st'.sock ∧
      ((∃ fs g rest p o1 evs evs', gs = fs ++ g :: rest ∧ AcceptedAll o fs o1 ∧ st'.sock.trace = st.sock.trace ++ (evs ++ evs') ∧ FramesEvents l B fs evs ∧ Begun l B g p evs' ∧
        st'.inp.bytes = (applyKey? g.maskKey g.payload).drop p ++ (wireOf rest ++ tail) ∧ st'.sock.listener = some l ∧ st'.sock.config = st.sock.config ∧
        OpenIs (openAfterFrame o1 g) st'.sock.lastOpcode ∧ Healthy (st'.inp.bytes.length + 1) st'.inp.sched) ∨
      (∃ evs more, st'.sock.trace = st.sock.trace ++ (evs ++ more) ∧ FramesEvents l B gs evs ∧ st'.inp.bytes <:+ tail)) from
    main _ h { st with sock := { st.sock with listening := true } } (Nat.lt_succ_self _) hl hs ho hh hb he
  clear he he0 hl hs ho hh hb h st
  intro fuel h st hf hl hs ho hh hb he
  have hthrew : Threw env e st'.sock := by
    clear hb hh ho hs hl hf ha
    induction fuel generalizing h st with
    | zero => cases he
    | succ fuel ih =>
      unfold listenLoop at he
      rcases hi : iterateFrame env h st with ⟨(h' | e1 | _ | _), s'⟩ <;> rw [hi] at he <;> simp only [] at he
      · split at he
        · exact ih _ _ he
        · cases he
      · injection he with h1 h2
        injection h1 with h1
        subst h1 h2
        exact iterateFrame_blames h st _ _ hi hc
      all_goals cases he
  refine ⟨hthrew, ?_⟩
  clear hthrew
  induction ha generalizing fuel h st with
  | nil =>
    right
    obtain ⟨k, ds, r, evs, x, st2, e2, hL⟩ := listenLoop_receives env ht B hB fuel h st hf hs _ ho
    rw [he] at e2
    injection e2 with _ e2
    subst e2
    refine ⟨[], evs, hL.sock.trace, rfl, ?_⟩
    rw [hL.bytes, hb]
    exact List.drop_suffix _ _
  | @cons o g fs o' hv hacc h8 ha' ih =>
    cases fuel with
    | zero => omega
    | succ fuel =>
      rw [wireOf_cons, List.append_assoc] at hb
      obtain ⟨k, ds, fe, evs, st1, x, hk, e1, hb1, _, hone, hren, hsa, hfe⟩ := iterateFrame_handles env ht h st B hB hs o ho
      have hth := iterateFrame_thrifty env h st
      have hop := iterateFrame_openAny env h st o ho g hv hacc _ hb
      rw [e1] at hth hop
      rw [hl] at hren
      replace hren : Renders l B evs ds := hren
      unfold listenLoop at he
      rw [e1] at he
      by_cases hint : fe = .over .interrupted
      · subst hint
        obtain ⟨hx, _, _⟩ := hfe
        cases x with
        | ret a => exact absurd rfl (hx a)
        | block => cases he
        | ub u => cases he
        | throw e' =>
          simp only [] at he
          injection he with h1 h2
          injection h1 with h1
          subst h1 h2
          rw [hb] at hone hk
          obtain ⟨p, hp, hbeg, hdrop⟩ := oneFrame_interrupted hv hacc hk hone hren
          rw [← hb, ← hb1] at hdrop
          exact .inl ⟨[], g, fs, p, o, [], evs, rfl, .nil, hsa.trace, rfl, hbeg, hdrop, hsa.listener.trans hl, hsa.config, hop hc.1, hth hc.1 1 hh⟩
      · have hi := interpretFrame_accepted o g hv hacc (wireOf fs ++ tail)
        rw [if_neg h8, ← hb] at hi
        have hinc : fe = .over .incomplete → st.inp.bytes.take k = st.inp.bytes := by
          intro e; subst e
          rw [hfe.2 (hh.mono (by omega)), List.take_length]
        have hone' := oneFrame_interpret hone (List.take_prefix _ _) hint hinc
        rw [hi] at hone'
        injection hone' with g1 g2; injection g2 with g2 g3
        subst g2 g3
        obtain ⟨⟨h', rfl, hop'⟩, ho', hheal⟩ := hfe
        have hb2 : st1.inp.bytes = wireOf fs ++ tail := by
          have : st.inp.bytes.take k ++ st.inp.bytes.drop k = g.encode ++ (wireOf fs ++ tail) := by rw [List.take_append_drop, hb]
          rw [g1] at this
          rw [hb1]; exact List.append_cancel_left this
        have hprog := iterateFrame_progress env h st e1
        simp only [] at he
        split at he
        · have hfr : FrameEvents l B g evs := Renders.frame hacc hren
          rcases ih fuel h' st1 (by omega) (hsa.listener.trans hl) (by rw [hsa.config]; exact hs) ho' (hheal 1 hh) hb2 he with
            ⟨fs1, g', rest, p, o1, ev1, ev2, h1, h2, h3, h4, h5, h6, h7, h9, h10, h11⟩ | ⟨ev1, more, h1, h2, h3⟩
          · exact .inl ⟨g :: fs1, g', rest, p, o1, evs ++ ev1, ev2, by rw [h1]; rfl, .cons hv hacc h8 h2, by rw [h3, hsa.trace]; simp,
              ⟨evs, ev1, rfl, hfr, h4⟩, h5, h6, h7, h9.trans hsa.config, h10, h11⟩
          · exact .inr ⟨evs ++ ev1, more, by rw [h1, hsa.trace]; simp, ⟨evs, ev1, rfl, hfr, h2⟩, h3⟩
        · cases he

/-- A listener that throws at its second callback. -/
def exThrower : Env := { Fixture.env with react := fun tr => if tr.length = 2 then [.throw] else [] }

theorem exThrower_tame : exThrower.Tame := by
  intro tr op ho
  have : op ∈ (if tr.length = 2 then [UserOp.throw] else []) := ho
  split at this
  · rw [List.mem_singleton.mp this]; trivial
  · cases this

def exThrown : St := (listenBody exThrower default (Fixture.receiving (wireOf [Fixture.hel, Fixture.ping, Fixture.lo]))).2

theorem exThrown_eq : listenBody exThrower default (Fixture.receiving (wireOf [Fixture.hel, Fixture.ping, Fixture.lo])) = (.throw .user, exThrown) :=
  Prod.ext (by decide +kernel) rfl

/-- It throws when two octets of "Hel" were given to it. The third stays where it was: the next call would take it for the beginning of a header. -/
example : listen exThrower default (Fixture.receiving (wireOf [Fixture.hel, Fixture.ping, Fixture.lo])) = (.ret (), exThrown) ∧ Threw exThrower .user exThrown.sock ∧
    exThrown.sock.trace = [.readMessage 7 1 [0x48], .readMessage 7 1 [0x65]] ∧ exThrown.inp.bytes = [0x6c ^^^ 3] ++ wireOf [Fixture.ping, Fixture.lo] := by
  obtain ⟨h1, h2, _⟩ := C88_after_exception exThrower exThrower_tame 7 2 (by decide) default (Fixture.receiving (wireOf [Fixture.hel, Fixture.ping, Fixture.lo])) rfl rfl false true rfl
    (by decide) [Fixture.hel, Fixture.ping, Fixture.lo] Fixture.accepted [] (by rw [List.append_nil]; rfl) .user exThrown exThrown_eq
    ⟨fun h => h, fun h => h, by decide⟩
  exact ⟨h1, h2, by decide +kernel, by decide +kernel⟩

/-! ### The same with `listenAsync` -/

theorem parts_step {env : Env} {h : Header} {st : St} {l B : Nat} {o : Bool} (hU : Undisturbed env st l B o) {fs : List Frame} {heard : List (List Frame)}
    (hP : Parts o st.inp.bytes (fs :: heard)) : ∃ evs st', listen env h st = (.ret (), st') ∧ st'.sock.trace = st.sock.trace ++ evs ∧ FramesEvents l B fs evs ∧
      (heard = [] ∨ ∃ o', Undisturbed env st' l B o' ∧ Parts o' st'.inp.bytes heard) := by
  generalize hbs : st.inp.bytes = bytes at hP
  generalize hh : fs :: heard = all at hP
  cases hP with
  | closed ha hv h8 h125 hP' =>
    injection hh with h1 h2
    subst h1 h2
    obtain ⟨evs, st', e, htr, hf, hb, hU'⟩ := C88_after_close env h st l B _ _ hU _ ha _ hv h8 h125 _ hbs
    exact ⟨evs, st', e, htr, hf, .inr ⟨_, hU', by rw [hb]; exact hP'⟩⟩
  | refused ha hp hr hP' =>
    injection hh with h1 h2
    subst h1 h2
    obtain ⟨evs, st', e, htr, hf, hb, hU'⟩ := C88_after_refusal env h st l B _ _ hU _ ha _ hbs _ _ hp _ hr
    exact ⟨evs, st', e, htr, hf, .inr ⟨_, hU', by rw [hb]; exact hP'⟩⟩
  | ended ha =>
    injection hh with h1 h2
    subst h1 h2
    obtain ⟨evs, st', e, htr, hf, _⟩ := C88_after_end env h st l B _ _ hU _ ha hbs
    exact ⟨evs, st', e, htr, hf, .inl rfl⟩
  | none => cases hh

theorem listen_ends {env : Env} {h : Header} {st st' : St} (he : listen env h st = (.ret (), st')) :
    (listenBody env h st).2 = st' ∧ ((listenBody env h st).1 = .ret () ∨ ∃ e, (listenBody env h st).1 = .throw e) := by
  rw [listen_eq] at he
  rcases hb : listenBody env h st with ⟨(a | e | _ | _), s⟩ <;> rw [hb] at he
  · injection he with _ h2; exact ⟨h2, .inl rfl⟩
  · injection he with _ h2; exact ⟨h2, .inr ⟨e, rfl⟩⟩
  · cases he
  · cases he

open Async in
/-- **C88** for coroutines: `listenAsync` called again and again on an asynchronous WebSocket shares out the bytes in the same way. (It does tell why it ended: with an error when
a frame was refused.) -/
theorem C88_async_repeatedly (env : Env) (hp : PlainListener env) (st : St) (w : World) (hw : SameSt w.st st) (l B : Nat) (o : Bool) (hU : Undisturbed env st l B o)
    (heard : List (List Frame)) (hP : Parts o st.inp.bytes heard) (hs : List Header) (hn : hs.length = heard.length) :
    (∃ w', ListensAsync env hs w w') ∧
    ∀ w', ListensAsync env hs w w' → ∃ evs, w'.st.sock.trace = w.st.sock.trace ++ evs ∧ FramesEvents l B heard.flatten evs := by
  have htr : ∀ {a b : St}, SameSt a b → a.sock.trace = b.sock.trace := by
    intro a b h
    have := congrArg (fun s => s.sock.trace) h
    exact this
  induction heard generalizing st w o hs with
  | nil =>
    rw [List.length_eq_zero_iff.mp hn]
    refine ⟨⟨w, .done⟩, fun w' h => ?_⟩
    cases h
    exact ⟨[], by simp, rfl⟩
  | cons fs heard ih =>
    cases hs with
    | nil => cases hn
    | cons h hs =>
      obtain ⟨evs, st', e, ht1, hf, hrest⟩ := parts_step (h := default) hU hP
      obtain ⟨hb, hend⟩ := listen_ends e
      obtain ⟨⟨o1, w1, hr1⟩, hall⟩ := C28_async_listen env hp default h st w hw (by rw [hU.size]; exact Int.natCast_pos.mpr hU.pos)
      have key : ∀ o1 w1, Runs env (listenTask h) w o1 w1 → (o1 = .finished ∨ ∃ e, o1 = .failed e) ∧ SameSt w1.st st' := by
        intro o1 w1 hr
        obtain ⟨h1, h2⟩ := hall o1 w1 hr
        rw [hb] at h2
        refine ⟨?_, h2⟩
        rcases hend with hx | ⟨er, hx⟩ <;> rw [hx] at h1
        · cases o1 <;> first | exact .inl rfl | exact h1.elim
        · cases o1 <;> first | exact .inr ⟨_, rfl⟩ | exact h1.elim
      have tail : ∀ w1, SameSt w1.st st' → (∃ w', ListensAsync env hs w1 w') ∧
          ∀ w', ListensAsync env hs w1 w' → ∃ evs', w'.st.sock.trace = w1.st.sock.trace ++ evs' ∧ FramesEvents l B heard.flatten evs' := by
        intro w1 h2
        rcases hrest with rfl | ⟨o', hU', hP'⟩
        · have h0 : hs = [] := List.length_eq_zero_iff.mp (by simpa using hn)
          subst h0
          refine ⟨⟨w1, .done⟩, fun w' h => ?_⟩
          cases h
          exact ⟨[], by simp, rfl⟩
        · exact ih st' w1 h2 o' hU' hP' hs (by simpa using hn)
      obtain ⟨h1, h2⟩ := key o1 w1 hr1
      obtain ⟨⟨w2, hw2⟩, _⟩ := tail w1 h2
      refine ⟨⟨w2, .call hr1 h1 hw2⟩, fun w' hl => ?_⟩
      cases hl with
      | call hr _ hl' =>
        obtain ⟨_, h2⟩ := key _ _ hr
        obtain ⟨evs', ht2, hf2⟩ := (tail _ h2).2 _ hl'
        exact ⟨evs ++ evs', by rw [ht2, htr h2, ht1, htr hw, List.append_assoc], framesEvents_append hf hf2⟩

/-- The three calls above, as coroutines. -/
example := C88_async_repeatedly Fixture.env (fun tr op h => absurd h List.not_mem_nil) (Fixture.receiving exAgain) { st := Fixture.receiving exAgain } rfl 7 2 false
  (Fixture.undisturbed _ (by decide)) _ exAgain_parts [default, default, default] rfl

end OatWS
