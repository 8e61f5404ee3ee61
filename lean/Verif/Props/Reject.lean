import Verif.Props.Receive
/-! # C10, C11, C12, C13, C14, C16, C19: refused frames, message state, close -/

namespace OatWS
open RFC6455

theorem parseHdr_eaten {T h rest} (hp : parseHdr T = some (h, rest)) : T = T.take (T.length - rest.length) ++ rest := by
  obtain ⟨a, e, _⟩ := parseHdr_suffix hp
  rw [e]; simp

/-- A single frame read with `iterateFrame`. -/
theorem iterateFrame_over (env : Env) (ht : env.Tame) (hret : env.Returns) (B : Nat) (hB : 0 < B) (h : Header) (st : St)
    (hs : st.sock.config.readBufferSize = B) (o : Bool) (ho : OpenIs o st.sock.lastOpcode)
    (hh : Healthy (st.inp.bytes.length + 1) st.inp.sched) (eaten rest : List UInt8) (D : List Delivery) (fe : FrameEnd)
    (hi : interpretFrame o st.inp.bytes = (eaten, D, fe)) (hrest : st.inp.bytes = eaten ++ rest) :
    ∃ evs x st', iterateFrame env h st = (x, st') ∧ st'.inp.bytes = rest ∧ RendersFor st.sock.listener B evs D ∧
      st'.sock.trace = st.sock.trace ++ evs ∧ FrameExit fe st st' eaten.length env x (fun h => some h.opcode) := by
  obtain ⟨k, ds, fe', evs, st', x, hk, e, hb, _, hone, hren, hsa, hfe⟩ := iterateFrame_handles env ht h st B hB hs o ho
  have hne : fe' ≠ .over .interrupted := by
    intro e; subst e; exact hfe.2.2 hret
  have hinc : fe' = .over .incomplete → st.inp.bytes.take k = st.inp.bytes := by
    intro e; subst e
    rw [hfe.2 (hh.mono (by omega)), List.take_length]
  have := oneFrame_interpret hone (List.take_prefix _ _) hne hinc
  rw [hi] at this
  injection this with g1 g2; injection g2 with g2 g3
  subst g2 g3
  have hkl : eaten.length = k := by rw [← g1, List.length_take, Nat.min_eq_left hk]
  refine ⟨evs, x, st', e, ?_, hren, hsa.trace, by rw [hkl]; exact hfe⟩
  have : st.inp.bytes.take k ++ st.inp.bytes.drop k = eaten ++ rest := by rw [List.take_append_drop, hrest]
  rw [g1] at this
  rw [hb]; exact List.append_cancel_left this

/-- Shape of the three refusals: header consumed, nothing else, no callback, error. -/
theorem refused (env : Env) (h : Header) (st : St) (l B : Nat) (o o' : Bool) (hU : Undisturbed env st l B o)
    (fs : List Frame) (ha : AcceptedAll o fs o') (tail : List UInt8) (hb : st.inp.bytes = wireOf fs ++ tail) (hd : Hdr)
    (rest : List UInt8) (hp : parseHdr tail = some (hd, rest)) (r : Reason) (err : Err)
    (hi : interpretFrame o' tail = (tail.take (tail.length - rest.length), [], .over r))
    (hends : ∀ x, EndsLike r x → x = .throw err) :
    ∃ evs st', listenBody env h st = (.throw err, st') ∧ listen env h st = (.ret (), st') ∧
      FramesEvents l B fs evs ∧ st'.sock.trace = st.sock.trace ++ evs ∧ st'.inp.bytes = rest := by
  obtain ⟨evs, evs', x, st', e1, e2, hbytes, hf, hr, htr, hx, _⟩ := listen_then_over env hU.tame hU.passive l B hU.pos h st
    hU.listener hU.size o o' hU.isOpen hU.healthy fs tail hb ha _ _ _ hi rest (parseHdr_eaten hp)
  rw [hr.nil_inv, List.append_nil] at htr
  rw [hends x hx] at e1
  exact ⟨evs, st', e1, e2, hf, htr, hbytes⟩

/-! ## C10 -/

/-- **C10.** After any acceptable frames, a ping, pong or close header announcing 126 or more bytes: listening ends with an
error, there is no callback for it, and exactly its header was consumed: all bytes behind it are unread. -/
theorem C10_oversized_control (env : Env) (h : Header) (st : St) (l B : Nat) (o o' : Bool) (hU : Undisturbed env st l B o)
    (fs : List Frame) (ha : AcceptedAll o fs o') (tail : List UInt8) (hb : st.inp.bytes = wireOf fs ++ tail) (hd : Hdr)
    (rest : List UInt8) (hp : parseHdr tail = some (hd, rest)) (hc : hd.opcode = 8 ∨ hd.opcode = 9 ∨ hd.opcode = 10)
    (hlen : 126 ≤ hd.len) (hlen' : hd.len < 2 ^ 63) :
    ∃ evs st', listenBody env h st = (.throw .controlTooLong, st') ∧ listen env h st = (.ret (), st') ∧
      FramesEvents l B fs evs ∧ st'.sock.trace = st.sock.trace ++ evs ∧ st'.inp.bytes = rest := by
  refine refused env h st l B o o' hU fs ha tail hb hd rest hp .badControl _ ?_ (fun x hx => hx)
  unfold interpretFrame
  rw [hp]
  simp only []
  rw [if_neg (by omega), if_neg (by omega), if_neg (by omega), if_pos hc, if_pos (by rw [effectiveLen_small hlen']; omega)]

/-- A ping announcing 126 bytes behind a text frame. -/
example : ∃ evs st', listenBody Fixture.env default (Fixture.receiving (wireOf [Fixture.text] ++ [0x89, 0x7E, 0, 126, 1, 2, 3]))
      = (.throw .controlTooLong, st') ∧
    listen Fixture.env default (Fixture.receiving (wireOf [Fixture.text] ++ [0x89, 0x7E, 0, 126, 1, 2, 3])) = (.ret (), st') ∧
      FramesEvents 7 2 [Fixture.text] evs ∧ st'.sock.trace = [] ++ evs ∧ st'.inp.bytes = [1, 2, 3] :=
  C10_oversized_control Fixture.env default _ 7 2 false false (Fixture.undisturbed _ (by decide)) [Fixture.text]
    (.cons ⟨by decide, nofun, by decide⟩ (.inl ⟨.inr (.inl rfl), rfl⟩) (by decide) .nil) [0x89, 0x7E, 0, 126, 1, 2, 3] rfl
    ⟨true, false, false, false, 9, none, 126⟩ [1, 2, 3] (by decide) (by decide) (by decide) (by decide)

/-- **C10** for `iterateFrame`: it throws; no callback; only the header is consumed. -/
theorem C10_iterateFrame (env : Env) (ht : env.Tame) (hret : env.Returns) (B : Nat) (hB : 0 < B) (h : Header) (st : St)
    (hs : st.sock.config.readBufferSize = B) (o : Bool) (ho : OpenIs o st.sock.lastOpcode)
    (hh : Healthy (st.inp.bytes.length + 1) st.inp.sched) (hd : Hdr) (rest : List UInt8)
    (hp : parseHdr st.inp.bytes = some (hd, rest)) (hc : hd.opcode = 8 ∨ hd.opcode = 9 ∨ hd.opcode = 10)
    (hlen : 126 ≤ hd.len) (hlen' : hd.len < 2 ^ 63) :
    ∃ st', iterateFrame env h st = (.throw .controlTooLong, st') ∧ st'.sock.trace = st.sock.trace ∧ st'.inp.bytes = rest := by
  obtain ⟨evs, x, st', e, hb, hr, htr, hfe⟩ := iterateFrame_over env ht hret B hB h st hs o ho hh _ rest [] (.over .badControl)
    (by
      unfold interpretFrame
      rw [hp]
      simp only []
      rw [if_neg (by omega), if_neg (by omega), if_neg (by omega), if_pos hc,
        if_pos (by rw [effectiveLen_small hlen']; omega)]) (parseHdr_eaten hp)
  have : evs = [] := by
    cases hl : st.sock.listener with
    | none => rw [hl] at hr; exact hr
    | some l => rw [hl] at hr; exact Renders.nil_inv hr
  subst this
  rw [List.append_nil] at htr
  cases hfe
  exact ⟨st', e, htr, hb⟩

example : ∃ st', iterateFrame Fixture.env default (Fixture.receiving [0x89, 0x7E, 0, 126, 1, 2, 3]) = (.throw .controlTooLong, st') ∧
    st'.sock.trace = [] ∧ st'.inp.bytes = [1, 2, 3] :=
  C10_iterateFrame Fixture.env Fixture.env_quiet.tame (fun tr s => ⟨s, by rw [Fixture.env_quiet tr]; rfl⟩) 2 (by decide) default (Fixture.receiving [0x89, 0x7E, 0, 126, 1, 2, 3]) rfl false rfl (by decide)
    ⟨true, false, false, false, 9, none, 126⟩ [1, 2, 3] (by decide) (by decide) (by decide) (by decide)

/-! ## C11 -/

/-- **C11.** A frame with a reserved opcode (3-7, 11-15): error, no callback, no payload consumed. -/
theorem C11_unknown_opcode (env : Env) (h : Header) (st : St) (l B : Nat) (o o' : Bool) (hU : Undisturbed env st l B o)
    (fs : List Frame) (ha : AcceptedAll o fs o') (tail : List UInt8) (hb : st.inp.bytes = wireOf fs ++ tail) (hd : Hdr)
    (rest : List UInt8) (hp : parseHdr tail = some (hd, rest))
    (hop : (3 ≤ hd.opcode ∧ hd.opcode ≤ 7) ∨ (11 ≤ hd.opcode ∧ hd.opcode ≤ 15)) :
    ∃ evs st', listenBody env h st = (.throw .unknownFrame, st') ∧ listen env h st = (.ret (), st') ∧
      FramesEvents l B fs evs ∧ st'.sock.trace = st.sock.trace ++ evs ∧ st'.inp.bytes = rest := by
  refine refused env h st l B o o' hU fs ha tail hb hd rest hp .badOpcode _ ?_ (fun x hx => hx)
  unfold interpretFrame
  rw [hp]
  simp only []
  rw [if_neg (by omega), if_neg (by omega), if_neg (by omega), if_neg (by omega)]

example : ∃ evs st', listenBody Fixture.env default (Fixture.receiving (wireOf [Fixture.text] ++ [0x83, 0x02, 1, 2]))
      = (.throw .unknownFrame, st') ∧
    listen Fixture.env default (Fixture.receiving (wireOf [Fixture.text] ++ [0x83, 0x02, 1, 2])) = (.ret (), st') ∧
      FramesEvents 7 2 [Fixture.text] evs ∧ st'.sock.trace = [] ++ evs ∧ st'.inp.bytes = [1, 2] :=
  C11_unknown_opcode Fixture.env default _ 7 2 false false (Fixture.undisturbed _ (by decide)) [Fixture.text]
    (.cons ⟨by decide, nofun, by decide⟩ (.inl ⟨.inr (.inl rfl), rfl⟩) (by decide) .nil) [0x83, 0x02, 1, 2] rfl
    ⟨true, false, false, false, 3, none, 2⟩ [1, 2] (by decide) (by decide)

/-! ## C12 -/

/-- **C12** (continuation without a message). -/
theorem C12_continuation_without_start (env : Env) (h : Header) (st : St) (l B : Nat) (o : Bool) (hU : Undisturbed env st l B o)
    (fs : List Frame) (ha : AcceptedAll o fs false) (tail : List UInt8) (hb : st.inp.bytes = wireOf fs ++ tail) (hd : Hdr)
    (rest : List UInt8) (hp : parseHdr tail = some (hd, rest)) (hop : hd.opcode = 0) :
    ∃ evs st', listenBody env h st = (.throw .continuationState, st') ∧ listen env h st = (.ret (), st') ∧
      FramesEvents l B fs evs ∧ st'.sock.trace = st.sock.trace ++ evs ∧ st'.inp.bytes = rest := by
  refine refused env h st l B o false hU fs ha tail hb hd rest hp .badContinuation _ ?_ (fun x hx => hx)
  unfold interpretFrame
  rw [hp]
  simp only []
  rw [if_pos ⟨hop, trivial⟩]

example : ∃ evs st', listenBody Fixture.env default (Fixture.receiving (wireOf [Fixture.text] ++ [0x80, 0x01, 0x41])) = (.throw .continuationState, st') ∧
    listen Fixture.env default (Fixture.receiving (wireOf [Fixture.text] ++ [0x80, 0x01, 0x41])) = (.ret (), st') ∧
    FramesEvents 7 2 [Fixture.text] evs ∧ st'.sock.trace = [] ++ evs ∧ st'.inp.bytes = [0x41] :=
  C12_continuation_without_start Fixture.env default _ 7 2 false (Fixture.undisturbed _ (by decide)) [Fixture.text]
    (.cons ⟨by decide, nofun, by decide⟩ (.inl ⟨.inr (.inl rfl), rfl⟩) (by decide) .nil) [0x80, 0x01, 0x41] rfl
    ⟨true, false, false, false, 0, none, 1⟩ [0x41] (by decide) rfl

/-- **C12** (new message inside a fragmented one). -/
theorem C12_start_inside_message (env : Env) (h : Header) (st : St) (l B : Nat) (o : Bool) (hU : Undisturbed env st l B o)
    (fs : List Frame) (ha : AcceptedAll o fs true) (tail : List UInt8) (hb : st.inp.bytes = wireOf fs ++ tail) (hd : Hdr)
    (rest : List UInt8) (hp : parseHdr tail = some (hd, rest)) (hop : hd.opcode = 1 ∨ hd.opcode = 2) :
    ∃ evs st', listenBody env h st = (.throw .continuationExpected, st') ∧ listen env h st = (.ret (), st') ∧
      FramesEvents l B fs evs ∧ st'.sock.trace = st.sock.trace ++ evs ∧ st'.inp.bytes = rest := by
  refine refused env h st l B o true hU fs ha tail hb hd rest hp .badStart _ ?_ (fun x hx => hx)
  unfold interpretFrame
  rw [hp]
  simp only []
  rw [if_neg (by omega), if_pos ⟨hop, trivial⟩]

/-- A continuation frame as the very first frame; a text frame after the first fragment "Hel" and a ping. -/
example : AcceptedAll false [] false ∧ AcceptedAll false [Fixture.hel, Fixture.ping] true ∧
    parseHdr [0x80, 0x01, 0x41] = some (⟨true, false, false, false, 0, none, 1⟩, [0x41]) ∧
    Undisturbed Fixture.env (Fixture.receiving (wireOf [Fixture.hel, Fixture.ping] ++ [0x81, 0x01, 0x41])) 7 2 false := by
  refine ⟨.nil, .cons ⟨by decide, ?_, by decide⟩ (.inl ⟨.inr (.inl rfl), rfl⟩) (by decide) (.cons ⟨by decide, ?_, by decide⟩
    (.inr ⟨.inr (.inl rfl), by decide⟩) (by decide) .nil), by decide, Fixture.undisturbed _ (by decide)⟩
  all_goals (intro k hk; injection hk with hk; rw [← hk]; rfl)

/-! ## C13 -/

/-- Open-message state according to RFC 6455 5.4: a data frame leaves a message open iff it is not final. -/
def rfcOpenAfter (isOpen : Bool) (f : Frame) : Bool := if isDataFrame f then !f.fin else isOpen

/-- Frame sequences that RFC 6455 5.4/5.5 allows (without a close frame). -/
inductive RfcSequence : Bool → List Frame → Bool → Prop
  | nil {o} : RfcSequence o [] o
  | cons {o f fs o'} : f.Valid → Accepted o f → f.opcode ≠ 8 → RfcSequence (rfcOpenAfter o f) fs o' →
      RfcSequence o (f :: fs) o'

/-- **C13**, full statement: every sequence of messages that the RFC allows is heard completely, and behind a complete
message a continuation frame is refused. -/
def C13_statement : Prop := ∀ (env : Env) (h : Header) (st : St) (l B : Nat) (fs : List Frame) (o' : Bool),
  Undisturbed env st l B false → RfcSequence false fs o' →
    (st.inp.bytes = wireOf fs → ∃ evs st', listen env h st = (.ret (), st') ∧ st'.sock.trace = st.sock.trace ++ evs ∧
      FramesEvents l B fs evs) ∧
    (∀ (f : Frame) (rest : List UInt8), o' = false → f.opcode = 0 → f.Valid → st.inp.bytes = wireOf fs ++ (f.encode ++ rest) →
      ∃ evs st' e, listenBody env h st = (.throw e, st') ∧ st'.sock.trace = st.sock.trace ++ evs ∧
      FramesEvents l B fs evs)

theorem Fixture.rfc : RfcSequence false [Fixture.hel, Fixture.lo, Fixture.text] false := by
  refine .cons ⟨by decide, ?_, by decide⟩ (.inl ⟨.inr (.inl rfl), rfl⟩) (by decide) (.cons ⟨by decide, ?_, by decide⟩
    (.inl ⟨.inl rfl, rfl⟩) (by decide) (.cons ⟨by decide, nofun, by decide⟩ (.inl ⟨.inr (.inl rfl), rfl⟩) (by decide) .nil))
  all_goals (intro k hk; injection hk with hk; rw [← hk]; rfl)

theorem framesEvents_count {l B fs evs} (o o' : Bool) (h : FramesEvents l B fs evs) (hr : RfcSequence o fs o') :
    evs.countP Event.isEnd = fs.countP (fun f => isDataFrame f && f.fin) := by
  induction hr generalizing evs with
  | nil => rw [show evs = [] from h]; rfl
  | @cons o f fs o' hv hacc h8 _ ih =>
    obtain ⟨e, es, rfl, h1, h2⟩ := h
    have := framesEvents_ends l B [f] e o _ (.cons hv hacc h8 .nil) ⟨e, [], by simp, h1, rfl⟩
    rw [List.countP_append, ih h2, this, List.countP_cons, List.countP_cons]
    simp; omega

/-- **C13 is violated** by the code: `m_lastOpcode` is not reset by a final continuation frame (WebSocket.cpp:206-211), so
that after the fragmented message "Hel" "lo" the text frame "abc" is refused. -/
theorem C13_violated : ¬ C13_statement := by
  intro h
  obtain ⟨h, _⟩ := h Fixture.env default (Fixture.receiving (wireOf [Fixture.hel, Fixture.lo, Fixture.text])) 7 2 _ _
    (Fixture.undisturbed _ (by decide)) Fixture.rfc
  obtain ⟨evs, st', e, htr, hf⟩ := h rfl
  have hc := framesEvents_count false false hf Fixture.rfc
  have : ((listen Fixture.env default (Fixture.receiving (wireOf [Fixture.hel, Fixture.lo, Fixture.text]))).2.sock.trace).countP
      Event.isEnd = 1 := by decide +kernel
  rw [e] at this
  simp only [] at this
  rw [htr] at this
  have e0 : (Fixture.receiving (wireOf [Fixture.hel, Fixture.lo, Fixture.text])).sock.trace = [] := rfl
  rw [e0, List.nil_append, hc] at this
  revert this
  decide

/-- **C13 is violated** in the other direction as well: behind the complete message "Hel" "lo" a further continuation frame
is accepted and its payload delivered. -/
theorem C13_violated_stray_continuation :
    (listenBody Fixture.env default (Fixture.receiving (wireOf [Fixture.hel, Fixture.lo] ++ [0x80, 0x01, 0x41]))).2.sock.trace
      = [.readMessage 7 1 [0x48], .readMessage 7 1 [0x65], .readMessage 7 1 [0x6c],
         .readMessage 7 0 [0x6c], .readMessage 7 0 [0x6f], .readMessage 7 0 [],
         .readMessage 7 0 [0x41], .readMessage 7 0 []] := by decide +kernel

/-- No frame of the sequence is a final continuation frame that has data frames behind it. -/
def NoReuse : List Frame → Prop
  | [] => True
  | f :: fs => (f.opcode = 0 → f.fin = true → ∀ g ∈ fs, isDataFrame g = false) ∧ NoReuse fs

theorem accepted_of_noData {o o1 o'} {fs : List Frame} (h : RfcSequence o fs o') (hd : ∀ g ∈ fs, isDataFrame g = false) :
    AcceptedAll o1 fs o1 := by
  induction h generalizing o1 with
  | nil => exact .nil
  | @cons o f fs o' hv hacc h8 _ ih =>
    have hf := hd f (by simp)
    have hc : isControlOpcode f.opcode ∧ f.payload.length ≤ 125 := by
      rcases hacc with ⟨hdat, _⟩ | hc
      · unfold isDataOpcode at hdat; simp [isDataFrame, hdat] at hf
      · exact hc
    have hoa : openAfterFrame o1 f = o1 := by
      unfold openAfterFrame
      rw [if_neg]
      have := hc.1
      unfold isControlOpcode at this; omega
    refine .cons hv (.inr hc) h8 ?_
    rw [hoa]
    exact ih (fun g hg => hd g (by simp [hg]))

theorem accepted_of_rfc {o o'} {fs : List Frame} (h : RfcSequence o fs o') (hn : NoReuse fs) : ∃ o'', AcceptedAll o fs o'' := by
  induction h with
  | nil => exact ⟨_, .nil⟩
  | @cons o f fs o' hv hacc h8 hrest ih =>
    by_cases hcase : f.opcode = 0 ∧ f.fin = true
    · exact ⟨_, .cons hv hacc h8 (accepted_of_noData hrest (hn.1 hcase.1 hcase.2))⟩
    · have : rfcOpenAfter o f = openAfterFrame o f := by
        unfold rfcOpenAfter openAfterFrame isDataFrame
        rcases hacc with ⟨hd, hm⟩ | ⟨hc, _⟩
        · unfold isDataOpcode at hd; unfold mayStart at hm
          rcases hd with hd | hd
          · rw [if_pos hd] at hm
            have hf : f.fin = false := by
              cases hf : f.fin with
              | false => rfl
              | true => exact absurd ⟨hd, hf⟩ hcase
            simp [hd, hf, hm]
          · have : ¬ f.opcode = 0 := by omega
            simp [hd]
        · unfold isControlOpcode at hc
          have h1 : ¬ (f.opcode = 0 ∨ f.opcode = 1 ∨ f.opcode = 2) := by omega
          have h2 : ¬ (f.opcode = 1 ∨ f.opcode = 2) := by omega
          have h3 : ¬ f.opcode = 0 := by omega
          simp [h2, h3]
      rw [this] at ih hrest
      obtain ⟨o'', h''⟩ := ih hn.2
      exact ⟨o'', .cons hv hacc h8 h''⟩

/-- **C13**, the part that holds: sequences in which no data frame follows the end of a *fragmented* message (any number of
unfragmented messages, then at most one fragmented one, with pings and pongs anywhere) are heard completely. Missing: data
frames behind a fragmented message, see `C13_violated`. -/
theorem C13_partial (env : Env) (h : Header) (st : St) (l B : Nat) (fs : List Frame) (o' : Bool)
    (hU : Undisturbed env st l B false) (hr : RfcSequence false fs o') (hn : NoReuse fs) (hb : st.inp.bytes = wireOf fs) :
    ∃ evs st', listen env h st = (.ret (), st') ∧ st'.sock.trace = st.sock.trace ++ evs ∧ FramesEvents l B fs evs ∧
      st'.inp.bytes = [] := by
  obtain ⟨o'', ha⟩ := accepted_of_rfc hr hn
  exact C08_C09_frames_heard env h st l B false o'' hU fs ha hb

/-- Two unfragmented messages, then a fragmented one with a ping inside and a ping behind. -/
example : RfcSequence false [Fixture.text, Fixture.text, Fixture.hel, Fixture.ping, Fixture.lo, Fixture.ping] false ∧
    NoReuse [Fixture.text, Fixture.text, Fixture.hel, Fixture.ping, Fixture.lo, Fixture.ping] := by
  have key : ∀ (f : Frame) k, f.maskKey = some k → f.maskKey.all (fun k => k.length = 4) = true → k.length = 4 := by
    intro f k hk h; rw [hk] at h; simpa using h
  refine ⟨?_, ?_⟩
  · exact .cons ⟨by decide, fun k hk => key _ k hk (by decide), by decide⟩ (.inl ⟨.inr (.inl rfl), rfl⟩) (by decide)
      (.cons ⟨by decide, fun k hk => key _ k hk (by decide), by decide⟩ (.inl ⟨.inr (.inl rfl), rfl⟩) (by decide)
      (.cons ⟨by decide, fun k hk => key _ k hk (by decide), by decide⟩ (.inl ⟨.inr (.inl rfl), rfl⟩) (by decide)
      (.cons ⟨by decide, fun k hk => key _ k hk (by decide), by decide⟩ (.inr ⟨.inr (.inl rfl), by decide⟩) (by decide)
      (.cons ⟨by decide, fun k hk => key _ k hk (by decide), by decide⟩ (.inl ⟨.inl rfl, rfl⟩) (by decide)
      (.cons ⟨by decide, fun k hk => key _ k hk (by decide), by decide⟩ (.inr ⟨.inr (.inl rfl), by decide⟩) (by decide) .nil)))))
  · refine ⟨by decide, by decide, by decide, by decide, by decide, by decide, trivial⟩

/-! ## C14 -/

/-- The type of the message a data frame belongs to: `current` is the type of the open message, if any. -/
def messageType (current : Nat) (f : Frame) : Nat := if f.opcode = 0 then current else f.opcode

/-- The callbacks for a data frame carry the message type. -/
def CarriesType (t : Nat) (evs : List Event) : Prop := ∀ l op d, Event.readMessage l op d ∈ evs → op.toNat = t

/-- **C14**, full statement, for a fragmented message: all callbacks of first and last fragment carry the message type. -/
def C14_statement : Prop := ∀ (env : Env) (h : Header) (st : St) (l B : Nat) (first last : Frame),
  Undisturbed env st l B false → (first.opcode = 1 ∨ first.opcode = 2) → AcceptedAll false [first, last] true →
    st.inp.bytes = wireOf [first, last] →
    ∃ evs st', listen env h st = (.ret (), st') ∧ st'.sock.trace = st.sock.trace ++ evs ∧ CarriesType first.opcode evs

/-- **C14 is violated** by the code: the callbacks for a continuation frame carry opcode 0 (WebSocket.cpp:175, 181, 198
pass the frame's opcode). -/
theorem C14_violated : ¬ C14_statement := by
  intro h
  have hacc : AcceptedAll false [Fixture.hel, Fixture.lo] true := by
    refine .cons ⟨by decide, ?_, by decide⟩ (.inl ⟨.inr (.inl rfl), rfl⟩) (by decide) (.cons ⟨by decide, ?_, by decide⟩
      (.inl ⟨.inl rfl, rfl⟩) (by decide) .nil)
    all_goals (intro k hk; injection hk with hk; rw [← hk]; rfl)
  obtain ⟨evs, st', e, htr, hc⟩ := h Fixture.env default (Fixture.receiving (wireOf [Fixture.hel, Fixture.lo])) 7 2 Fixture.hel Fixture.lo
    (Fixture.undisturbed _ (by decide)) (.inl rfl) hacc rfl
  have : Event.readMessage 7 0 [0x6c] ∈ (listen Fixture.env default (Fixture.receiving (wireOf [Fixture.hel, Fixture.lo]))).2.sock.trace := by
    decide +kernel
  rw [e] at this
  simp only [] at this
  rw [htr] at this
  have e0 : (Fixture.receiving (wireOf [Fixture.hel, Fixture.lo])).sock.trace = [] := rfl
  rw [e0, List.nil_append] at this
  have := hc _ _ _ this
  revert this
  decide

theorem frameEvents_type (l B : Nat) (f : Frame) (evs : List Event) (hop : isDataFrame f = true)
    (h : FrameEvents l B f evs) : CarriesType f.opcode evs := by
  have hop : f.opcode = 0 ∨ f.opcode = 1 ∨ f.opcode = 2 := by simpa [isDataFrame] using hop
  unfold FrameEvents at h
  rw [if_neg (by omega), if_neg (by omega), if_neg (by omega)] at h
  obtain ⟨pieces, ⟨opc, chunks, e1, _, _, rfl⟩, rfl⟩ := h
  intro l' op d hm
  rcases List.mem_append.mp hm with hm | hm
  · obtain ⟨c, _, e⟩ := List.mem_map.mp hm
    injection e with _ e _
    rw [← e, e1]
  · split at hm
    · have := List.mem_singleton.mp hm
      injection this with _ e _
      rw [e, ofNat8 (by omega)]
    · cases hm

/-- The callbacks are those of the frames one after the other, `R` relating each frame to its own. -/
def PerFrame (R : Frame → List Event → Prop) : List Frame → List Event → Prop
  | [], evs => evs = []
  | f :: fs, evs => ∃ e es, evs = e ++ es ∧ R f e ∧ PerFrame R fs es

theorem FramesEvents.perFrame {R : Frame → List Event → Prop} {l B fs evs} (hR : ∀ f e, f ∈ fs → FrameEvents l B f e → R f e)
    (h : FramesEvents l B fs evs) : PerFrame R fs evs := by
  induction fs generalizing evs with
  | nil => exact h
  | cons f fs ih =>
    obtain ⟨e, es, rfl, h1, h2⟩ := h
    exact ⟨e, es, rfl, hR f e (by simp) h1, ih (fun g e hg => hR g e (by simp [hg])) h2⟩

/-- **C14**, what the code does instead, for every sequence of acceptable frames: all callbacks of a data frame carry the opcode
of that *frame*, which is 0 for a continuation frame. -/
theorem C14_actual (env : Env) (h : Header) (st : St) (l B : Nat) (o o' : Bool) (hU : Undisturbed env st l B o)
    (fs : List Frame) (ha : AcceptedAll o fs o') (hb : st.inp.bytes = wireOf fs) :
    ∃ evs st', listen env h st = (.ret (), st') ∧ st'.sock.trace = st.sock.trace ++ evs ∧
      PerFrame (fun f e => FrameEvents l B f e ∧ (isDataFrame f = true → CarriesType f.opcode e)) fs evs := by
  obtain ⟨evs, st', e, htr, hf, _⟩ := C08_C09_frames_heard env h st l B o o' hU fs ha hb
  exact ⟨evs, st', e, htr, hf.perFrame fun f e _ he => ⟨he, fun hd => frameEvents_type l B f e hd he⟩⟩

/-- **C14**, the part that holds: with unfragmented messages (and pings and pongs in between) every `readMessage` of a message
carries its type, TEXT or BINARY. Missing: continuation frames, see `C14_violated` and `C14_actual`. -/
theorem C14_partial (env : Env) (h : Header) (st : St) (l B : Nat) (o o' : Bool) (hU : Undisturbed env st l B o)
    (fs : List Frame) (ha : AcceptedAll o fs o') (hb : st.inp.bytes = wireOf fs) (hnf : ∀ f ∈ fs, f.opcode ≠ 0) :
    ∃ evs st', listen env h st = (.ret (), st') ∧ st'.sock.trace = st.sock.trace ++ evs ∧
      PerFrame (fun f e => FrameEvents l B f e ∧ (isDataFrame f = true → (f.opcode = 1 ∨ f.opcode = 2) ∧ CarriesType f.opcode e)) fs evs := by
  obtain ⟨evs, st', e, htr, hf, _⟩ := C08_C09_frames_heard env h st l B o o' hU fs ha hb
  refine ⟨evs, st', e, htr, hf.perFrame fun f e hm he => ⟨he, fun hd => ⟨?_, frameEvents_type l B f e hd he⟩⟩⟩
  have := hnf f hm
  have hop : f.opcode = 0 ∨ f.opcode = 1 ∨ f.opcode = 2 := by simpa [isDataFrame] using hd
  omega

/-- A text message and a ping. -/
example : AcceptedAll false [Fixture.text, Fixture.ping] false ∧ ∀ f ∈ [Fixture.text, Fixture.ping], f.opcode ≠ 0 := by
  refine ⟨.cons ⟨by decide, nofun, by decide⟩ (.inl ⟨.inr (.inl rfl), rfl⟩) (by decide) (.cons ⟨by decide, ?_, by decide⟩
    (.inr ⟨.inr (.inl rfl), by decide⟩) (by decide) .nil), by decide⟩
  intro k hk; injection hk with hk; rw [← hk]; rfl

example : FrameEvents 7 2 Fixture.text [.readMessage 7 1 [0x61, 0x62], .readMessage 7 1 [0x63], .readMessage 7 1 []] :=
  ⟨_, ⟨1, [[0x61, 0x62], [0x63]], rfl, rfl, by decide, rfl⟩, rfl⟩

/-! ## C16 -/

/-- **C16.** A close frame (payload at most 125 bytes) behind any acceptable frames: `onClose` is the last callback, `listen`
returns normally, and the bytes behind the close frame are unread. -/
theorem C16_close_ends_listening (env : Env) (h : Header) (st : St) (l B : Nat) (o o' : Bool) (hU : Undisturbed env st l B o)
    (fs : List Frame) (ha : AcceptedAll o fs o') (f : Frame) (hv : f.Valid) (h8 : f.opcode = 8) (h125 : f.payload.length ≤ 125)
    (rest : List UInt8) (hb : st.inp.bytes = wireOf fs ++ (f.encode ++ rest)) :
    ∃ evs code st', listenBody env h st = (.ret (), st') ∧ listen env h st = (.ret (), st') ∧ FramesEvents l B fs evs ∧
      st'.sock.trace = st.sock.trace ++ (evs ++ [.onClose l code (f.payload.drop 2)]) ∧ st'.inp.bytes = rest ∧
      code.toNat = (if 2 ≤ f.payload.length then fromBigEndian (f.payload.take 2) else 0) := by
  have hacc : Accepted o' f := .inr ⟨.inl h8, h125⟩
  have hi := interpretFrame_accepted o' f hv hacc rest
  rw [if_pos h8] at hi
  obtain ⟨evs, evs', x, st', e1, e2, hbytes, hf, hr, htr, hx, _⟩ := listen_then_over env hU.tame hU.passive l B hU.pos h st
    hU.listener hU.size o o' hU.isOpen hU.healthy fs _ hb ha _ _ _ hi rest rfl
  have hfe := hr.frame hacc
  unfold FrameEvents at hfe
  rw [if_neg (by omega), if_neg (by omega), if_pos h8] at hfe
  obtain ⟨code, hcode, rfl⟩ := hfe
  cases hx
  exact ⟨evs, code, st', e1, e2, hf, htr, hbytes, hcode⟩

/-- In what the specification delivers, nothing follows a close. -/
theorem receives_close_last {o bs ds r} (hrec : Receives o bs ds r) :
    ∀ ds1 ds2 c p, ds = ds1 ++ .close c p :: ds2 → ds2 = [] := by
  have one : ∀ {o bs ds fe}, OneFrame o bs ds fe → (∀ ds1 ds2 c p, ds = ds1 ++ .close c p :: ds2 → ds2 = []) ∧
      ((∃ o', fe = .next o') → ∀ c p, .close c p ∉ ds) := by
    intro o bs ds fe hone
    have nodata : ∀ (b : Bool) op (d : List UInt8) c p,
        Delivery.close c p ∉ (Delivery.data op d :: if b = true then [Delivery.endOfMessage op] else []) := by
      intro b op d c p hm
      cases b <;> simp at hm
    have single : ∀ (x : Delivery) ds1 ds2 c p, [x] = ds1 ++ .close c p :: ds2 → ds2 = [] := by
      intro x ds1 ds2 c p e
      cases ds1 with
      | nil => injection e with _ e; exact e.symm
      | cons _ ds1 => injection e with _ e; cases ds1 <;> cases e
    have none : ∀ ds1 ds2 c p, ([] : List Delivery) = ds1 ++ .close c p :: ds2 → ds2 = [] := by
      intro ds1 ds2 c p e; cases ds1 <;> cases e
    have nomem : ∀ {ds : List Delivery}, (∀ c p, Delivery.close c p ∉ ds) → ∀ ds1 ds2 c p, ds = ds1 ++ .close c p :: ds2 → ds2 = [] := by
      intro ds hm ds1 ds2 c p e
      exact absurd (by rw [e]; simp) (hm c p)
    cases hone with
    | noHeader => exact ⟨none, by rintro ⟨_, e⟩; cases e⟩
    | badOpcode => exact ⟨none, by rintro ⟨_, e⟩; cases e⟩
    | badContinuation => exact ⟨none, by rintro ⟨_, e⟩; cases e⟩
    | badStart => exact ⟨none, by rintro ⟨_, e⟩; cases e⟩
    | cutData => exact ⟨single _, by rintro ⟨_, e⟩; cases e⟩
    | data => exact ⟨nomem (nodata _ _ _), fun _ => nodata _ _ _⟩
    | badControl => exact ⟨none, by rintro ⟨_, e⟩; cases e⟩
    | cutControl => exact ⟨none, by rintro ⟨_, e⟩; cases e⟩
    | close => exact ⟨single _, by rintro ⟨_, e⟩; cases e⟩
    | pingPong hp h9 =>
      refine ⟨single _, fun _ c p hm => ?_⟩
      have := List.mem_singleton.mp hm
      unfold controlDelivery at this
      rcases h9 with h9 | h9
      · rw [if_pos h9] at this; cases this
      · rw [if_neg (by omega), if_pos h9] at this; cases this
    | interruptedData => exact ⟨single _, by rintro ⟨_, e⟩; cases e⟩
    | interruptedEnd => exact ⟨nomem (nodata true _ _), by rintro ⟨_, e⟩; cases e⟩
    | interruptedControl => exact ⟨single _, by rintro ⟨_, e⟩; cases e⟩
  induction hrec with
  | last h1 => exact (one h1).1
  | stop h1 => exact (one h1).1
  | @more _ _ ds1 _ _ ds' _ h1 _ ih =>
    intro d1 d2 c p e
    rcases List.append_eq_append_iff.mp e with ⟨a, e1, e2⟩ | ⟨a, e1, e2⟩
    · cases a with
      | nil =>
        exact ih [] d2 c p e2
      | cons x a =>
        exact ih (x :: a) d2 c p e2
    · cases a with
      | nil => exact ih [] d2 c p (by simpa using e2.symm)
      | cons x a =>
        injection e2 with e2 e3
        subst e2
        exact absurd (by rw [e1]; simp) ((one h1).2 ⟨_, rfl⟩ c p)

/-- **C16**, for every schedule and every listener that keeps listener and configuration (it may throw, send, stop): behind
`onClose` there is no further callback. -/
theorem C16_nothing_after_close (env : Env) (ht : env.Tame) (l B : Nat) (hB : 0 < B) (h : Header) (st : St)
    (hl : st.sock.listener = some l) (hs : st.sock.config.readBufferSize = B) (o : Bool) (ho : OpenIs o st.sock.lastOpcode) :
    ∃ evs x st', listenBody env h st = (x, st') ∧ st'.sock.trace = st.sock.trace ++ evs ∧
      ∀ i code reason, evs[i]? = some (.onClose l code reason) → i + 1 = evs.length := by
  obtain ⟨k, ds, r, evs, x, st', e, _, _, hrec, hren, htr, _⟩ := C06_any_schedule env ht B hB h st hs o ho
  refine ⟨evs, x, st', e, htr, ?_⟩
  rw [hl] at hren
  replace hren : Renders l B evs ds := hren
  have hds := receives_close_last hrec
  have : ∀ {evs ds}, Renders l B evs ds → ∀ i code reason, evs[i]? = some (.onClose l code reason) →
      ∃ ds1 ds2 c p, ds = ds1 ++ .close c p :: ds2 ∧ Renders l B (evs.drop (i + 1)) ds2 := by
    intro evs ds hren
    induction hren with
    | nil => intro i code reason e; cases e
    | @data op chunks evs ds hc hr ih =>
      intro i code reason e
      by_cases hi : i < (chunks.map (Event.readMessage l op)).length
      · rw [List.getElem?_append_left hi, List.getElem?_map] at e
        cases hci : chunks[i]? with
        | none => rw [hci] at e; cases e
        | some => rw [hci] at e; cases e
      · rw [List.getElem?_append_right (by omega)] at e
        obtain ⟨ds1, ds2, c, p, rfl, h2⟩ := ih _ code reason e
        refine ⟨.data op.toNat chunks.flatten :: ds1, ds2, c, p, rfl, ?_⟩
        rw [List.drop_append, List.drop_of_length_le (by omega), List.nil_append]
        rw [show i + 1 - (chunks.map (Event.readMessage l op)).length
          = i - (chunks.map (Event.readMessage l op)).length + 1 by omega]
        exact h2
    | endOfMessage hr ih =>
      intro i code reason e
      cases i with
      | zero => cases e
      | succ i => obtain ⟨ds1, ds2, c, p, rfl, h2⟩ := ih i code reason e; exact ⟨_ :: ds1, ds2, c, p, rfl, h2⟩
    | ping hr ih =>
      intro i code reason e
      cases i with
      | zero => cases e
      | succ i => obtain ⟨ds1, ds2, c, p, rfl, h2⟩ := ih i code reason e; exact ⟨_ :: ds1, ds2, c, p, rfl, h2⟩
    | pong hr ih =>
      intro i code reason e
      cases i with
      | zero => cases e
      | succ i => obtain ⟨ds1, ds2, c, p, rfl, h2⟩ := ih i code reason e; exact ⟨_ :: ds1, ds2, c, p, rfl, h2⟩
    | close hr ih =>
      intro i code reason e
      cases i with
      | zero => exact ⟨[], _, _, _, rfl, hr⟩
      | succ i => obtain ⟨ds1, ds2, c, p, rfl, h2⟩ := ih i code reason e; exact ⟨_ :: ds1, ds2, c, p, rfl, h2⟩
  intro i code reason e
  obtain ⟨ds1, ds2, c, p, e1, h2⟩ := this hren i code reason e
  have := hds ds1 ds2 c p e1
  subst this
  have := congrArg List.length h2.nil_inv
  rw [List.length_drop] at this
  have hi := (List.getElem?_eq_some_iff.mp e).1
  simp at this
  omega

example : ∃ evs code st', listenBody Fixture.env default (Fixture.receiving (wireOf [Fixture.hel, Fixture.ping, Fixture.lo]
      ++ (Fixture.closing.encode ++ [0x81, 0]))) = (.ret (), st') ∧
    listen Fixture.env default (Fixture.receiving (wireOf [Fixture.hel, Fixture.ping, Fixture.lo]
      ++ (Fixture.closing.encode ++ [0x81, 0]))) = (.ret (), st') ∧
    FramesEvents 7 2 [Fixture.hel, Fixture.ping, Fixture.lo] evs ∧
    st'.sock.trace = [] ++ (evs ++ [.onClose 7 code [0x78]]) ∧ st'.inp.bytes = [0x81, 0] ∧ code.toNat = 1000 :=
  C16_close_ends_listening Fixture.env default _ 7 2 false true (Fixture.undisturbed _ (by decide)) _ Fixture.accepted
    Fixture.closing ⟨by decide, nofun, by decide⟩ rfl (by decide) [0x81, 0] rfl

/-! ## C19 -/

/-- **C19**, full statement: a 64-bit length with the top bit set is an error. -/
def C19_statement : Prop := ∀ (env : Env) (h : Header) (st : St) (l B : Nat) (o : Bool) (hd : Hdr) (rest : List UInt8),
  Undisturbed env st l B o → parseHdr st.inp.bytes = some (hd, rest) → 2 ^ 63 ≤ hd.len →
    ∃ e st', iterateFrame env h st = (.throw e, st')

/-- A text frame announcing 2^63 bytes. -/
def Fixture.hugeText : List UInt8 := [0x81, 0x7F, 0x80, 0, 0, 0, 0, 0, 0, 0]

/-- **C19 is violated** by the code: the length becomes negative in `v_int64 payloadLength` (WebSocket.cpp:97), the payload
loop does not run, and the frame counts as an empty message. -/
theorem C19_violated : ¬ C19_statement := by
  intro h
  obtain ⟨e, st', he⟩ := h Fixture.env default (Fixture.receiving Fixture.hugeText) 7 2 false
    ⟨true, false, false, false, 1, none, 2 ^ 63⟩ [] (Fixture.undisturbed _ (by decide)) (by decide) (by decide)
  have : (iterateFrame Fixture.env default (Fixture.receiving Fixture.hugeText)).1.isRet = true := by decide +kernel
  rw [he] at this
  cases this

/-- **C19**, what the code does instead, for every such data frame: it is handled as an empty frame, and the bytes behind
its header are taken for the next frame. -/
theorem C19_actual (env : Env) (h : Header) (st : St) (l B : Nat) (o : Bool) (hU : Undisturbed env st l B o) (hd : Hdr)
    (rest : List UInt8) (hp : parseHdr st.inp.bytes = some (hd, rest)) (hlen : 2 ^ 63 ≤ hd.len)
    (hop : hd.opcode = 0 ∨ hd.opcode = 1 ∨ hd.opcode = 2) (hm : mayStart o hd.opcode) :
    ∃ h' st', iterateFrame env h st = (.ret h', st') ∧ st'.inp.bytes = rest ∧
      st'.sock.trace = st.sock.trace ++ if hd.fin then [.readMessage l (UInt8.ofNat hd.opcode) []] else [] := by
  have hm' := hm
  unfold mayStart at hm
  have he : effectiveLen hd.len = 0 := by unfold effectiveLen; rw [if_neg (by omega)]
  obtain ⟨evs, x, st', e, hb, hr, htr, hfe⟩ := iterateFrame_over env hU.tame hU.passive.returns B hU.pos h st hU.size o
    hU.isOpen hU.healthy (st.inp.bytes.take (st.inp.bytes.length - rest.length)) rest
    (.data hd.opcode [] :: if hd.fin then [.endOfMessage hd.opcode] else []) (.next (openAfter o hd))
    (by
      unfold interpretFrame
      rw [hp]
      simp only []
      generalize (if hd.fin = true then [Delivery.endOfMessage hd.opcode] else []) = marker
      rw [if_neg (fun e => by rw [if_pos e.1, e.2] at hm; cases hm),
        if_neg (fun e => by rw [if_neg (by omega), e.2] at hm; cases hm), if_pos hop, he, if_neg (by omega)]
      simp [applyKey?_nil]) (parseHdr_eaten hp)
  obtain ⟨⟨a, rfl, _⟩, _⟩ := hfe
  refine ⟨a, st', e, hb, ?_⟩
  rw [htr]
  congr 1
  rw [hU.listener] at hr
  have hfr : FrameEvents l B { fin := hd.fin, opcode := hd.opcode, payload := [] } evs :=
    Renders.frame (o := o) (.inl ⟨hop, hm'⟩) (by
      rw [frameDeliveries, if_pos hop]; exact hr)
  unfold FrameEvents at hfr
  simp only [] at hfr
  rw [if_neg (by omega), if_neg (by omega), if_neg (by omega)] at hfr
  obtain ⟨pieces, ⟨opc, chunks, e1, e2, e3, rfl⟩, rfl⟩ := hfr
  have : chunks = [] := by
    cases chunks with
    | nil => rfl
    | cons c cs =>
      have h1 := (e3 c (by simp)).1
      have h2 := congrArg List.length e2
      rw [List.flatten_cons, List.length_append] at h2
      simp at h2
      rw [h2.1] at h1; simp at h1
  rw [this]; rfl

example : ∃ h' st', iterateFrame Fixture.env default (Fixture.receiving Fixture.hugeText) = (.ret h', st') ∧ st'.inp.bytes = [] ∧
    st'.sock.trace = [] ++ [.readMessage 7 1 []] :=
  C19_actual Fixture.env default _ 7 2 false (Fixture.undisturbed _ (by decide)) ⟨true, false, false, false, 1, none, 2 ^ 63⟩ []
    (by decide) (by decide) (by decide) rfl

/-- **C19**, what the code does instead with such a control frame: it is an empty ping, pong, or close without a code. -/
theorem C19_actual_control (env : Env) (h : Header) (st : St) (l B : Nat) (o : Bool) (hU : Undisturbed env st l B o) (hd : Hdr)
    (rest : List UInt8) (hp : parseHdr st.inp.bytes = some (hd, rest)) (hlen : 2 ^ 63 ≤ hd.len)
    (hop : hd.opcode = 8 ∨ hd.opcode = 9 ∨ hd.opcode = 10) :
    ∃ h' st', iterateFrame env h st = (.ret h', st') ∧ st'.inp.bytes = rest ∧
      st'.sock.trace = st.sock.trace ++
        [if hd.opcode = 9 then .onPing l [] else if hd.opcode = 10 then .onPong l [] else .onClose l 0 []] := by
  have he : effectiveLen hd.len = 0 := by unfold effectiveLen; rw [if_neg (by omega)]
  obtain ⟨evs, x, st', e, hb, hr, htr, hfe⟩ := iterateFrame_over env hU.tame hU.passive.returns B hU.pos h st hU.size o
    hU.isOpen hU.healthy (st.inp.bytes.take (st.inp.bytes.length - rest.length)) rest
    [controlDelivery hd.opcode []] (if hd.opcode = 8 then .over .closed else .next o)
    (by
      unfold interpretFrame
      rw [hp]
      simp only []
      rw [if_neg (by omega), if_neg (by omega), if_neg (by omega), if_pos hop, he, if_neg (by omega), if_neg (by omega)]
      simp [applyKey?_nil]) (parseHdr_eaten hp)
  have hx : ∃ h', x = .ret h' := by
    split at hfe
    · obtain ⟨⟨a, h1, _⟩, _⟩ := hfe; exact ⟨a, h1⟩
    · obtain ⟨⟨a, h1, _⟩, _⟩ := hfe; exact ⟨a, h1⟩
  obtain ⟨h', rfl⟩ := hx
  refine ⟨h', st', e, hb, ?_⟩
  rw [htr]
  congr 1
  rw [hU.listener] at hr
  replace hr : Renders l B evs [controlDelivery hd.opcode []] := hr
  unfold controlDelivery at hr
  by_cases h9 : hd.opcode = 9
  · rw [if_pos h9] at hr ⊢
    cases hr with | ping h => rw [h.nil_inv]
  · rw [if_neg h9] at hr ⊢
    by_cases h10 : hd.opcode = 10
    · rw [if_pos h10] at hr ⊢
      cases hr with | pong h => rw [h.nil_inv]
    · rw [if_neg h10] at hr ⊢
      rw [if_neg (by decide)] at hr
      have : ∀ n, n = 0 → Renders l B evs [.close n []] → evs = [.onClose l 0 []] := by
        intro n hn hr
        cases hr with
        | @close code _ _ _ h =>
          rw [h.nil_inv, show code = 0 from UInt16.toNat_inj.mp hn]
      exact this 0 rfl hr

example : ∃ h' st', iterateFrame Fixture.env default (Fixture.receiving [0x88, 0x7F, 0xFF, 0, 0, 0, 0, 0, 0, 0, 5]) = (.ret h', st') ∧
    st'.inp.bytes = [5] ∧ st'.sock.trace = [] ++ [.onClose 7 0 []] :=
  C19_actual_control Fixture.env default _ 7 2 false (Fixture.undisturbed _ (by decide)) ⟨true, false, false, false, 8, none, 0xFF * 2 ^ 56⟩
    [5] (by decide) (by decide) (by decide)

end OatWS
