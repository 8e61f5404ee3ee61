import Verif.Proofs.Answers
/-! # C51: answering from inside callbacks -/

namespace OatWS
open RFC6455

/-- The frames of the answers to the callbacks `evs` of a socket in state `s`, on the wire. -/
def answerBytes (env : Env) (s : Sock) (evs : List Event) : List UInt8 :=
  wireOf (framesFrom env s.config.maskOutgoingMessages s.rngPos (answers env s.trace evs))

/-- **C51.** Any listener (that keeps listener and configuration, and sends less than 2^31 bytes at once) and the same listener without
its sends, on the same connection: `listen` ends the same way, with the same callbacks, the same bytes consumed and the same
socket state, as long as the writes do not fail; and what is written is exactly the frames of the sends, in the order made. -/
theorem C51_sends_do_not_disturb (env : Env) (ht : env.Tame) (hs : env.SmallSends) (h : Header) (st : St) :
    ∃ evs x st0, listenBody env.silent h st = (x, st0) ∧ st0.sock.trace = st.sock.trace ++ evs ∧
      (Healthy (answerBytes env st.sock evs).length st.sock.out.sched →
        ∃ st', listenBody env h st = (x, st') ∧ st'.inp = st0.inp ∧
          st'.sock = { st0.sock with out := st'.sock.out, rngPos := st'.sock.rngPos } ∧
          st'.sock.out.written = st.sock.out.written ++ answerBytes env st.sock evs) := by
  obtain ⟨evs, h1, h2⟩ := listenLoop_two ht hs (st.inp.sched.length + 1) h { st with sock := { st.sock with listening := true } }
    { st with sock := { st.sock with listening := true } } (.refl _) rfl
  have e0 : listenBody env.silent h st = listenLoop env.silent (st.inp.sched.length + 1) h { st with sock := { st.sock with listening := true } } := rfl
  have e1 : listenBody env h st = listenLoop env (st.inp.sched.length + 1) h { st with sock := { st.sock with listening := true } } := rfl
  rw [← e0] at h1 h2
  rw [← e1] at h2
  rcases hm0 : listenBody env.silent h st with ⟨x, st0⟩
  rcases hm : listenBody env h st with ⟨x', st'⟩
  rw [hm0] at h1 h2
  rw [hm] at h2
  refine ⟨evs, x, st0, rfl, h1, fun hh => ?_⟩
  obtain ⟨g1, g2, g3, g4⟩ := h2 hh
  simp only [] at g1
  subst g1
  exact ⟨st', rfl, g3, g2, g4.written⟩

/-- **C51** for `iterateFrame`. -/
theorem C51_iterateFrame (env : Env) (ht : env.Tame) (hs : env.SmallSends) (h : Header) (st : St) :
    ∃ evs x st0, iterateFrame env.silent h st = (x, st0) ∧ st0.sock.trace = st.sock.trace ++ evs ∧
      (Healthy (answerBytes env st.sock evs).length st.sock.out.sched →
        ∃ st', iterateFrame env h st = (x, st') ∧ st'.inp = st0.inp ∧
          st'.sock = { st0.sock with out := st'.sock.out, rngPos := st'.sock.rngPos } ∧
          st'.sock.out.written = st.sock.out.written ++ answerBytes env st.sock evs) := by
  obtain ⟨evs, h1, h2⟩ := iterateFrame_two ht hs h st st (.refl _) rfl
  rcases hm0 : iterateFrame env.silent h st with ⟨x, st0⟩
  rcases hm : iterateFrame env h st with ⟨x', st'⟩
  rw [hm0] at h1 h2
  rw [hm] at h2
  refine ⟨evs, x, st0, rfl, h1, fun hh => ?_⟩
  obtain ⟨g1, g2, g3, g4⟩ := h2 hh
  simp only [] at g1
  subst g1
  exact ⟨st', rfl, g3, g2, g4.written⟩

/-- The listener's reactions consist of sends only. -/
def Env.OnlySends (env : Env) : Prop := ∀ tr, ∀ op ∈ env.react tr, op.isSend = true

theorem Env.OnlySends.quiet {env : Env} (h : env.OnlySends) : env.silent.Quiet := by
  intro tr
  show (env.react tr).filter _ = []
  rw [List.filter_eq_nil_iff]
  intro op ho
  simp [h tr op ho]

theorem Env.OnlySends.tame {env : Env} (h : env.OnlySends) : env.Tame := by
  intro tr op ho
  have := h tr op ho
  cases op <;> first | trivial | cases this

/-- **C51**, receiving frames and answering: a listener that only sends. It hears all frames, as one that does nothing, and its answers are on the wire in
the order of the callbacks. -/
theorem C51_frames_answered (env : Env) (ho : env.OnlySends) (hs : env.SmallSends) (h : Header) (st : St) (l B : Nat) (o o' : Bool)
    (hl : st.sock.listener = some l) (hB : st.sock.config.readBufferSize = B) (hpos : 0 < B) (hop : OpenIs o st.sock.lastOpcode)
    (hin : Healthy (st.inp.bytes.length + 1) st.inp.sched) (fs : List Frame) (ha : AcceptedAll o fs o') (hb : st.inp.bytes = wireOf fs)
    (hout : ∀ evs, FramesEvents l B fs evs → Healthy (answerBytes env st.sock evs).length st.sock.out.sched) :
    ∃ evs st', listen env h st = (.ret (), st') ∧ st'.sock.trace = st.sock.trace ++ evs ∧ FramesEvents l B fs evs ∧
      st'.inp.bytes = [] ∧ st'.sock.out.written = st.sock.out.written ++ answerBytes env st.sock evs := by
  have hU : Undisturbed env.silent st l B o := ⟨ho.quiet.tame, ho.quiet.passive, hl, hB, hpos, hop, hin⟩
  obtain ⟨evs, st0, e0, htr0, hf, hbytes⟩ := C08_C09_frames_heard env.silent h st l B o o' hU fs ha hb
  obtain ⟨evs', x, st1, e1, htr1, hh⟩ := C51_sends_do_not_disturb env ho.tame hs h st
  have hst : st1 = st0 := by
    rw [listen_eq, e1] at e0
    cases x <;> simp only [] at e0 <;> injection e0
  subst hst
  have hev : evs' = evs := by
    rw [htr0] at htr1
    exact (List.append_cancel_left htr1).symm
  subst hev
  obtain ⟨st', e', hi, hsock, hw⟩ := hh (hout _ hf)
  refine ⟨evs', st', ?_, ?_, hf, ?_, hw⟩
  · rw [listen_eq, e']
    rw [listen_eq, e1] at e0
    cases x <;> simp only [] at e0 ⊢ <;> first | rfl | (injection e0 with e0; cases e0)
  · rw [show st'.sock.trace = st1.sock.trace by rw [hsock], htr0]
  · rw [hi]; exact hbytes

/-! ### Pings answered with pongs -/

/-- A listener that answers every ping with a pong of the same payload, and does nothing else. (There are no pings above 125 bytes.) -/
structure Env.AnswersPings (env : Env) : Prop where
  ping : ∀ tr l p, p.length ≤ 125 → env.react (tr ++ [.onPing l p]) = [.send (.pong (some p)) false]
  long : ∀ tr l p, ¬ p.length ≤ 125 → env.react (tr ++ [.onPing l p]) = []
  other : ∀ tr e, (∀ l p, e ≠ .onPing l p) → env.react (tr ++ [e]) = []
  none : env.react [] = []

/-- The payloads of the pings among the frames. -/
def pingPayloads (fs : List Frame) : List (List UInt8) := (fs.filter fun f => f.opcode = 9).map Frame.payload

theorem pings_short {o fs o'} (ha : AcceptedAll o fs o') : ∀ f ∈ fs, f.opcode = 9 → f.payload.length ≤ 125 := by
  induction ha with
  | nil => nofun
  | cons hv hacc _ _ ih =>
    intro f hf h9
    rcases List.mem_cons.mp hf with rfl | hf
    · rcases hacc with ⟨h, _⟩ | ⟨_, h⟩
      · unfold isDataOpcode at h; omega
      · exact h
    · exact ih f hf h9

theorem answers_pings {env : Env} (h : env.AnswersPings) {l B fs evs} (hlen : ∀ f ∈ fs, f.opcode = 9 → f.payload.length ≤ 125)
    (hf : FramesEvents l B fs evs) (tr : List Event) :
    answers env tr evs = (pingPayloads fs).map fun p => SendCall.pong (some p) := by
  have silentEv : ∀ (tr evs : List Event), (∀ e ∈ evs, ∀ l p, e ≠ .onPing l p) → answers env tr evs = [] := by
    intro tr evs
    induction evs generalizing tr with
    | nil => intro _; rfl
    | cons e evs ih =>
      intro hn
      rw [answers, h.other tr e (hn e (by simp)), ih _ (fun e he => hn e (by simp [he]))]
      rfl
  induction fs generalizing evs tr with
  | nil => rw [show evs = [] from hf]; rfl
  | cons f fs ih =>
    obtain ⟨e, es, rfl, h1, h2⟩ := hf
    rw [answers_append, ih (fun f hf => hlen f (by simp [hf])) h2]
    unfold FrameEvents at h1
    by_cases h9 : f.opcode = 9
    · rw [if_pos h9] at h1
      subst h1
      simp only [answers, h.ping tr l f.payload (hlen f (by simp) h9), sendsOf, pingPayloads, List.filter_cons, h9, decide_true, if_true, List.map_cons]
      rfl
    · rw [if_neg h9] at h1
      have : answers env tr e = [] := by
        refine silentEv tr e ?_
        intro ev hev l' p' he
        subst he
        split at h1
        · subst h1; cases List.mem_singleton.mp hev
        · split at h1
          · obtain ⟨_, _, h1⟩ := h1; subst h1; cases List.mem_singleton.mp hev
          · obtain ⟨pieces, ⟨opc, chunks, _, _, _, rfl⟩, rfl⟩ := h1
            rcases List.mem_append.mp hev with hm | hm
            · obtain ⟨_, _, h⟩ := List.mem_map.mp hm; cases h
            · split at hm
              · cases List.mem_singleton.mp hm
              · cases hm
      rw [this, List.nil_append]
      simp only [pingPayloads, List.filter_cons, h9, decide_false]
      rfl

/-- **C51**, pings: whatever frames arrive, every ping is answered by one pong with the same payload, in order, and nothing else is sent. -/
theorem C51_pings_answered (env : Env) (hp : env.AnswersPings) (h : Header) (st : St) (l B : Nat) (o o' : Bool)
    (hl : st.sock.listener = some l) (hB : st.sock.config.readBufferSize = B) (hpos : 0 < B) (hop : OpenIs o st.sock.lastOpcode)
    (hin : Healthy (st.inp.bytes.length + 1) st.inp.sched) (fs : List Frame) (ha : AcceptedAll o fs o') (hb : st.inp.bytes = wireOf fs)
    (pongs : List Frame) (hpongs : pongs = framesFrom env st.sock.config.maskOutgoingMessages st.sock.rngPos
      ((pingPayloads fs).map fun p => SendCall.pong (some p)))
    (hout : Healthy (wireOf pongs).length st.sock.out.sched) :
    ∃ evs st', listen env h st = (.ret (), st') ∧ st'.sock.trace = st.sock.trace ++ evs ∧ FramesEvents l B fs evs ∧
      st'.sock.out.written = st.sock.out.written ++ wireOf pongs ∧
      pongs.map (fun f => (f.opcode, f.fin, f.payload)) = (pingPayloads fs).map fun p => (10, true, p) := by
  have hcases : ∀ tr, env.react tr = [] ∨ ∃ p : List UInt8, p.length ≤ 125 ∧ env.react tr = [.send (.pong (some p)) false] := by
    intro tr
    rcases List.eq_nil_or_concat tr with rfl | ⟨tr, e, rfl⟩
    · exact .inl hp.none
    · rw [List.concat_eq_append]
      by_cases he : ∃ l p, e = .onPing l p
      · obtain ⟨l, p, rfl⟩ := he
        by_cases hl : p.length ≤ 125
        · exact .inr ⟨p, hl, hp.ping tr l p hl⟩
        · exact .inl (hp.long tr l p hl)
      · exact .inl (hp.other tr e (fun l p h => he ⟨l, p, h⟩))
  have honly : env.OnlySends := by
    intro tr op ho
    rcases hcases tr with h | ⟨p, _, h⟩ <;> rw [h] at ho
    · cases ho
    · rw [List.mem_singleton.mp ho]; rfl
  have hsmall : env.SmallSends := by
    intro tr c b ho
    rcases hcases tr with h | ⟨p, hl, h⟩ <;> rw [h] at ho
    · cases ho
    · cases List.mem_singleton.mp ho
      exact Nat.lt_of_le_of_lt hl (by decide)
  have hans : ∀ evs, FramesEvents l B fs evs → answerBytes env st.sock evs = wireOf pongs := by
    intro evs hf
    unfold answerBytes
    rw [answers_pings hp (pings_short ha) hf, hpongs]
  obtain ⟨evs, st', e, htr, hf, _, hw⟩ := C51_frames_answered env honly hsmall h st l B o o' hl hB hpos hop hin fs ha hb
    (fun evs hf => by rw [hans evs hf]; exact hout)
  refine ⟨evs, st', e, htr, hf, by rw [hw, hans evs hf], ?_⟩
  rw [hpongs]
  generalize st.sock.rngPos = pos
  generalize st.sock.config.maskOutgoingMessages = m
  generalize pingPayloads fs = ps
  induction ps generalizing pos with
  | nil => rfl
  | cons p ps ih => simp only [List.map_cons, framesFrom, ih]; rfl

/-! ### Non-vacuity -/

/-- The usual ping-answering listener. -/
def Fixture.ponger : Env := { Fixture.env with react := fun tr => match tr.getLast? with
  | some (.onPing _ p) => if p.length ≤ 125 then [.send (.pong (some p)) false] else []
  | _ => [] }

theorem Fixture.ponger_answers : Fixture.ponger.AnswersPings where
  ping := by intro tr l p hp; simp [Fixture.ponger, hp]
  long := by intro tr l p hp; simp [Fixture.ponger, hp]
  other := by
    intro tr e he
    simp only [Fixture.ponger, List.getLast?_append, List.getLast?_singleton, Option.some_or]
    cases e <;> first | rfl | exact absurd rfl (he _ _)
  none := rfl

/-- It answers the ping between the two fragments of a message. -/
example : ∃ evs st', listen Fixture.ponger default { Fixture.receiving (wireOf [Fixture.hel, Fixture.ping, Fixture.lo]) with
      sock := { (Fixture.receiving []).sock with out := ⟨[], Fixture.slow 3⟩ } } = (.ret (), st') ∧
    st'.sock.trace = [] ++ evs ∧ FramesEvents 7 2 [Fixture.hel, Fixture.ping, Fixture.lo] evs ∧
    st'.sock.out.written = [] ++ [0x8A, 0x01, 0x21] := by
  obtain ⟨evs, st', e, htr, hf, hw, _⟩ := C51_pings_answered Fixture.ponger Fixture.ponger_answers default
    { Fixture.receiving (wireOf [Fixture.hel, Fixture.ping, Fixture.lo]) with
      sock := { (Fixture.receiving []).sock with out := ⟨[], Fixture.slow 3⟩ } } 7 2 false true rfl rfl (by decide) rfl
    (by decide) _ Fixture.accepted rfl _ rfl (by decide)
  exact ⟨evs, st', e, htr, hf, hw.trans (by decide)⟩

end OatWS
