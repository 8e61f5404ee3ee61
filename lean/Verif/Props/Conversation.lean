import Verif.Props.Fragments
import Verif.Props.Answers
/-! # C53: ping and pong between two peers -/

namespace OatWS
open RFC6455

/-- The payloads of the pings among the calls. -/
def pingsSent : List SendCall → List (List UInt8)
  | [] => []
  | .ping m :: cs => m.getD [] :: pingsSent cs
  | _ :: cs => pingsSent cs

theorem pingPayloads_framesFrom (env : Env) (m : Bool) (cs : List SendCall) (hcs : ∀ c ∈ cs, c.isMessage) (pos : Nat) :
    pingPayloads (framesFrom env m pos cs) = pingsSent cs := by
  induction cs generalizing pos with
  | nil => rfl
  | cons c cs ih =>
    have i := ih (fun c hc => hcs c (by simp [hc])) (pos + 4)
    have hc := hcs c (by simp)
    cases c <;> first | exact hc.elim | skip
    all_goals simp only [framesFrom, pingPayloads, List.filter_cons, pingsSent] at i ⊢
    · exact congrArg (_ :: ·) i
    · exact i
    · exact i
    · exact i

theorem pingsSent_short (cs : List SendCall) (hcs : ∀ c ∈ cs, c.isMessage) : ∀ p ∈ pingsSent cs, p.length ≤ 125 := by
  induction cs with
  | nil => nofun
  | cons c cs ih =>
    have i := ih (fun c hc => hcs c (by simp [hc]))
    have hc := hcs c (by simp)
    intro p hp
    cases c <;> first | exact hc.elim | exact i p hp | skip
    rcases List.mem_cons.mp hp with rfl | hp
    · exact hc
    · exact i p hp

theorem pongs_heard (env : Env) (m : Bool) (pos : Nat) (l B : Nat) (ps : List (List UInt8)) (evs : List Event)
    (h : FramesEvents l B (framesFrom env m pos (ps.map fun p => SendCall.pong (some p))) evs) : evs = ps.map (Event.onPong l) := by
  induction ps generalizing pos evs with
  | nil => exact h
  | cons p ps ih =>
    obtain ⟨e, es, rfl, h1, h2⟩ := h
    rw [ih _ _ h2]
    have : e = [.onPong l p] := h1
    rw [this]
    rfl

/-- **C53.** A sends any texts, binaries, pings and pongs, all successfully. B listens on these bytes with a listener that answers each ping
with a pong of the same payload; its writes do not fail. A listens on what B wrote. Then B's listener has put together exactly the
messages of A, and A has heard one `onPong` for each of its pings, with its payload, in the order they were sent, and nothing else. -/
theorem C53_ping_pong (envA : Env) (a a' : Sock) (cs : List SendCall) (hcs : ∀ c ∈ cs, c.isMessage) (hsent : SucceedAll envA cs a a')
    (envB : Env) (hp : envB.AnswersPings) (h : Header) (stB : St) (l B : Nat) (hl : stB.sock.listener = some l)
    (hB : stB.sock.config.readBufferSize = B) (hpos : 0 < B) (hop : OpenIs false stB.sock.lastOpcode)
    (hin : Healthy (stB.inp.bytes.length + 1) stB.inp.sched) (hb : a'.out.written = a.out.written ++ stB.inp.bytes)
    (hout : Healthy (wireOf (framesFrom envB stB.sock.config.maskOutgoingMessages stB.sock.rngPos
      ((pingsSent cs).map fun p => SendCall.pong (some p)))).length stB.sock.out.sched)
    (envA' : Env) (h' : Header) (stA : St) (l' B' : Nat) (hU : Undisturbed envA' stA l' B' false)
    (hb' : (listen envB h stB).2.sock.out.written = stB.sock.out.written ++ stA.inp.bytes) :
    ∃ evsB stB' stA', listen envB h stB = (.ret (), stB') ∧ stB'.sock.trace = stB.sock.trace ++ evsB ∧
      reassemble [] evsB = (cs.map SendCall.msg, []) ∧
      listen envA' h' stA = (.ret (), stA') ∧ stA'.sock.trace = stA.sock.trace ++ (pingsSent cs).map (Event.onPong l') := by
  have hw := (C42_sends envA _ _ _ hsent).1
  rw [hb] at hw
  have hw := List.append_cancel_left hw
  obtain ⟨a1, _, _⟩ := framesFrom_accepted envA a.config.maskOutgoingMessages cs hcs hsent.lengths a.rngPos
  obtain ⟨evs, st', e, htr, hf, hwr, _⟩ := C51_pings_answered envB hp h stB l B false false hl hB hpos hop hin _ a1 hw _ rfl
    (by rw [pingPayloads_framesFrom _ _ _ hcs]; exact hout)
  rw [pingPayloads_framesFrom _ _ _ hcs] at hwr
  rw [e] at hb'
  rw [hwr] at hb'
  have hb' := (List.append_cancel_left hb').symm
  have hshort := pingsSent_short cs hcs
  have a2 := (framesFrom_accepted envB stB.sock.config.maskOutgoingMessages ((pingsSent cs).map fun p => SendCall.pong (some p))
    (by intro c hc; obtain ⟨p, hp, rfl⟩ := List.mem_map.mp hc; exact hshort p hp)
    (by intro c hc; obtain ⟨p, hp, rfl⟩ := List.mem_map.mp hc; exact Nat.lt_of_le_of_lt (hshort p hp) (by decide)) stB.sock.rngPos).1
  obtain ⟨evs2, st2, e2, htr2, hf2, _⟩ := C08_C09_frames_heard envA' h' stA l' B' false false hU _ a2 hb'
  refine ⟨evs, st', st2, e, htr, ?_, e2, ?_⟩
  · rw [reassemble_content a1 hf, contentOf_messages _ _ _ hcs]
  · rw [htr2, pongs_heard _ _ _ _ _ _ _ hf2]

/-- A server that answers pings. -/
def Fixture.answering (bytes : List UInt8) : St :=
  ⟨{ (Fixture.receiving bytes).sock with out := ⟨[], Fixture.slow 9⟩ }, (Fixture.receiving bytes).inp⟩

def Fixture.pinging : List SendCall := [.ping (some [1]), .text (some [0x61]), .ping none]

theorem Fixture.pinging_sent : ∃ a', SucceedAll Fixture.env Fixture.pinging Fixture.sender a' ∧ a'.out.written =
    [0x89, 0x81, 3, 20, 37, 54, 2, 0x81, 0x81, 71, 88, 105, 122, 38, 0x89, 0x80, 139, 156, 173, 190] :=
  ⟨_, .cons (by decide) (.other nofun rfl) (.cons (by decide) (.other nofun rfl) (.cons (by decide) (.other nofun rfl) .nil)), by decide +kernel⟩

theorem Fixture.pinging_answered : (listen Fixture.ponger default (Fixture.answering
    [0x89, 0x81, 3, 20, 37, 54, 2, 0x81, 0x81, 71, 88, 105, 122, 38, 0x89, 0x80, 139, 156, 173, 190])).2.sock.out.written =
    [0x8A, 1, 1, 0x8A, 0] := by decide +kernel

/-- A client sends two pings and a text to a server; everything goes byte by byte. -/
example : ∃ stA', listen Fixture.env default (Fixture.receiving [0x8A, 1, 1, 0x8A, 0]) = (.ret (), stA') ∧
    stA'.sock.trace = [] ++ [.onPong 7 [1], .onPong 7 []] := by
  obtain ⟨a', hs, hw⟩ := Fixture.pinging_sent
  obtain ⟨_, _, stA', _, _, _, h2, h3⟩ := C53_ping_pong Fixture.env Fixture.sender a' Fixture.pinging
    (by simp [Fixture.pinging, SendCall.isMessage]) hs Fixture.ponger Fixture.ponger_answers default
    (Fixture.answering _) 7 2 rfl rfl (by decide) rfl (by decide +kernel) (hw.trans (List.nil_append _).symm) (by decide +kernel)
    Fixture.env default (Fixture.receiving [0x8A, 1, 1, 0x8A, 0]) 7 2 (Fixture.undisturbed _ (by decide +kernel))
    Fixture.pinging_answered
  exact ⟨stA', h2, h3⟩

end OatWS
