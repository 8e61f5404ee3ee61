import Verif.Props.PointersTasks
import Verif.Props.Flow
import Verif.Props.AsyncEquiv
import Verif.Props.AsyncPool
import Verif.Props.AsyncSends
import Verif.Props.AsyncSendsHeard
import Verif.Props.ThreadSends
import Verif.Props.SHA1
import Verif.Props.Handshake
import Verif.Props.Connector
import Verif.Props.ThreadedServer
import Verif.Props.ConnectionIO
import Verif.Props.Answers
import Verif.Props.Speech
import Verif.Props.Defined
import Verif.Props.Streamed
import Verif.Props.Lifetime
import Verif.Props.Process
import Verif.Props.AsyncProcess
/-! # Concrete cases

Theorems applied to concrete data, where the example beside the theorem shows only that its hypotheses can be met. -/

namespace OatWS
open RFC6455

/-! ## Blocking -/

/-- C17: the listener stops in the middle of "Hel"; the loop ends after this frame. -/
example : Listening Fixture.stopper default (Fixture.receiving (wireOf [Fixture.hel, Fixture.ping, Fixture.lo])) 1 (.ret ())
    (iterateFrame Fixture.stopper default (Fixture.receiving (wireOf [Fixture.hel, Fixture.ping, Fixture.lo]))).2 := by
  have h1 : (iterateFrame Fixture.stopper default (Fixture.receiving (wireOf [Fixture.hel, Fixture.ping, Fixture.lo]))).1.isRet = true := by decide +kernel
  have h2 : (iterateFrame Fixture.stopper default (Fixture.receiving (wireOf [Fixture.hel, Fixture.ping, Fixture.lo]))).2.sock.trace =
      [.readMessage 7 1 [0x48], .readMessage 7 1 [0x65], .readMessage 7 1 [0x6c]] := by decide +kernel
  rcases he : iterateFrame Fixture.stopper default (Fixture.receiving (wireOf [Fixture.hel, Fixture.ping, Fixture.lo])) with ⟨(h' | _ | _ | _), st'⟩ <;> rw [he] at h1 h2
  · exact C17_loop_ends Fixture.stopper default h' _ st' [.readMessage 7 1 [0x48], .readMessage 7 1 [0x65], .readMessage 7 1 [0x6c]] he h2
      ⟨1, by decide, by unfold Env.StopsAt; decide⟩
  all_goals cases h1

/-- C73: a header alone, for 70000 bytes that will follow. -/
example := C73_header Fixture.env default true 2 70000 (Sock.new { maskOutgoingMessages := true } ⟨[], Fixture.slow 14⟩) (by decide)

/-- C73: streaming with steps. -/
example := Threads.C73_alone Fixture.env 60 (.text (some [7, 8, 9])) default true 1 [[7, 8], [], [9]]
  { sock := Sock.new {} ⟨[], Fixture.slow 30⟩, inp := ⟨[], []⟩ } ⟨by decide, by decide⟩

/-! ## Async -/

namespace Async

/-- C29: a masked close frame. -/
example := C29_send Fixture.env (.close 1000 (some [0x78])) (fun _ _ _ h => by cases h) exampleSender

theorem exPool_finished : (Pool.exec exEnv exSchedule ⟨.run (listenTask default) :: exOthers, exStart⟩).map (fun p => p.tasks[0]?) = some (some .finished) := by decide +kernel

/-- C30: `listenAsync` finishes, so there was a close frame. -/
example : ∃ p, Pool.Steps exEnv ⟨.run (listenTask default) :: exOthers, exStart⟩ p ∧
    ∃ frames close ds o' d, exStart.st.inp.bytes = frames ++ close ++ p.world.st.inp.bytes ∧ Complete false frames ds o' ∧ OneFrame o' close d (.over .closed) := by
  have h := exPool_finished
  rcases he : Pool.exec exEnv exSchedule ⟨.run (listenTask default) :: exOthers, exStart⟩ with _ | p
  · rw [he] at h; cases h
  · rw [he] at h
    injection h with h
    refine ⟨p, Pool.exec_steps he, C30_finishes_only_on_close exEnv default exStart false rfl exOthers (fun t ht => ?_) p (Pool.exec_steps he) h⟩
    rw [exOthers, List.mem_singleton] at ht
    subst ht
    intro c hc
    rw [List.mem_singleton.mp hc]
    trivial

/-- C32: a masked frame, byte by byte. -/
example := C32_valid_in_call (env := Fixture.env) (w0 := { st := Fixture.receiving (wireOf [Fixture.hel]) }) nofun default (firstSteps_exec Fixture.env OthersDo 20 _)

/-- C32: two tasks. -/
example : ∃ p', Pool.Steps Fixture.env exTwoBuffers p' ∧ p'.world.calls.length = 2 ∧
    ∀ c ∈ p'.world.calls, (c.event.data = [] ∧ c.ptr = none) ∨ (c.ptr ≠ none ∧ c.found = some c.event.data) := by
  have h := exTwo_calls
  have hu : ((Pool.exec Fixture.env exTwoTurns exTwoBuffers).map fun p => p.tasks.all fun o => match o with | .ub _ => false | _ => true) = some true := by decide +kernel
  rcases he : Pool.exec Fixture.env exTwoTurns exTwoBuffers with _ | p'
  · rw [he] at h; cases h
  · rw [he] at h hu
    injection h with h
    injection hu with hu
    refine ⟨p', Pool.exec_steps he, by rw [(Prod.mk.inj h).2]; rfl,
      C32_any_tasks_in_call Fixture.env _ p' exTwo_starts rfl rfl (Pool.exec_steps he) fun u hm => ?_⟩
    have := List.all_eq_true.mp hu _ hm
    cases this

/-- C33: two sends of a coroutine, one after the other. -/
example (w' : World) (hr : Runs Fixture.env (userTask ([SendCall.text (some [7]), .ping none].map fun c => .send c false)) exampleSender .finished w') :
    w'.st.sock.out.written = wireOf (framesFrom Fixture.env true 0 [.text (some [7]), .ping none]) :=
  C33_serialised Fixture.env [.text (some [7]), .ping none] exampleSender w' (fun c hc => by
    simp only [List.mem_cons, List.not_mem_nil, or_false] at hc
    rcases hc with rfl | rfl <;> exact ⟨by decide, by decide⟩) hr

/-- C33, C42, C56: the serialised run of `exPool`. -/
example : ∃ log p', Pool.Logged exEnv exPool log p' ∧
    (∃ fs, CarryAll exEnv [.text (some [7, 8]), .pong (some [0x21])] fs ∧ p'.world.st.sock.out.written = wireOf fs) ∧
    ((drawn log).Pairwise fun a b => a + 4 ≤ b) ∧ ∀ s ∈ sendsOf 0 log, s.state ≠ .inProgress := by
  have h := exSerial
  have hf : (Pool.execLog exEnv exSchedule exPool).map (fun r => r.2.tasks[0]?) = some (some .finished) := by decide +kernel
  rcases he : Pool.execLog exEnv exSchedule exPool with _ | ⟨log, p'⟩
  · rw [he] at h; cases h
  · rw [he] at h hf
    injection h with h
    injection h with h1 h2 h3 h4 h5 h6
    have hlog := execLog_logged he
    injection hf with hf
    refine ⟨log, p', hlog, ?_, (C42_async_keys exEnv exPool exPool_quiet log p' hlog).1, C56_finished exEnv exPool exPool_quiet log p' hlog 0 hf⟩
    rcases C33_any_tasks exEnv exPool exPool_quiet log p' hlog (serialCheck_sound h1) (fun e hm => by
        have := List.all_eq_true.mp h3 e hm
        simp at this
        exact this.1) (fun c hc => by
          rw [h2] at hc
          simp only [List.mem_cons, List.not_mem_nil, or_false] at hc
          rcases hc with rfl | rfl <;> decide) with ⟨fs, e1, -, e3⟩ | ⟨cs, c, fs, f, part, j, e1, e2, e3, e4, e5, -⟩
    · rw [h2] at e1
      exact ⟨fs, e1, e3⟩
    · exact absurd e5 (exNotSending h3 h5 h6 rfl rfl j)

/-- C76: the pool of `Verif.Props.AsyncPool` at its end. -/
example : ∃ p', Pool.Steps exEnv exPool p' ∧ (∀ e ∈ p'.world.st.sock.trace, e.Little 2) := by
  have hf := exPool_finished
  rcases he : Pool.exec exEnv exSchedule ⟨.run (listenTask default) :: exOthers, exStart⟩ with _ | p
  · rw [he] at hf; cases hf
  · exact ⟨p, Pool.exec_steps he, C76_callbacks exEnv 2 exPool p exPool_sized (Pool.exec_steps he)⟩

end Async

/-! ## Threads -/

namespace Threads
open Async (exEnv Entry)

/-- C58: the log of two threads, one of which has sent; both are recorded. -/
example : ∃ log p', Pool.Logged exEnv exThreads log p' ∧ p'.threads[1]? = some (.ret ()) ∧ ∀ s ∈ Async.sendsOf 1 log, s.state ≠ .inProgress := by
  have h := exSerial
  have hf : ((Pool.execLog exEnv (List.replicate 11 1 ++ List.replicate 21 0) exThreads).map fun r => match r.2.threads[1]? with | some (.ret ()) => true | _ => false) = some true := by
    decide +kernel
  rcases he : Pool.execLog exEnv (List.replicate 11 1 ++ List.replicate 21 0) exThreads with _ | ⟨log, p'⟩
  · rw [he] at h; cases h
  · rw [he] at hf
    injection hf with hf
    have hr : p'.threads[1]? = some (.ret ()) := by
      revert hf
      dsimp only
      split
      · rename_i hq; intro _; exact hq
      · intro hf; cases hf
    exact ⟨log, p', execLog_logged he, hr, C58_finished exEnv 40 exThreads exThreads_app log p' (execLog_logged he) 1 (.inl hr)⟩

end Threads

/-! ## SHA-1 and the handshake -/

/-- C35: one object used twice, in pieces. -/
example : SHA1.uses .little SHA1.reset [[.string [0x61], .stream [0x62, 0x63]], [.stream []]] = [FIPS180.sha1 [0x61, 0x62, 0x63], FIPS180.sha1 []] :=
  SHA1.C35_incremental_reusable .little [[.string [0x61], .stream [0x62, 0x63]], [.stream []]] (by decide)

namespace Handshake
open Http

/-- C37: the response of RFC 6455 is confirmed only with its status, fields and accept value. -/
example : Fields sampleRequest (responseHeaders (ascii "dGhlIHNhbXBsZSBub25jZQ==")) := by
  refine (C37_ok_only lastCore_sound .little sampleRequest ⟨101, responseHeaders (ascii "dGhlIHNhbXBsZSBub25jZQ==")⟩ (by decide) ?_).2.1
  rw [responseHeaders, accept_example]; decide +kernel

/-- C37: the codes, for a response with another accept value. -/
example : ¬ ∃ k ∈ values sampleRequest "Sec-WebSocket-Key", acceptValue k ∈ values [(ascii "Upgrade", ascii "websocket"), (ascii "Connection", ascii "Upgrade"),
      (ascii "Sec-WebSocket-Accept", ascii "s3pPLMBiTxaQ9kYGzzhZRbK+xOO=")] "Sec-WebSocket-Accept" :=
  ((C37_codes lastCore_sound .little sampleRequest ⟨101, [(ascii "Upgrade", ascii "websocket"), (ascii "Connection", ascii "Upgrade"),
      (ascii "Sec-WebSocket-Accept", ascii "s3pPLMBiTxaQ9kYGzzhZRbK+xOO=")]⟩ (by unfold Once; decide) (by unfold Once; decide) (by decide)).2.2.1.mp (by decide +kernel)).2.2

end Handshake

namespace Connector
open Http Handshake

/-- C39: the coroutine of `connectAsync`, its connection provided, the response without the fields of the handshake. -/
example : ∃ s evs m, connectAsync (C := Nat) lastCore .little [] (ascii "chat") [] [.start, .provided (.ok (some 5)), .responded (.ok ⟨101, []⟩)] = some (s, evs) ∧
    s = .ended (.threw m) ∧ ∃ c, Input.provided (.ok c) ∈ [Input.start (C := Nat), .provided (.ok (some 5)), .responded (.ok ⟨101, []⟩)] ∧
      evs = [.getConnection, handshakeRequest (ascii "chat") [] (generateKey []) c] := by
  have hs : (connectAsync (C := Nat) lastCore .little [] (ascii "chat") [] [.start, .provided (.ok (some 5)), .responded (.ok ⟨101, []⟩)]).map (fun x => x.2.length) = some 2 := by decide +kernel
  have hr : clientsideConfirmHandshake lastCore .little (allHeaders [] []) ⟨101, []⟩ ≠ .ok := by decide +kernel
  rcases he : connectAsync (C := Nat) lastCore .little [] (ascii "chat") [] [.start, .provided (.ok (some 5)), .responded (.ok ⟨101, []⟩)] with _ | ⟨s, evs⟩
  · rw [he] at hs; cases hs
  · rw [he] at hs
    have hs : evs.length = 2 := by injection hs
    obtain ⟨m, hm⟩ := C39_async_fails lastCore .little [] (ascii "chat") [] _ he (.inr (.inr ⟨⟨101, []⟩, by simp, hr⟩))
    refine ⟨s, evs, m, rfl, hm, ?_⟩
    rcases C39_async_request lastCore .little [] (ascii "chat") [] _ he with rfl | rfl | h
    · cases hs
    · cases hs
    · exact h

end Connector

/-! ## The servers -/

namespace Server

/-- C40: the history of `sample`, all of whose objects have been destroyed. -/
example : ∃ m tr, run (Mem.init (L := Nat)) sample = some (m, tr) ∧ ∀ k a, (accepted none sample)[k]? = some a → Whole a k (about k tr) := by
  have h : (legalRun noObjects sample).isSome = true := rfl
  obtain ⟨st, hst⟩ := Option.isSome_iff_exists.mp h
  refine C40_all_destroyed sample hst fun i => ?_
  have hst : legalRun noObjects sample = some st := hst
  injection hst with hst
  subst hst
  rcases (by omega : i = 0 ∨ i = 1 ∨ i = 2 ∨ i = 3 ∨ 4 ≤ i) with rfl | rfl | rfl | rfl | hi
  · exact .inl rfl
  · exact .inl rfl
  · exact .inl rfl
  · exact .inl rfl
  · refine .inl ?_
    simp [noObjects, show ¬ i = 0 by omega, show ¬ i = 1 by omega, show ¬ i = 2 by omega, show ¬ i = 3 by omega]

/-- C65: on a machine with eight processors. -/
example : ∀ cpu, (cpuRange 8).1 ≤ cpu ∧ cpu ≤ (cpuRange 8).2 ↔ 0 ≤ cpu ∧ (cpu < 7 ∨ cpu = 0) := C65_cpus 8 (by decide)

end Server

/-! ## Peers and processes -/

namespace Network
open RFC6455 Async

/-- C71: a message in three fragments with a ping in between. -/
example := C71_told [.text (some [1])] [.pong none] [.closeEmpty] (fun c hc => by rw [List.mem_singleton.mp hc]; trivial)
  (fun c hc => by rw [List.mem_singleton.mp hc]; exact .inr ⟨none, rfl⟩) (.inr ⟨_, rfl, trivial⟩) 1 (some [2, 3]) (some [4]) []

/-- C72: whatever the threads of the author do next. -/
example (p' : Async.Pool) (h : Async.Pool.Steps exPolite ⟨[.run (listenTask default)], { st := Fixture.receiving (wireOf [Fixture.ping]) }⟩ p') : (Endpoint.tasks p').Defined :=
  C72_tasks exPolite 100 2 _ p' (exPolite_careful 2) ⟨fun o ho => (by rw [List.mem_singleton.mp ho]; exact ⟨_, rfl, .listen _⟩), rfl⟩ h

end Network

/-- C79, C80: the two chats, seen from the first socket. -/
example := Process.C79_alone Process.exChat_runs 0
example := AsyncProcess.C80_alone AsyncProcess.exRoom_runs 0

end OatWS
