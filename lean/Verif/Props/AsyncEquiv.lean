import Verif.Proofs.AsyncPayload
import Verif.Proofs.AsyncFlag
import Verif.Props.Flow
import Verif.Props.Send
import Verif.Spec.Fixtures
/-! # C28, C29, C33: the asynchronous API compared with the blocking one -/

namespace OatWS.Async
open RFC6455

/-- A task has at most one end. -/
theorem Runs.det {env t w o w' o2 w2} (h1 : Runs env t w o w') (h2 : Runs env t w o2 w2) : o = o2 ∧ w' = w2 := by
  induction h1 with
  | last e hn =>
    have := runs_iff.mp h2
    rw [e] at this
    rename_i o _
    cases o with
    | run t => exact absurd rfl (hn t)
    | _ => exact ⟨this.1.symm, this.2.symm⟩
  | next e _ ih =>
    have := runs_iff.mp h2
    rw [e] at this
    exact ih this

/-! ## C28 -/

/-- **C28.** For a listener that does only things that mean the same in both APIs (`PlainListener`), a positive buffer size, any
incoming bytes and any results of the low-level reads and writes: `listenAsync` ends iff `listen` (seen before its catch
clauses) does, it ends in the corresponding way, and the final states are the same: the same callbacks were made in the same order
(`trace`), the same bytes are unread, the same bytes were written. The stale contents `h`, `h'` of the header objects are
arbitrary. (`SameSt`: the flag `m_listening`, which `listen` sets first of all and the async socket never touches, does not matter.) -/
theorem C28_async_listen (env : Env) (hp : PlainListener env) (h h' : Header) (st : St) (w : World)
    (hw : SameSt w.st st) (hB : 0 < st.sock.config.readBufferSize) :
    (∃ o w', Runs env (listenTask h') w o w') ∧
    ∀ o w', Runs env (listenTask h') w o w' → EndMatch (listenBody env h st).1 o ∧ SameSt w'.st (listenBody env h st).2 := by
  have hw1 : (w.flag true).st = { st with sock := { st.sock with listening := true } } := by rw [← hw]; rfl
  obtain ⟨n, hL⟩ := listenLoop_listening env (st.inp.sched.length + 1) { h' with opcode := 255 } (w.flag true).st
    (by rw [hw1]; exact Nat.lt_succ_self _)
  have hx : listenLoop env (st.inp.sched.length + 1) { h' with opcode := 255 } (w.flag true).st = listenBody env h st := by
    rw [hw1, listenLoop_stale env _ h]
    rfl
  rw [hx] at hL
  obtain ⟨o, w', h1, h2, h3⟩ := mirror_listening env hp hL { hdr := { h' with opcode := 255 } } (w.flag true) rfl rfl
    (by simp [OPCODE_CLOSE]) (by rw [hw1]) (by rw [hw1]; exact hB)
  have h1' : Runs env (listenTask h') w o (w'.flag w.st.sock.listening) := h1.flag w.st.sock.listening
  refine ⟨⟨o, _, h1'⟩, fun o2 w2 hr => ?_⟩
  obtain ⟨rfl, rfl⟩ := h1'.det hr
  exact ⟨h2, h3⟩

/-- **C28**, read off: the same callbacks, the same unread bytes, the same bytes written. -/
theorem C28_same_callbacks (env : Env) (hp : PlainListener env) (h h' : Header) (st : St) (w : World)
    (hw : SameSt w.st st) (hB : 0 < st.sock.config.readBufferSize)
    (o : Outcome) (w' : World) (hr : Runs env (listenTask h') w o w') :
    w'.st.sock.trace = (listen env h st).2.sock.trace ∧ w'.st.inp = (listen env h st).2.inp ∧
    w'.st.sock.out = (listen env h st).2.sock.out ∧ w'.st.sock.lastOpcode = (listen env h st).2.sock.lastOpcode := by
  obtain ⟨-, h2⟩ := C28_async_listen env hp h h' st w hw hB
  obtain ⟨-, h4⟩ := h2 o w' hr
  have hl : (listen env h st).2 = (listenBody env h st).2 := by
    unfold listen
    rcases listenBody env h st with ⟨(_ | _ | _ | _), _⟩ <;> rfl
  rw [hl, ← h4]
  exact ⟨rfl, rfl, rfl, rfl⟩

/-- The listener of the example: answers a ping with a pong, changes the buffer size, and throws on a second message. -/
def exampleEnv : Env := { Fixture.env with
  react := fun tr => match tr.getLast? with
    | some (.onPing _ m) => [.send (.pong (some m)) false, .setConfig { readBufferSize := 3 }]
    | some (.readMessage _ 2 _) => [.throw]
    | _ => [] }

theorem exampleEnv_plain : PlainListener exampleEnv := by
  intro tr op hop
  simp only [exampleEnv] at hop
  split at hop
  · simp only [List.mem_cons, List.not_mem_nil, or_false] at hop
    rcases hop with rfl | rfl
    · rfl
    · simp [PlainOp]
  · simp only [List.mem_cons, List.not_mem_nil, or_false] at hop
    rcases hop with rfl
    trivial
  · cases hop

def exampleSt (fs : List Frame) : St :=
  { Fixture.receiving (wireOf fs) with
    sock := { (Fixture.receiving (wireOf fs)).sock with out := ⟨[], Fixture.slow 40⟩ } }

/-- The hypotheses are met, and the runs are not trivial: a masked message in two fragments around a ping that is answered, then a
close frame. -/
example : PlainListener exampleEnv ∧ 0 < (exampleSt [Fixture.hel, Fixture.ping, Fixture.lo, Fixture.closing]).sock.config.readBufferSize ∧
    (listenBody exampleEnv default (exampleSt [Fixture.hel, Fixture.ping, Fixture.lo, Fixture.closing])).1 = .ret () ∧
    (listenBody exampleEnv default (exampleSt [Fixture.hel, Fixture.ping, Fixture.lo, Fixture.closing])).2.sock.out.written = [0x8a, 1, 0x21] ∧
    (listenBody exampleEnv default (exampleSt [Fixture.hel, Fixture.ping, Fixture.lo, Fixture.closing])).2.sock.trace.length = 8 :=
  ⟨exampleEnv_plain, by decide +kernel, by decide +kernel, by decide +kernel, by decide +kernel⟩

/-! ## C29 -/

theorem sendChecked_apply (env : Env) (fin : Bool) (op : UInt8) (m : Option (List UInt8)) (s : Sock) :
    sendChecked env fin op m s = match sendOneFrame env fin op m s with
      | (.ret true, s') => (.ret (), s')
      | (.ret false, s') => (.throw .sendFailed, s')
      | (.throw e, s') => (.throw e, s')
      | (.block, s') => (.block, s')
      | (.ub u, s') => (.ub u, s') := by
  unfold sendChecked
  rw [P.bind_apply]
  rcases sendOneFrame env fin op m s with ⟨((_ | _) | _ | _ | _), s'⟩ <;> rfl

/-- **C29.** For every message, configuration, random source and schedule of low-level writes: `sendOneFrameAsync` ends as
`sendOneFrame` does (finished - `true`; I/O error - `false`; error - exception; blocked; undefined) and leaves the same state: the
same bytes were written and the same random bytes used. -/
theorem C29_sendOneFrame (env : Env) (fin : Bool) (op : UInt8) (m : Option (List UInt8)) (w : World) :
    (∃ o w', Runs env (sendTask env (.oneFrame fin op m)) w o w') ∧
    ∀ o w', Runs env (sendTask env (.oneFrame fin op m)) w o w' →
      SendMatch (sendOneFrame env fin op m w.st.sock).1 o ∧
      SameSt w'.st { w.st with sock := (sendOneFrame env fin op m w.st.sock).2 } := by
  have h := mirror_send env fin op m [] NoCatch.nil {} w
  have key : ∃ o w', Runs env (sendTask env (.oneFrame fin op m)) w o w' ∧ SendMatch (sendOneFrame env fin op m w.st.sock).1 o ∧
      SameSt w'.st { w.st with sock := (sendOneFrame env fin op m w.st.sock).2 } := by
    unfold liftSock at h
    rw [sendChecked_apply] at h
    -- an I/O failure of the body is the only way to `false`
    revert h
    rcases hs : sendOneFrame env fin op m w.st.sock with ⟨((_ | _) | e | _ | u), s'⟩ <;> intro h
    · obtain ⟨ae, w', h1, h2, h3⟩ := h
      refine ⟨.failed ae, w', h1, ?_, h2⟩
      cases h3 with
      | io => rfl
      | same hx => rcases hx with hx | hx <;> cases hx
    · obtain ⟨w', h1, rfl'⟩ := h
      refine ⟨.finished, w', h1 _ _ ?_, trivial, by rw [rfl']; exact SameSt.refl _⟩
      exact runs_iff.mpr ⟨rfl, rfl⟩
    · obtain ⟨ae, w', h1, h2, h3⟩ := h
      exact ⟨.failed ae, w', h1, h3, h2⟩
    · obtain ⟨w', h1, h2⟩ := h
      exact ⟨.blocked, w', h1, trivial, by rw [h2]; exact SameSt.refl _⟩
    · obtain ⟨w', h1, h2⟩ := h
      exact ⟨.ub u, w', h1, rfl, by rw [h2]; exact SameSt.refl _⟩
  obtain ⟨o, w', h1, h2, h3⟩ := key
  refine ⟨⟨o, w', h1⟩, fun o2 w2 hr => ?_⟩
  obtain ⟨rfl, rfl⟩ := h1.det hr
  exact ⟨h2, h3⟩

/-- **C29** for the other send methods (`sendCloseAsync`, `sendPingAsync`, `sendPongAsync`, `sendOneFrameTextAsync`,
`sendOneFrameBinaryAsync`): as the blocking method, whose failure is an exception. -/
theorem C29_send (env : Env) (call : SendCall) (hc : ∀ f o m, call ≠ .oneFrame f o m) (w : World) :
    (∃ o w', Runs env (sendTask env call) w o w') ∧
    ∀ o w', Runs env (sendTask env call) w o w' →
      EndMatch (send env call w.st.sock).1 o ∧ SameSt w'.st { w.st with sock := (send env call w.st.sock).2 } := by
  have h := mirror_send_call env call hc [] NoCatch.nil {} w
  have key : ∃ o w', Runs env (sendTask env call) w o w' ∧ EndMatch (send env call w.st.sock).1 o ∧
      SameSt w'.st { w.st with sock := (send env call w.st.sock).2 } := by
    unfold liftSock at h
    revert h
    rcases hs : send env call w.st.sock with ⟨(_ | e | _ | u), s'⟩ <;> intro h
    · obtain ⟨w', h1, h2, -⟩ := h
      refine ⟨.finished, w', h1 _ _ ?_, trivial, by rw [h2]; exact SameSt.refl _⟩
      exact runs_iff.mpr ⟨rfl, rfl⟩
    · obtain ⟨ae, w', h1, h2, h3⟩ := h
      exact ⟨.failed ae, w', h1, h3, h2⟩
    · obtain ⟨w', h1, h2⟩ := h
      exact ⟨.blocked, w', h1, trivial, by rw [h2]; exact SameSt.refl _⟩
    · obtain ⟨w', h1, h2⟩ := h
      exact ⟨.ub u, w', h1, rfl, by rw [h2]; exact SameSt.refl _⟩
  obtain ⟨o, w', h1, h2, h3⟩ := key
  refine ⟨⟨o, w', h1⟩, fun o2 w2 hr => ?_⟩
  obtain ⟨rfl, rfl⟩ := h1.det hr
  exact ⟨h2, h3⟩

/-- **C29** and C04 together: an async send that finishes has put exactly the RFC 6455 frame on the wire. -/
theorem C29_finished_frame (env : Env) (fin : Bool) (op : UInt8) (m : Option (List UInt8)) (w w' : World)
    (hs : Sendable w.st.sock m) (hr : Runs env (sendTask env (.oneFrame fin op m)) w .finished w') :
    w'.st.sock.out.written = w.st.sock.out.written ++ (frameFor env w.st.sock fin op m).encode := by
  obtain ⟨h1, h2⟩ := (C29_sendOneFrame env fin op m w).2 _ _ hr
  rcases hx : sendOneFrame env fin op m w.st.sock with ⟨x, s'⟩
  rw [hx] at h1 h2
  rcases x with (_ | _) | _ | _ | _ <;> try exact h1.elim
  rw [← (C04_sendOneFrame env fin op m _ s' hs hx).1]
  have := congrArg (fun st => st.sock.out.written) h2
  exact this

/-- The hypotheses are met: a masked binary message, written byte by byte with retries. -/
def exampleSender : World := { st := { (Fixture.receiving []) with
  sock := { (Fixture.receiving []).sock with config := { maskOutgoingMessages := true }, out := ⟨[], Fixture.slow 9⟩ } } }

example : (sendOneFrame Fixture.env true 2 (some [1, 2, 3]) exampleSender.st.sock).1 = .ret true ∧
    (sendOneFrame Fixture.env true 2 (some [1, 2, 3]) exampleSender.st.sock).2.out.written
      = [0x82, 0x83, 3, 20, 37, 54, 1 ^^^ 3, 2 ^^^ 20, 3 ^^^ 37] := by
  decide +kernel

/-! ## C33: serialised sends -/

theorem sendAsync_content (env : Env) (c : SendCall) : ∃ m, sendAsync env c = sendOneFrameAsync c.content.1 c.content.2.1 m ∧
    m.getD [] = c.content.2.2 := by
  cases c with
  | close code m => exact ⟨_, rfl, close_payload env code m⟩
  | _ => exact ⟨_, rfl, rfl⟩

/-- **C33** (serialised): one after the other - each send starts when the one before has ended, as user code with a lock does -
any number of sends of any kind, when all have finished, has put exactly their frames on the wire, in call order, each with mask
bytes of its own. (For the blocking API this is `C42_sends`; here for the async API.) -/
theorem C33_serialised (env : Env) (cs : List SendCall) (w w' : World) (hs : ∀ c ∈ cs, c.Sendable w.st.sock)
    (hr : Runs env (userTask (cs.map fun c => .send c false)) w .finished w') :
    w'.st.sock.out.written = w.st.sock.out.written ++ wireOf (framesFrom env w.st.sock.config.maskOutgoingMessages w.st.sock.rngPos cs) := by
  have key : ∀ (cs : List SendCall) (w : World), (∀ c ∈ cs, c.Sendable w.st.sock) →
      ∃ o w', Runs env (userTask (cs.map fun c => .send c false)) w o w' ∧ (o = .finished → w'.st.sock.out.written
        = w.st.sock.out.written ++ wireOf (framesFrom env w.st.sock.config.maskOutgoingMessages w.st.sock.rngPos cs)) := by
    intro cs
    induction cs with
    | nil =>
      intro w _
      exact ⟨.finished, w, .last rfl nofun, fun _ => by simp [wireOf, framesFrom]⟩
    | cons c cs ih =>
      intro w hs
      obtain ⟨m, hm, hm2⟩ := sendAsync_content env c
      have hl : Leads env (.run (userTask ((c :: cs).map fun c => .send c false)), w)
          (.run ⟨sendOneFrameAsync c.content.1 c.content.2.1 m :: (userTask (cs.map fun c => .send c false)).stack, {}⟩, w) := by
        refine leads_co ?_
        rw [← hm]
        exact Leads.refl
      have h := mirror_send env c.content.1 c.content.2.1 m (userTask (cs.map fun c => .send c false)).stack
        (NoCatch.nil.cons (fun u hu => by cases hu; rfl)) {} w
      unfold liftSock at h
      rw [sendChecked_apply] at h
      have hsm : Sendable w.st.sock m := by
        have h1 : c.Sendable w.st.sock := hs c (by simp)
        have h2 : (some c.content.2.2).getD [] = m.getD [] := hm2.symm
        unfold SendCall.Sendable Sendable at h1
        rw [h2] at h1
        exact h1
      rcases hx : sendOneFrame env c.content.1 c.content.2.1 m w.st.sock with ⟨((_ | _) | e | _ | u), s1⟩ <;> rw [hx] at h
      · obtain ⟨ae, w', h1, h2, h3⟩ := h
        exact ⟨.failed ae, w', hl _ _ h1, nofun⟩
      · obtain ⟨w1, h1, h2⟩ := h
        obtain ⟨e1, e2⟩ := C04_sendOneFrame env _ _ _ _ _ hsm hx
        have hcfg : w1.st.sock.config = w.st.sock.config := by rw [h2, e2]
        have hpos : w1.st.sock.rngPos = w.st.sock.rngPos + if w.st.sock.config.maskOutgoingMessages then 4 else 0 := by rw [h2, e2]
        have hw1 : w1.st.sock.out.written = s1.out.written := by rw [h2]
        obtain ⟨o, w', h3, h4⟩ := ih w1 (fun d hd => by
          have := hs d (by simp [hd])
          unfold SendCall.Sendable Sendable at this ⊢
          rw [hcfg]
          exact this)
        refine ⟨o, w', (hl.trans h1) _ _ h3, fun ho => ?_⟩
        rw [h4 ho, hw1, e1, hcfg, hpos, List.append_assoc]
        congr 1
        unfold wireOf
        rw [framesFrom, List.flatMap_cons]
        congr 2
        · unfold frameFor; rw [hm2]
        · cases w.st.sock.config.maskOutgoingMessages with
          | true => rfl
          | false => exact framesFrom_unmasked _ _ _ _
      · obtain ⟨ae, w', h1, h2, h3⟩ := h
        exact ⟨.failed ae, w', hl _ _ h1, nofun⟩
      · obtain ⟨w', h1, h2⟩ := h
        exact ⟨.blocked, w', hl _ _ h1, nofun⟩
      · obtain ⟨w', h1, h2⟩ := h
        exact ⟨.ub u, w', hl _ _ h1, nofun⟩
  obtain ⟨o, w2, h1, h2⟩ := key cs w hs
  obtain ⟨rfl, rfl⟩ := hr.det h1
  exact h2 rfl

end OatWS.Async
