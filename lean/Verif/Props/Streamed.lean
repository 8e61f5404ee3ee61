import Verif.Proofs.Streamed
import Verif.Proofs.ThreadsAlone
import Verif.Props.Send
import Verif.Props.AsyncEquiv
import Verif.Props.ThreadSends
/-!
# C73: a frame written by the application: `sendFrameHeader`, then the payload in pieces
-/

namespace OatWS
open RFC6455

/-- **C73** (header). Whatever is in the header object passed in: `sendFrameHeader` fills in what it is asked for, no reserved bits, whether to mask as configured and,
if so, a key of four fresh random bytes, and writes exactly the header of such a frame (a proper part of it, if it does not return; it returns if the connection works). -/
theorem C73_header (env : Env) (h0 : Header) (fin : Bool) (opcode : UInt8) (size : Nat) (s : Sock) (hsize : size < 2 ^ 63) :
    ∃ x s' hdr, sendFrameHeader env h0 fin opcode size s = (x, s') ∧ (∀ u, x ≠ .ub u) ∧
      hdr = encodeHeader fin false false false (opcode.toNat % 16) (if s.config.maskOutgoingMessages then some (maskBytesAt env s.rngPos) else none) size ∧
      s' = { s with out := s'.out, rngPos := s.rngPos + if s.config.maskOutgoingMessages then 4 else 0 } ∧
      (∀ h, x = .ret h → s'.out.written = s.out.written ++ hdr ∧
        h.fin = fin ∧ h.rsv1 = false ∧ h.rsv2 = false ∧ h.rsv3 = false ∧ h.opcode = opcode ∧ h.payloadLength = size ∧
        h.hasMask = s.config.maskOutgoingMessages ∧ (h.hasMask = true → h.mask.bytes = maskBytesAt env s.rngPos)) ∧
      ((∀ h, x ≠ .ret h) → ∃ part, part <+: hdr ∧ part.length < hdr.length ∧ s'.out.written = s.out.written ++ part) ∧
      (Healthy hdr.length s.out.sched → ∃ h, x = .ret h) := by
  have hW := sendFrameHeader_wrote_any env h0 fin opcode size (by omega) (by omega) s
  have hwire : (filledHeader env s fin opcode size).wire
      = encodeHeader fin false false false (opcode.toNat % 16) (if s.config.maskOutgoingMessages then some (maskBytesAt env s.rngPos) else none) size := by
    unfold Header.wire
    rw [filledHeader_key]
    rfl
  rw [← hwire]
  generalize (filledHeader env s fin opcode size).wire = W at *
  have hd : s.drawn.out = s.out := by unfold Sock.drawn; split <;> rfl
  have hw : ∀ bs sc, (s.drawn.wrote bs sc).out.written = s.out.written ++ bs := fun bs sc => by
    simp only [Sock.wrote, hd]
  have hs : ∀ bs sc, s.drawn.wrote bs sc = { s with out := (s.drawn.wrote bs sc).out, rngPos := s.rngPos + if s.config.maskOutgoingMessages then 4 else 0 } := fun bs sc => by
    unfold Sock.wrote Sock.drawn
    split <;> rfl
  have hlive : Healthy W.length s.out.sched → ∃ h, (sendFrameHeader env h0 fin opcode size s).1 = .ret h := fun hh => by
    obtain ⟨sc, _, e⟩ := hW.live 0 (by rw [hd]; exact hh)
    exact ⟨_, by rw [e]⟩
  have hpart : ∀ k, k < W.length → W.take k <+: W ∧ (W.take k).length < W.length :=
    fun k hk => ⟨List.take_prefix _ _, by rw [List.length_take]; omega⟩
  rcases hW.outcome with ⟨sc, e⟩ | ⟨k, sc, hk, e | ⟨er, _, e⟩⟩ <;> rw [e] at hlive ⊢ <;>
    refine ⟨_, _, W, rfl, nofun, rfl, hs _ _, ?_, ?_, hlive⟩
  · intro h hx
    injection hx with hx
    subst hx
    refine ⟨hw _ _, rfl, rfl, rfl, rfl, rfl, rfl, rfl, fun hm => ?_⟩
    have hm : s.config.maskOutgoingMessages = true := hm
    unfold givenHeader
    rw [if_pos hm]
    rfl
  · exact fun h => absurd rfl (h _)
  · nofun
  · exact fun _ => ⟨_, (hpart k hk).1, (hpart k hk).2, hw _ _⟩
  · nofun
  · exact fun _ => ⟨_, (hpart k hk).1, (hpart k hk).2, hw _ _⟩

/-- **C73** (frame). However the payload is cut into pieces, of any number of bytes (2 GiB and more, too, masked or not: compare C27): nothing undefined happens; when all are
written, exactly the one frame is on the wire that `sendOneFrame` would send (C04), otherwise a proper part of it; on a connection that does not fail all are written. -/
theorem C73_frame (env : Env) (h0 : Header) (fin : Bool) (opcode : UInt8) (pieces : List (List UInt8)) (s : Sock) (hlen : pieces.flatten.length < 2 ^ 63) :
    ∃ x s' F, streamFrame env h0 fin opcode pieces s = (x, s') ∧ (∀ u, x ≠ .ub u) ∧
      F = ({ fin := fin, opcode := opcode.toNat % 16, payload := pieces.flatten,
             maskKey := if s.config.maskOutgoingMessages then some (maskBytesAt env s.rngPos) else none } : Frame) ∧
      s' = { s with out := s'.out, rngPos := s.rngPos + if s.config.maskOutgoingMessages then 4 else 0 } ∧
      (x = .ret true → s'.out.written = s.out.written ++ F.encode) ∧
      (x ≠ .ret true → ∃ part, part <+: F.encode ∧ part.length < F.encode.length ∧ s'.out.written = s.out.written ++ part) ∧
      (Healthy F.encode.length s.out.sched → x = .ret true) := by
  have hS := streamFrame_sent env h0 fin opcode pieces s hlen
  have hF : frameFor env s fin opcode (some pieces.flatten) = ({ fin := fin, opcode := opcode.toNat % 16, payload := pieces.flatten, maskKey := if s.config.maskOutgoingMessages then some (maskBytesAt env s.rngPos) else none } : Frame) := rfl
  rw [← hF]
  have hhl : (frameFor env s fin opcode (some pieces.flatten)).headerLength ≤ (frameFor env s fin opcode (some pieces.flatten)).encode.length := by
    simp [Frame.headerLength, Frame.encode]
  generalize frameFor env s fin opcode (some pieces.flatten) = F at *
  have hd : s.drawn.out = s.out := by unfold Sock.drawn; split <;> rfl
  have hlive : Healthy F.encode.length s.out.sched → (streamFrame env h0 fin opcode pieces s).1 = .ret true := fun hh => by
    obtain ⟨sc, _, e⟩ := hS.live 0 (by rw [hd]; exact hh)
    rw [e]
  have hw : ∀ bs sc, (s.drawn.wrote bs sc).out.written = s.out.written ++ bs := fun bs sc => by
    simp only [Sock.wrote, hd]
  have hs : ∀ bs sc, s.drawn.wrote bs sc = { s with out := (s.drawn.wrote bs sc).out, rngPos := s.rngPos + if s.config.maskOutgoingMessages then 4 else 0 } := fun bs sc => by
    unfold Sock.wrote Sock.drawn
    split <;> rfl
  have hpart : ∀ k, k < F.encode.length → F.encode.take k <+: F.encode ∧ (F.encode.take k).length < F.encode.length :=
    fun k hk => ⟨List.take_prefix _ _, by rw [List.length_take]; omega⟩
  rcases hS.outcome with ⟨sc, e⟩ | ⟨k, sc, hk, e | ⟨er, _, e⟩⟩ | ⟨k, sc, _, hk, e | e⟩ <;> rw [e] at hlive ⊢ <;>
    refine ⟨_, _, F, rfl, nofun, rfl, hs _ _, ?_, ?_, hlive⟩
  · exact fun _ => hw _ _
  · exact fun h => absurd rfl h
  · nofun
  · exact fun _ => ⟨_, (hpart k (by omega)).1, (hpart k (by omega)).2, hw _ _⟩
  · nofun
  · exact fun _ => ⟨_, (hpart k (by omega)).1, (hpart k (by omega)).2, hw _ _⟩
  · nofun
  · exact fun _ => ⟨_, (hpart k (by omega)).1, (hpart k (by omega)).2, hw _ _⟩
  · intro h; injection h with h; cases h
  · exact fun _ => ⟨_, (hpart k (by omega)).1, (hpart k (by omega)).2, hw _ _⟩

/-- **C73** (same as `sendOneFrame`). Where `sendOneFrame` is defined, and both succeed, it makes no difference to the wire and to the socket, but for how often the
connection was asked to write. -/
theorem C73_as_sendOneFrame (env : Env) (h0 : Header) (fin : Bool) (opcode : UInt8) (pieces : List (List UInt8)) (s s1 s2 : Sock) (hs : Sendable s (some pieces.flatten))
    (h1 : streamFrame env h0 fin opcode pieces s = (.ret true, s1)) (h2 : sendOneFrame env fin opcode (some pieces.flatten) s = (.ret true, s2)) :
    s1 = { s2 with out := { s2.out with sched := s1.out.sched } } := by
  obtain ⟨e1, e2⟩ := C04_sendOneFrame env fin opcode _ s s2 hs h2
  obtain ⟨x, s', F, k1, _, k2, k3, k4, _⟩ := C73_frame env h0 fin opcode pieces s hs.1
  rw [h1] at k1
  injection k1 with k0 k1
  subst k1
  have k4 := k4 k0.symm
  rw [k3, e2]
  have : s1.out.written = s2.out.written := by rw [k4, e1, k2]; rfl
  rw [show s1.out = ⟨s1.out.written, s1.out.sched⟩ from rfl, this]

/-- Three pieces, one of them empty, masked, the transport taking a byte at a time: "Hel", "", "lo". The key in the header object passed in is not used. -/
example : (streamFrame Fixture.env { (default : Header) with mask := ⟨1, 2, 3, 4⟩ } true 1 [[0x48, 0x65, 0x6c], [], [0x6c, 0x6f]]
      (Sock.new { maskOutgoingMessages := true } ⟨[], Fixture.slow 11⟩)).1 = .ret true ∧
    (streamFrame Fixture.env { (default : Header) with mask := ⟨1, 2, 3, 4⟩ } true 1 [[0x48, 0x65, 0x6c], [], [0x6c, 0x6f]]
      (Sock.new { maskOutgoingMessages := true } ⟨[], Fixture.slow 11⟩)).2.out.written
    = ({ fin := true, opcode := 1, payload := [0x48, 0x65, 0x6c, 0x6c, 0x6f], maskKey := some [3, 20, 37, 54] } : Frame).encode := by decide +kernel

/-- The transport fails in the middle of the second piece. -/
example : (streamFrame Fixture.env default true 1 [[0x48, 0x65, 0x6c], [0x6c, 0x6f]] (Sock.new {} ⟨[], Fixture.slow 6 ++ [.broken]⟩)).1 = .ret false ∧
    (streamFrame Fixture.env default true 1 [[0x48, 0x65, 0x6c], [0x6c, 0x6f]] (Sock.new {} ⟨[], Fixture.slow 6 ++ [.broken]⟩)).2.out.written
      = ({ fin := true, opcode := 1, payload := [0x48, 0x65, 0x6c, 0x6c, 0x6f] } : Frame).encode.take 6 := by decide +kernel

/-- 2^31 bytes and one more, masked, which `sendOneFrame` cannot send (C27). -/
example : ∃ s', streamFrame Fixture.env default true 2 [List.replicate (2 ^ 31) 0, [1]]
    (Sock.new { maskOutgoingMessages := true } ⟨[], List.replicate (2 ^ 31 + 15) (.upTo 0)⟩) = (.ret true, s') := by
  have key : ∀ (p : List UInt8) (sc : List IoOutcome), p.length = 2147483648 → Healthy 2147483663 sc →
      ∃ s', streamFrame Fixture.env default true 2 [p, [1]] (Sock.new { maskOutgoingMessages := true } ⟨[], sc⟩) = (.ret true, s') := by
    intro p sc hp hsc
    have hl : ([p, [1]] : List (List UInt8)).flatten.length = 2147483649 := by
      rw [List.flatten_cons, List.length_append, hp]
      exact congrArg (2147483648 + ·) (show ([[1]] : List (List UInt8)).flatten.length = 1 from rfl)
    obtain ⟨x, s', F, h1, _, h2, _, _, _, h3⟩ := C73_frame Fixture.env default true 2 [p, [1]] (Sock.new { maskOutgoingMessages := true } ⟨[], sc⟩) (by rw [hl]; decide)
    refine ⟨s', ?_⟩
    rw [h1, h3 ?_]
    have : F.encode.length = 2147483663 := by
      subst h2
      unfold Frame.encode
      rw [List.length_append, applyKey?_length, hl]
      have h14 : (encodeHeader true false false false 2 (some [3, 20, 37, 54]) 2147483649).length = 14 := by decide +kernel
      exact congrArg (· + 2147483649) h14
    rw [this]
    exact hsc
  exact key _ _ (List.length_replicate ..) ((healthy_replicate (2 ^ 31 + 15)).mono (Nat.le_refl _))

end OatWS

namespace OatWS.Async
open RFC6455

/-- **C73** (async). `sendFrameHeaderAsync` fills in the same header, and its coroutine ends as `sendFrameHeader` does (returns - finished; exception - I/O error; waits for ever) and
leaves the same state. -/
theorem C73_async_header (env : Env) (h0 : Header) (fin : Bool) (opcode : UInt8) (size : Int) (w w1 : World) (h : Header) (co : Co) (l : Local)
    (hs : sendFrameHeaderAsync env h0 fin opcode size w = (h, co, w1)) :
    (∃ o w', Runs env ⟨[co], l⟩ w1 o w') ∧
    ∀ o w', Runs env ⟨[co], l⟩ w1 o w' →
      SameSt w'.st { w.st with sock := (sendFrameHeader env h0 fin opcode size w.st.sock).2 } ∧
      match (sendFrameHeader env h0 fin opcode size w.st.sock).1 with
      | .ret h' => o = .finished ∧ h' = h
      | .throw e => ∃ ae, o = .failed ae ∧ ErrMatch e ae
      | .block => o = .blocked
      | .ub u => o = .ub u := by
  obtain ⟨h1, w2, e1, e2, -⟩ := sendFrameHeader_async env h0 fin opcode size w
  rw [hs] at e1
  injection e1 with e0 e1
  injection e1 with e1 e3
  subst e0 e1 e3
  have hm := mirror_writeFrame env h [] NoCatch.nil l w1
  rw [P.bind_apply] at e2
  unfold liftSock at e2 hm
  have key : ∃ o w', Runs env ⟨[newWriteFrame env h], l⟩ w1 o w' ∧
      SameSt w'.st { w.st with sock := (sendFrameHeader env h0 fin opcode size w.st.sock).2 } ∧
      match (sendFrameHeader env h0 fin opcode size w.st.sock).1 with
      | .ret h' => o = .finished ∧ h' = h
      | .throw e => ∃ ae, o = .failed ae ∧ ErrMatch e ae
      | .block => o = .blocked
      | .ub u => o = .ub u := by
    rcases hx : sendFrameHeader env h0 fin opcode size w.st.sock with ⟨x, s⟩
    rcases hy : writeFrameHeader env h w1.st.sock with ⟨y, s'⟩
    rw [hx, hy] at e2
    rw [hy] at hm
    cases y with
    | ret u =>
      injection e2 with e2 e3
      obtain ⟨w', h1, h2⟩ := hm
      refine ⟨.finished, w', h1 _ _ (runs_iff.mpr ⟨rfl, rfl⟩), ?_, ?_⟩
      · rw [h2, ← e3]; exact SameSt.refl _
      · rw [e2]; exact ⟨rfl, rfl⟩
    | throw e =>
      injection e2 with e2 e3
      obtain ⟨ae, w', h1, h2, h3⟩ := hm
      refine ⟨.failed ae, w', h1, ?_, ?_⟩
      · rw [e3]; exact h2
      · rw [e2]; exact ⟨ae, rfl, h3⟩
    | block =>
      injection e2 with e2 e3
      obtain ⟨w', h1, h2⟩ := hm
      refine ⟨.blocked, w', h1, ?_, ?_⟩
      · rw [h2, ← e3]; exact SameSt.refl _
      · rw [e2]
    | ub u =>
      injection e2 with e2 e3
      obtain ⟨w', h1, h2⟩ := hm
      refine ⟨.ub u, w', h1, ?_, ?_⟩
      · rw [h2, ← e3]; exact SameSt.refl _
      · rw [e2]
  obtain ⟨o, w', k1, k2⟩ := key
  refine ⟨⟨o, w', k1⟩, fun o2 w2 hr => ?_⟩
  obtain ⟨rfl, rfl⟩ := k1.det hr
  exact k2

end OatWS.Async

namespace OatWS.Threads
open RFC6455 Prog
open Async (exEnv serialCheck serialCheck_sound exNotSending ExView callsOf Serialised Entry Sending sendsOf)

theorem does_writePieces (env : Env) (N : Nat) (h : Header) (n : Nat) (pieces : List (List UInt8)) : Does env N (writePiecesT N h n pieces) (liftSock (writePieces h n pieces)) := by
  induction pieces generalizing n with
  | nil => exact .ret true
  | cons p ps ih =>
    show Does env N _ (liftSock (P.bind _ _))
    rw [liftSock_bind']
    refine (does_writeExact env N _).andThen fun res => ?_
    rw [liftSock_ite]
    exact .ite (fun _ => ih _) (fun _ => .ret false)

/-- The marks of a send do nothing. -/
theorem does_marked {env N} {c : SendCall} {p : Prog Bool} {m : P St Bool} (h : Does env N p m) :
    Does env N (.act (.call c) fun _ => catching (andThen p fun ok => .act (.returned ok) fun _ => .ret ok) (fun e => .act (.returned false) fun _ => .throw e)) m := by
  intro st hN
  show run env (catching _ _) st = _
  rw [run_catching, run_andThen, P.bind_apply, h st hN]
  rcases m st with ⟨(a | _ | _ | _), s'⟩ <;> rfl

/-- **C73** (threads, alone). A thread that writes a frame in pieces and is not disturbed by others does what `streamFrame` does (so C73 holds for it); together with others it is one of
the sends of C58. -/
theorem C73_alone (env : Env) (N : Nat) (c : SendCall) (h0 : Header) (fin : Bool) (opcode : UInt8) (pieces : List (List UInt8)) (st : St) (hN : Enough N st) :
    run env (streamT env N c h0 fin opcode pieces) st = liftSock (streamFrame env h0 fin opcode pieces) st := by
  refine does_marked (m := liftSock (streamFrame env h0 fin opcode pieces)) ?_ st hN
  show Does env N _ (liftSock (P.bind _ _))
  rw [liftSock_bind']
  exact (does_sendFrameHeader env N h0 fin opcode _).andThen fun h => does_writePieces env N h 0 pieces

/-- **C73** (threads, calls alone). The same for the other send methods, `sendOneFrame` with its result. -/
theorem C73_call_alone (env : Env) (N : Nat) (c : SendCall) (st : St) (hN : Enough N st) :
    P.bind (run env (callT env N c)) (fun _ => P.pure ()) st = liftSock (send env c) st ∧
    ∀ fin op m, c = .oneFrame fin op m → run env (callT env N c) st = liftSock (sendOneFrame env fin op m) st := by
  have e : run env (callT env N c) st = liftSock (sendRes env c) st := does_marked (does_send env N c) st hN
  constructor
  · rw [P.bind_apply, e, ← sendRes_send]
    unfold liftSock
    rw [P.bind_apply]
    rcases sendRes env c st.sock with ⟨(a | _ | _ | _), s'⟩ <;> rfl
  · rintro fin op m rfl
    rw [e]
    rfl

/-- A thread that receives frame by frame with `iterateFrame`, and answers a ping from the callback; and one that writes a text message in three pieces, then, if this succeeded, sends
a ping, or else gives up with an exception, which it catches. The transport takes one byte at a time. -/
def exStreams : Pool := ⟨[andThen (iterateFrameT exEnv 40 default) fun h => andThen (iterateFrameT exEnv 40 h) fun _ => .ret (),
    catching (andThen (streamT exEnv 40 (.text (some [7, 8, 9])) default true 1 [[7, 8], [], [9]]) fun ok =>
      if ok then andThen (callT exEnv 40 (.ping none)) fun _ => .ret () else .throw .user) fun _ => .ret ()],
  { sock := { Sock.new { readBufferSize := 2 } ⟨[], Fixture.slow 30⟩ with listener := some 7 }
    inp := ⟨[0x89, 0x01, 0x21], Fixture.slow 4⟩ }⟩

theorem exStreams_app : ∀ t ∈ exStreams.threads, AppThread exEnv 40 t := by
  intro t ht
  simp only [exStreams, List.mem_cons, List.not_mem_nil, or_false] at ht
  rcases ht with rfl | rfl
  · exact .bind (.iterate _) fun _ => .bind (.iterate _) fun _ => .ret ()
  · refine .catching (.bind (.stream (.text (some [7, 8, 9])) default [[7, 8], [], [9]] rfl) fun ok => ?_) fun _ => .ret ()
    cases ok
    · exact .throw _
    · exact .bind (.send _) fun _ => .ret ()

/-- The answer (a pong) is sent in the middle of the second thread's code: after the streamed text, before the ping. -/
def exStreamTurns : List Nat := List.replicate 13 1 ++ List.replicate 22 0 ++ List.replicate 7 1


theorem exStreams_run : exView (Pool.execLog exEnv exStreamTurns exStreams) =
    some ⟨true, [.text (some [7, 8, 9]), .pong (some [0x21]), .ping none], true,
    [0x81, 3, 7, 8, 9, 0x8a, 1, 0x21, 0x89, 0], [⟨.pong (some [0x21]), [0x8a, 1, 0x21], none, .completed⟩],
    [⟨.ping none, [0x89, 0], none, .completed⟩, ⟨.text (some [7, 8, 9]), [0x81, 3, 7, 8, 9], none, .completed⟩]⟩ := by
  decide +kernel

/-- A peer with a read buffer of two bytes hears exactly the messages, the streamed one among them (C58 for code with streams and `iterateFrame`). -/
example : ∃ evs st', listen Fixture.env default (Fixture.receiving [0x81, 3, 7, 8, 9, 0x8a, 1, 0x21, 0x89, 0]) = (.ret (), st') ∧
    st'.sock.trace = (Fixture.receiving []).sock.trace ++ evs ∧ reassemble [] evs = ([.text [7, 8, 9], .pong [0x21], .ping []], []) := by
  have h := exStreams_run
  rcases he : Pool.execLog exEnv exStreamTurns exStreams with _ | ⟨log, p'⟩
  · rw [he] at h; cases h
  · rw [he] at h
    injection h with h
    injection h with h1 h2 h3 h4 h5 h6
    obtain ⟨evs, st', k1, k2, _, k3, _⟩ := C58_heard exEnv 40 exStreams exStreams_app log p' (execLog_logged he) (serialCheck_sound h1) (fun e hm => (by
        have := List.all_eq_true.mp h3 e hm
        simp at this
        exact this.1))
      (fun c hc => (by
        rw [show callsOf log = _ from h2] at hc
        simp only [List.mem_cons, List.not_mem_nil, or_false] at hc
        rcases hc with rfl | rfl | rfl
        · exact ⟨trivial, by decide⟩
        · exact ⟨(by decide : 1 ≤ 125), by decide⟩
        · exact ⟨(by decide : 0 ≤ 125), by decide⟩))
      (exNotSending h3 h5 h6 rfl rfl) Fixture.env default (Fixture.receiving [0x81, 3, 7, 8, 9, 0x8a, 1, 0x21, 0x89, 0]) 7 2 (Fixture.undisturbed _ (by decide)) h4
    rw [show callsOf log = _ from h2] at k3
    exact ⟨evs, st', k1, k2, k3⟩

/-- Streaming and depending on results, within the rules for threads besides the one that listens (C59, C60, C62, C63, C66-C72), whatever these rules say about operations. -/
example (O : UserOp → Prop) (ho : ∀ c, O (.send c false)) : HelperCode O exEnv 40
    (catching (andThen (streamT exEnv 40 (.text (some [7, 8, 9])) default true 1 [[7, 8], [], [9]]) fun ok =>
      if ok then andThen (callT exEnv 40 (.ping none)) fun _ => .ret () else .throw .user) fun _ => .ret ()) := by
  refine .catching (.bind (.stream (.text (some [7, 8, 9])) default [[7, 8], [], [9]] (ho _) rfl) fun ok => ?_) fun _ => .ret ()
  cases ok
  · exact .throw _
  · exact .bind (.send _ (ho _)) fun _ => .ret ()

end OatWS.Threads
