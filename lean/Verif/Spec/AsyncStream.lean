import Verif.Model.AsyncStream
import Verif.Spec.Network
/-!
# Frames that a coroutine of the application writes itself: what they stand for

`XTask.asSend` and `XPool.asSends` say which state of an ordinary program (`Model/Async`) a state of a program that writes frames itself stands for: the one in which `sendOneFrameAsync` was called instead.
-/

namespace OatWS.Async

/-- The same, but for the outcomes of the coming writes. -/
def World.sch (w : World) (s : List IoOutcome) : World := w.setOut ⟨w.st.sock.out.written, s⟩

end OatWS.Async

namespace OatWS.Streams
open Async

/-- The header without the bytes of a key that is not used. -/
def butUnused (h : Header) : Header := if h.hasMask then h else { h with mask := (default : Header).mask }

/-- What is still to be written. -/
def Stage.toWrite : Stage → List UInt8
  | .payload h n left pieces => left ++ pieceBytes h n pieces.flatten
  | _ => []

/-- The state of a task that called `sendOneFrameAsync` instead. -/
def Stream.asSend (s : Stream) : Outcome :=
  match s.stage with
  | .start _ _ => .run ⟨.sendFrame { fin := s.fin, opcode := s.opcode, message := some s.message } :: s.rest, s.loc⟩
  | .header h co _ => .run ⟨.writeFrame { co with hdr := butUnused co.hdr } ::
      .sendFrame { pc := if s.message = [] then .done else .prepareWriteMessage, fin := s.fin, opcode := s.opcode, message := some s.message, hdr := butUnused h } :: s.rest, s.loc⟩
  | .payload h _ _ _ =>
    if s.stage.toWrite = [] then .run ⟨s.rest, s.loc⟩
    else .run ⟨.sendFrame { pc := .writeMessage, fin := s.fin, opcode := s.opcode, message := some s.message, hdr := butUnused h, left := s.stage.toWrite } :: s.rest, s.loc⟩

/-- The same for any task. -/
def XTask.asSend : XTask → Outcome
  | .plain o => o
  | .streaming s => s.asSend

/-- The ordinary program, in the same world but for the outcomes of the coming writes. -/
def XPool.asSends (p : XPool) (s : List IoOutcome) : Pool := ⟨p.tasks.map XTask.asSend, p.world.sch s⟩

/-- The frames begun are consistent: their pieces are their message. -/
def Stream.Consistent (s : Stream) : Prop :=
  s.message.length < 2 ^ 31 ∧
  match s.stage with
  | .start _ pieces => pieces.flatten = s.message
  | .header _ _ pieces => pieces.flatten = s.message
  | .payload _ _ _ _ => True

/-- No frame is being written. -/
def XTask.Plain : XTask → Prop
  | .plain _ => True
  | .streaming _ => False

/-- An endpoint that may write frames itself, or any other. -/
inductive XEndpoint where
  | streams (p : XPool)
  | other (e : Network.Endpoint)

/-- Socket and connection of the endpoint. -/
def XEndpoint.st : XEndpoint → St
  | .streams p => p.world.st
  | .other e => e.st

/-- Bytes arrive. -/
def XEndpoint.receive : XEndpoint → List UInt8 → XEndpoint
  | .streams p, bs => .streams ⟨p.tasks, p.world.setInp ⟨p.world.st.inp.bytes ++ bs, p.world.st.inp.sched⟩⟩
  | .other e, bs => .other (e.receive bs)

/-- What one step of task `i` did (`bs`: written), where it was `x` and is `x'`. As for a send: it is completed when its last byte is written (`message` empty: when the header is written). -/
def recordOf (env : Env) (i : Nat) (x x' : XTask) (w w' : World) (bs : List UInt8) : List Entry :=
  match x, x' with
  | .plain (.run t), .plain _ => [entryOf env i t w w' bs]
  | .plain (.run t), .streaming _ => [⟨i, t.calls, bs, none, false, false⟩]
  | .plain _, _ => []
  | .streaming s, x' =>
    match s.stage, x' with
    | .start _ _, _ => [⟨i, none, bs, drewAt w.st.sock w'.st.sock, false, false⟩]
    | .header _ _ _, .plain _ => [⟨i, none, bs, none, false, true⟩]
    | .header _ _ _, .streaming s' =>
      match s'.stage with
      | .payload _ _ _ _ => [⟨i, none, bs, none, false, false⟩, ⟨i, none, [], none, decide (s.message = []), false⟩]
      | _ => [⟨i, none, bs, none, false, false⟩]
    | .payload _ _ [] _, _ => []
    | .payload _ _ (_ :: _) _, .plain _ => [⟨i, none, bs, none, false, true⟩]
    | .payload _ _ (_ :: _) _, .streaming s' => [⟨i, none, bs, none, decide (s'.stage.toWrite = []), false⟩]

/-- An execution of any number of steps of tasks that may write frames themselves, and its record. -/
inductive XPool.Logged (env : Env) : XPool → List Entry → XPool → Prop
  | refl {p : XPool} : XPool.Logged env p [] p
  | tail {p q r : XPool} {log : List Entry} {i : Nat} {x x' : XTask} {bs : List UInt8} : XPool.Logged env p log q → XPool.Step env q i r →
      q.tasks[i]? = some x → r.tasks[i]? = some x' → r.world.st.sock.out.written = q.world.st.sock.out.written ++ bs →
      XPool.Logged env p (log ++ recordOf env i x x' q.world r.world bs) r

/-- One step, and its record. -/
inductive XEndpoint.Step (env : Env) : XEndpoint → List Entry → XEndpoint → Prop
  | streams {p p' : XPool} {i : Nat} {x x' : XTask} {bs : List UInt8} : XPool.Step env p i p' → p.tasks[i]? = some x → p'.tasks[i]? = some x' →
      (∀ t, x = .plain (.run t) → t.ready p.world = true) →
      p'.world.st.sock.out.written = p.world.st.sock.out.written ++ bs → XEndpoint.Step env (.streams p) (recordOf env i x x' p.world p'.world bs) (.streams p')
  | other {e e' : Network.Endpoint} {a : Entry} : Network.Endpoint.Step env e a e' → XEndpoint.Step env (.other e) [a] (.other e')

/-- As `Network.Linked`: any number of steps of both endpoints, in any order; what one writes arrives at the other. With the records of the steps at each of them. -/
inductive XLinked (envA envB : Env) (a0 b0 : XEndpoint) : List Entry → List Entry → XEndpoint → XEndpoint → Prop
  | refl : XLinked envA envB a0 b0 [] [] a0 b0
  | left {la lb : List Entry} {a b a' : XEndpoint} {es : List Entry} : XLinked envA envB a0 b0 la lb a b → XEndpoint.Step envA a es a' →
      XLinked envA envB a0 b0 (la ++ es) lb a' (b.receive (es.flatMap Entry.wrote))
  | right {la lb : List Entry} {a b b' : XEndpoint} {es : List Entry} : XLinked envA envB a0 b0 la lb a b → XEndpoint.Step envB b es b' →
      XLinked envA envB a0 b0 la (lb ++ es) (a.receive (es.flatMap Entry.wrote)) b'

/-- At the beginning no frame is being written. -/
def XEndpoint.Fresh : XEndpoint → Prop
  | .streams p => ∀ x ∈ p.tasks, x.Plain
  | .other _ => True

/-- The ordinary endpoint it stands for. -/
def XEndpoint.asSends : XEndpoint → List IoOutcome → Network.Endpoint
  | .streams p, s => .tasks (p.asSends s)
  | .other e, _ => e

/-- The same, with the outcomes of writes as they are. -/
def XEndpoint.now (e : XEndpoint) : Network.Endpoint := e.asSends e.st.sock.out.sched

/-- No task (or thread) can make a step. -/
def XEndpoint.AtRest (env : Env) (e : XEndpoint) : Prop := ∀ es e', ¬ XEndpoint.Step env e es e'

end OatWS.Streams
