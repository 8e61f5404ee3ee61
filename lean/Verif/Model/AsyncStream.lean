import Verif.Model.Async
import Verif.Model.ThreadCalls
/-!
# Frames that a coroutine of the application writes itself

`sendFrameHeaderAsync` (AsyncWebSocket.cpp:462-479) is public: a coroutine of the application may start it and then write the payload to the connection (`getConnection()`, AsyncWebSocket.hpp:197-199) in
pieces, for a payload that is not in memory as a whole. Here any coroutine of the application (also one returned by a callback) may do so wherever it would call `sendOneFrameAsync`.
-/

namespace OatWS.Streams
open Async

/-- Where the coroutine is.
Not from /repo: user code around AsyncWebSocket.cpp:462-479. -/
inductive Stage where
  /-- it is about to call `sendFrameHeaderAsync` with this header object -/
  | start (h0 : Header) (pieces : List (List UInt8))
  /-- the `WriteFrameCoroutine` (AsyncWebSocket.cpp:154-213) runs; the header object now is `h` -/
  | header (h : Header) (co : WriteFrameCo) (pieces : List (List UInt8))
  /-- it writes: `left` of a piece is still to be written, then come other pieces, beginning at `offset` of the payload -/
  | payload (h : Header) (offset : Nat) (left : List UInt8) (pieces : List (List UInt8))

/-- A coroutine of the application that writes a frame with this FIN, opcode and payload (`message`: what its pieces are together), `caller` being what it does afterwards, and the coroutines below it.
Not from /repo: user code. -/
structure Stream where
  fin : Bool
  opcode : UInt8
  message : List UInt8
  stage : Stage
  caller : UserCo
  below : List Co
  loc : Local

/-- A task: in a state as before, or its top coroutine writes a frame itself.
Not from /repo: user code. -/
inductive XTask where
  | plain (o : Outcome)
  | streaming (s : Stream)

/-- As `Async.Pool`.
Not from /repo: the tasks of an executor (external, oatpp core). -/
structure XPool where
  tasks : List XTask
  world : World

/-- The coroutines below the frame that is being written. Not from /repo: user code. -/
def Stream.rest (s : Stream) : List Co := .user s.caller :: s.below

/-- One step of a task that is in the middle of a frame it writes itself. `error`s go to the coroutines below, as ever (`unwind`).
User code, `sendFrameHeaderAsync` (AsyncWebSocket.cpp:462-479), `WriteFrameCoroutine` (:154-213), `writeExactSizeDataAsync` of the connection (external). -/
inductive StreamStep (env : Env) : Stream → World → XTask → World → Prop
  /-- `sendFrameHeaderAsync` is called -/
  | begin {s : Stream} {h0 h : Header} {pieces : List (List UInt8)} {co : WriteFrameCo} {w w' : World} : s.stage = .start h0 pieces →
      sendFrameHeaderAsync env h0 s.fin s.opcode pieces.flatten.length w = (h, .writeFrame co, w') →
      StreamStep env s w (.streaming { s with stage := .header h co pieces }) w'
  /-- a step of the coroutine it has returned -/
  | header {s : Stream} {h : Header} {pieces : List (List UInt8)} {co co' : WriteFrameCo} {l : Local} {w w' : World} : s.stage = .header h co pieces →
      writeFrameStep env co s.loc w = (.goto (.writeFrame co'), l, w') →
      StreamStep env s w (.streaming { s with stage := .header h co' pieces }) w'
  /-- the header is written -/
  | headerDone {s : Stream} {h : Header} {pieces : List (List UInt8)} {co : WriteFrameCo} {l : Local} {w w' : World} : s.stage = .header h co pieces →
      writeFrameStep env co s.loc w = (.finish, l, w') →
      StreamStep env s w (.streaming { s with stage := .payload h 0 [] pieces }) w'
  /-- writing the header has failed -/
  | headerFailed {s : Stream} {h : Header} {pieces : List (List UInt8)} {co : WriteFrameCo} {e : AErr} {l : Local} {w w' w'' : World} {o : Outcome} : s.stage = .header h co pieces →
      writeFrameStep env co s.loc w = (.error e, l, w') → unwind e s.rest s.loc w' = (o, w'') →
      StreamStep env s w (.plain o) w''
  /-- the next piece is taken, and masked if the header says so -/
  | next {s : Stream} {h : Header} {n : Nat} {piece : List UInt8} {pieces : List (List UInt8)} {w : World} : s.stage = .payload h n [] (piece :: pieces) →
      StreamStep env s w (.streaming { s with stage := .payload h (n + piece.length) (pieceBytes h n piece) pieces }) w
  /-- some of the piece is written, or nothing (retry) -/
  | write {s : Stream} {h : Header} {n : Nat} {left left' : List UInt8} {pieces : List (List UInt8)} {out : OutStream} {w : World} : s.stage = .payload h n left pieces → left ≠ [] →
      (writeInline left w.st.sock.out = (.again left', out) ∨ writeInline left w.st.sock.out = (.done left', out)) →
      StreamStep env s w (.streaming { s with stage := .payload h n left' pieces }) (w.setOut out)
  /-- writing fails -/
  | writeFailed {s : Stream} {h : Header} {n : Nat} {left : List UInt8} {pieces : List (List UInt8)} {out : OutStream} {w w' : World} {o : Outcome} : s.stage = .payload h n left pieces →
      writeInline left w.st.sock.out = (.failed, out) → unwind .io s.rest s.loc (w.setOut out) = (o, w') →
      StreamStep env s w (.plain o) w'
  /-- all is written -/
  | done {s : Stream} {h : Header} {n : Nat} {w : World} : s.stage = .payload h n [] [] →
      StreamStep env s w (.plain (.run ⟨s.rest, s.loc⟩)) w

/-- One step of task `i`. Where a coroutine of the application would call `sendOneFrameAsync` (AsyncWebSocket.cpp:481-539) it may also begin to write the frame itself, in any pieces, with any header object
(simplified: if the payload has less than 2^31 bytes).
External: the executor. -/
inductive XPool.Step (env : Env) : XPool → Nat → XPool → Prop
  | plain {ts : List XTask} {w w' : World} {i : Nat} {t : Task} {o : Outcome} : ts[i]? = some (.plain (.run t)) → step env t w = (o, w') → o ≠ .blocked →
      XPool.Step env ⟨ts, w⟩ i ⟨ts.set i (.plain o), w'⟩
  | choose {ts : List XTask} {w : World} {i : Nat} {u : UserCo} {below : List Co} {l : Local} {fin : Bool} {opcode : UInt8} {h0 : Header} {pieces : List (List UInt8)} {catches : Bool} {ops : List UserOp} :
      ts[i]? = some (.plain (.run ⟨.user u :: below, l⟩)) → u.ops = .send (.oneFrame fin opcode (some pieces.flatten)) catches :: ops → pieces.flatten.length < 2 ^ 31 →
      XPool.Step env ⟨ts, w⟩ i ⟨ts.set i (.streaming ⟨fin, opcode, pieces.flatten, .start h0 pieces, { u with ops := ops, catching := catches }, below, l⟩), w⟩
  | stream {ts : List XTask} {w w' : World} {i : Nat} {s : Stream} {x : XTask} : ts[i]? = some (.streaming s) → StreamStep env s w x w' →
      XPool.Step env ⟨ts, w⟩ i ⟨ts.set i x, w'⟩

/-- Any number of steps, in any order. External: the executor. -/
inductive XPool.Steps (env : Env) : XPool → XPool → Prop
  | refl {p : XPool} : XPool.Steps env p p
  | tail {p q r : XPool} {i : Nat} : XPool.Steps env p q → XPool.Step env q i r → XPool.Steps env p r

end OatWS.Streams
