import Verif.Spec.Refusal
import Verif.Spec.Frames
import Verif.Model.WebSocket
import Verif.Spec.Async
/-! # Calling `listen` again and again -/

namespace OatWS
open RFC6455

/-- `listen` is called once for every header (the value of the uninitialised local variable, WebSocket.cpp:285), one call after the other. -/
def listens (env : Env) : List Header → P St Unit
  | [] => pure ()
  | h :: hs => do listen env h; listens env hs

/-- How calls of `listen`, one after the other, share out the bytes of a connection. `Parts o bytes heard`: when a fragmented message is open or not
(`o`), the bytes are the frames `heard[0]` (heard by the first call) up to a close frame, or up to a header that is refused, or up to the end of the bytes; and what comes behind the close
frame, or behind the refused *header*, goes in the same way to the further calls. -/
inductive Parts : Bool → List UInt8 → List (List Frame) → Prop
  | closed {o o' : Bool} {fs : List Frame} {g : Frame} {rest : List UInt8} {heard : List (List Frame)} : AcceptedAll o fs o' → g.Valid → g.opcode = 8 → g.payload.length ≤ 125 →
      Parts o' rest heard → Parts o (wireOf fs ++ (g.encode ++ rest)) ((fs ++ [g]) :: heard)
  | refused {o o' : Bool} {fs : List Frame} {bytes rest : List UInt8} {hd : Hdr} {e : Err} {heard : List (List Frame)} : AcceptedAll o fs o' →
      parseHdr bytes = some (hd, rest) → refusal o' hd = some e → Parts o' rest heard → Parts o (wireOf fs ++ bytes) (fs :: heard)
  | ended {o o' : Bool} {fs : List Frame} : AcceptedAll o fs o' → Parts o (wireOf fs) [fs]
  | none {o : Bool} {bytes : List UInt8} : Parts o bytes []

/-- An exception that receiving itself does not throw: it comes out of a callback. -/
def Err.ofCallback (e : Err) : Prop := ¬ e.isRead ∧ ¬ e.isProtocol ∧ e ≠ .badAlloc

/-- The callbacks for frame `g` up to one of them that throws, when `p` octets of the payload have been read: pieces of these, for a data frame; or all the callbacks of the frame. -/
def Begun (l B : Nat) (g : Frame) (p : Nat) (evs : List Event) : Prop :=
  (isDataOpcode g.opcode ∧ 0 < p ∧ p ≤ g.payload.length ∧ DataCallbacks l B g.opcode (g.payload.take p) evs) ∨
  (p = g.payload.length ∧ FrameEvents l B g evs)

/-- The last callback made so far threw `e` (and did so from the socket in state `s`). -/
def Threw (env : Env) (e : Err) (s' : Sock) : Prop := ∃ s, runUserOps env (env.react s'.trace) s = (.throw e, s')

end OatWS

namespace OatWS.Async

/-- The coroutine of `listenAsync` is run to its end (by itself, or with an error), then that of another call, and so on: once for every header (the value of the
uninitialised member, AsyncWebSocket.cpp). -/
inductive ListensAsync (env : Env) : List Header → World → World → Prop
  | done {w : World} : ListensAsync env [] w w
  | call {h : Header} {hs : List Header} {w w1 w2 : World} {o : Outcome} : Runs env (listenTask h) w o w1 → (o = .finished ∨ ∃ e, o = .failed e) →
      ListensAsync env hs w1 w2 → ListensAsync env (h :: hs) w w2

end OatWS.Async
