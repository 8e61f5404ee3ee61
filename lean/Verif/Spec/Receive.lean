import Verif.Spec.RFC6455
import Verif.Model.WebSocket
/-!
# What a listener is told, as a function of the bytes received

`Receives` is a chunk-free description of the receiver: given the bytes that were received (and whether a fragmented
message is open), the deliveries the listener gets and why receiving ended. It says nothing about reads, buffers or
schedules. `Renders` relates deliveries to the actual callbacks (data may be cut into chunks).
-/

namespace OatWS

open RFC6455

/-- What is delivered to the application. -/
inductive Delivery where
  | data (opcode : Nat) (bytes : List UInt8)      -- payload bytes of (a prefix of) one data frame
  | endOfMessage (opcode : Nat)
  | ping (payload : List UInt8)
  | pong (payload : List UInt8)
  | close (code : Nat) (reason : List UInt8)
deriving DecidableEq, Repr

/-- Why receiving ended. -/
inductive Reason where
  | closed        -- a close frame was received
  | stopped       -- listening was stopped by the user, after a complete frame
  | incomplete    -- the bytes received end between or inside frames (end of stream, failure, or still waiting)
  | badControl    -- control frame announcing more than 125 bytes
  | badContinuation -- continuation frame without an open message
  | badStart      -- text/binary frame inside an open message
  | badOpcode     -- reserved opcode
  | interrupted   -- the listener did not return normally from its last callback
deriving DecidableEq, Repr

/-- The code keeps the announced length in a signed 64-bit integer and reads payload while progress < length:
a length with the top bit set counts as 0. -/
def effectiveLen (n : Nat) : Nat := if n < 2 ^ 63 then n else 0

def isDataOpcode (op : Nat) : Prop := op = 0 ∨ op = 1 ∨ op = 2
def isControlOpcode (op : Nat) : Prop := op = 8 ∨ op = 9 ∨ op = 10

/-- May a data frame with this opcode be received when a fragmented message is open / not open? -/
def mayStart (isOpen : Bool) (op : Nat) : Prop := if op = 0 then isOpen = true else isOpen = false

/-- Is a fragmented message open after a data frame? This describes the code: a final continuation frame does *not* close
the message (see C13). -/
def openAfter (isOpen : Bool) (h : Hdr) : Bool := if h.opcode = 0 then isOpen else !h.fin

/-- The delivery for a complete control frame with the given payload. -/
def controlDelivery (op : Nat) (payload : List UInt8) : Delivery :=
  if op = 9 then .ping payload
  else if op = 10 then .pong payload
  else if 2 ≤ payload.length then .close (fromBigEndian (payload.take 2)) (payload.drop 2)
  else .close 0 []

/-- How the receiver goes on after a frame: with the next one (in the given state), or not at all. -/
inductive FrameEnd where
  | next (isOpen : Bool)
  | over (r : Reason)
deriving DecidableEq, Repr

/-- `OneFrame isOpen bytes ds e`: `bytes` are exactly the bytes consumed for one frame (complete, cut off, or refused) by a
receiver for which a fragmented message is open or not; `ds` are the deliveries made for it. -/
inductive OneFrame (isOpen : Bool) : List UInt8 → List Delivery → FrameEnd → Prop
  | noHeader {bs} : parseHdr bs = none → OneFrame isOpen bs [] (.over .incomplete)
  | badOpcode {bs h} : parseHdr bs = some (h, []) → ¬ isDataOpcode h.opcode → ¬ isControlOpcode h.opcode →
      OneFrame isOpen bs [] (.over .badOpcode)
  | badContinuation {bs h} : parseHdr bs = some (h, []) → h.opcode = 0 → isOpen = false →
      OneFrame isOpen bs [] (.over .badContinuation)
  | badStart {bs h} : parseHdr bs = some (h, []) → h.opcode = 1 ∨ h.opcode = 2 → isOpen = true →
      OneFrame isOpen bs [] (.over .badStart)
  | cutData {bs h rest} : parseHdr bs = some (h, rest) → isDataOpcode h.opcode → mayStart isOpen h.opcode →
      rest.length < effectiveLen h.len →
      OneFrame isOpen bs [.data h.opcode (applyKey? h.maskKey rest)] (.over .incomplete)
  | data {bs h rest} : parseHdr bs = some (h, rest) → isDataOpcode h.opcode → mayStart isOpen h.opcode →
      rest.length = effectiveLen h.len →
      OneFrame isOpen bs (.data h.opcode (applyKey? h.maskKey rest) :: if h.fin then [.endOfMessage h.opcode] else [])
        (.next (openAfter isOpen h))
  | badControl {bs h} : parseHdr bs = some (h, []) → isControlOpcode h.opcode → 125 < effectiveLen h.len →
      OneFrame isOpen bs [] (.over .badControl)
  | cutControl {bs h rest} : parseHdr bs = some (h, rest) → isControlOpcode h.opcode → effectiveLen h.len ≤ 125 →
      rest.length < effectiveLen h.len → OneFrame isOpen bs [] (.over .incomplete)
  | close {bs h rest} : parseHdr bs = some (h, rest) → h.opcode = 8 → effectiveLen h.len ≤ 125 →
      rest.length = effectiveLen h.len →
      OneFrame isOpen bs [controlDelivery h.opcode (applyKey? h.maskKey rest)] (.over .closed)
  | pingPong {bs h rest} : parseHdr bs = some (h, rest) → h.opcode = 9 ∨ h.opcode = 10 →
      effectiveLen h.len ≤ 125 → rest.length = effectiveLen h.len →
      OneFrame isOpen bs [controlDelivery h.opcode (applyKey? h.maskKey rest)] (.next isOpen)
  | interruptedData {bs h rest} : parseHdr bs = some (h, rest) → isDataOpcode h.opcode → mayStart isOpen h.opcode →
      0 < rest.length → rest.length ≤ effectiveLen h.len →
      OneFrame isOpen bs [.data h.opcode (applyKey? h.maskKey rest)] (.over .interrupted)
  | interruptedEnd {bs h rest} : parseHdr bs = some (h, rest) → isDataOpcode h.opcode → mayStart isOpen h.opcode →
      rest.length = effectiveLen h.len → h.fin = true →
      OneFrame isOpen bs [.data h.opcode (applyKey? h.maskKey rest), .endOfMessage h.opcode] (.over .interrupted)
  | interruptedControl {bs h rest} : parseHdr bs = some (h, rest) → isControlOpcode h.opcode →
      effectiveLen h.len ≤ 125 → rest.length = effectiveLen h.len →
      OneFrame isOpen bs [controlDelivery h.opcode (applyKey? h.maskKey rest)] (.over .interrupted)

/-- `Receives isOpen bytes ds r`: a receiver that consumes exactly `bytes` delivers `ds` and ends for reason `r`. -/
inductive Receives : Bool → List UInt8 → List Delivery → Reason → Prop
  | last {o bs ds r} : OneFrame o bs ds (.over r) → Receives o bs ds r
  | stop {o bs ds o'} : OneFrame o bs ds (.next o') → Receives o bs ds .stopped
  | more {o bs ds o' bs' ds' r} : OneFrame o bs ds (.next o') → Receives o' bs' ds' r →
      Receives o (bs ++ bs') (ds ++ ds') r

/-- `Renders l B evs ds`: the callbacks `evs` made to listener `l` are a rendering of the deliveries `ds`, in order: data is
cut into chunks of 1..B bytes (no callback for empty data), every other delivery is one callback; end of message is
`readMessage` with size 0. -/
inductive Renders (l B : Nat) : List Event → List Delivery → Prop
  | nil : Renders l B [] []
  | data {op : UInt8} {chunks : List (List UInt8)} {evs ds} :
      (∀ c ∈ chunks, 0 < c.length ∧ c.length ≤ B) → Renders l B evs ds →
      Renders l B (chunks.map (Event.readMessage l op) ++ evs) (.data op.toNat chunks.flatten :: ds)
  | endOfMessage {op : UInt8} {evs ds} : Renders l B evs ds →
      Renders l B (.readMessage l op [] :: evs) (.endOfMessage op.toNat :: ds)
  | ping {p evs ds} : Renders l B evs ds → Renders l B (.onPing l p :: evs) (.ping p :: ds)
  | pong {p evs ds} : Renders l B evs ds → Renders l B (.onPong l p :: evs) (.pong p :: ds)
  | close {code : UInt16} {p evs ds} : Renders l B evs ds →
      Renders l B (.onClose l code p :: evs) (.close code.toNat p :: ds)

/-- The callbacks for listener `l?`; without a listener there are none. -/
def RendersFor (l? : Option Nat) (B : Nat) (evs : List Event) (ds : List Delivery) : Prop :=
  match l? with
  | none => evs = []
  | some l => Renders l B evs ds

/-- Whether a fragmented message is open, as the socket remembers it (`m_lastOpcode`, WebSocket.hpp:110): -1 when none is
open (as after construction), otherwise the opcode of the message. -/
def OpenIs (o : Bool) (lastOpcode : Int) : Prop := if o then lastOpcode = 1 ∨ lastOpcode = 2 else lastOpcode = -1

/-! ## Listeners -/

/-- The operation leaves configuration and listener alone. -/
def UserOp.tame : UserOp → Prop
  | .setListener _ => False
  | .setConfig _ => False
  | _ => True

/-- The listener never changes the configuration or the listener (it may send, stop listening, throw). -/
def Env.Tame (env : Env) : Prop := ∀ tr, ∀ op ∈ env.react tr, op.tame

/-- The listener's callbacks return normally, in whatever state they are called. -/
def Env.Returns (env : Env) : Prop := ∀ tr s, ∃ s', runUserOps env (env.react tr) s = (.ret (), s')

/-- The listener's callbacks return normally and leave listening on, in whatever state they are called. -/
def Env.Passive (env : Env) : Prop :=
  ∀ tr s, ∃ s', runUserOps env (env.react tr) s = (.ret (), s') ∧ s'.listening = s.listening

/-- The listener's reactions: `stopListening` is requested in reaction to the history `tr`. -/
def Env.StopsAt (env : Env) (tr : List Event) : Prop := .stopListening ∈ env.react tr

/-- The listener only looks. -/
def Env.Quiet (env : Env) : Prop := ∀ tr, env.react tr = []

/-- Errors thrown when the connection fails or ends. -/
def Err.isRead : Err → Prop
  | .headerRead | .len2Read | .len3Read | .maskRead | .connectionState => True
  | _ => False

/-- How listening (before the catch clauses) ends for each reason. -/
def EndsLike : Reason → Exit Unit → Prop
  | .closed, x => x = .ret ()
  | .stopped, x => x = .ret ()
  | .incomplete, x => x = .block ∨ ∃ e, e.isRead ∧ x = .throw e
  | .badControl, x => x = .throw .controlTooLong
  | .badContinuation, x => x = .throw .continuationState
  | .badStart, x => x = .throw .continuationExpected
  | .badOpcode, x => x = .throw .unknownFrame
  | .interrupted, x => x ≠ .ret ()

end OatWS
