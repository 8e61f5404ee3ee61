import Verif.Model.WebSocket
/-!
# The asynchronous WebSocket: `AsyncWebSocket.hpp`, `AsyncWebSocket.cpp`

The coroutines are objects with a current function; one transition runs one such function (one `iterate` of the oatpp
executor). Contract assumed of oatpp core (not in /repo):

* `X::start(args)` constructs the coroutine object at once; `a.next(b)` runs `b` (already constructed) after `a` has
  finished, `a.next(action)` performs the action of the starting coroutine after `a` has finished; `finish()` destroys the
  coroutine object; starting a null `CoroutineStarter` is the same as starting a coroutine that finishes at once;
* an exception thrown by a coroutine function becomes an error of the coroutine; an error destroys the coroutine objects from
  the top of the stack until a `handleError` replaces it. `ListenCoroutine::handleError` (AsyncWebSocket.cpp:452-454) returns
  the error; the other coroutines of this file do not define it (the default returns the error);
* `readExactSizeDataAsyncInline`/`writeExactSizeDataAsyncInline` make one low-level call per step, repeat the step until all
  bytes were moved, repeat on RETRY, and fail on an error; a result of 0 is assumed to be a failure as well;
* `readSomeDataAsyncInline` makes one low-level call, repeats the step on RETRY, fails on an error and goes on otherwise
  (also with 0, and at once if no bytes are wanted).

Between two steps of one coroutine stack, other stacks may run.
-/

namespace OatWS
namespace Async

/-- Errors: of an inline read or write (`AsyncIOError`), or an exception.
Models `oatpp::async::Error` objects as they leave AsyncWebSocket.cpp:94, 121, 142, 180, 198, 210, 280, 532 (I/O) and :250, 321, 328, 357, 365, 372, 388 (thrown, and turned into errors by the executor: external). -/
inductive AErr where
  | io
  | thrown (e : Err)
deriving DecidableEq, Repr

/-- Functions of `ReadFrameCoroutine` (AsyncWebSocket.cpp:93-143). -/
inductive ReadFramePc where
  | act | onBbRead | readLen | onLenRead | readMask
deriving DecidableEq, Repr

/-- `ReadFrameCoroutine` (AsyncWebSocket.cpp:72-145). `need`/`got`: `m_inlineData`, the number of bytes wanted and the bytes
stored so far; the buffers `m_bb`, `m_messageLen2`, `m_messageLen3` are `got` when complete. -/
structure ReadFrameCo where
  pc : ReadFramePc := .act
  lenType : Nat := 0
  need : Nat := 2
  got : List UInt8 := []
deriving DecidableEq, Repr

/-- Functions of `WriteFrameCoroutine` (AsyncWebSocket.cpp:179-211). -/
inductive WriteFramePc where
  | act | onBbWritten | writeMessageLen | onLenWritten | writeMask
deriving DecidableEq, Repr

/-- `WriteFrameCoroutine` (AsyncWebSocket.cpp:154-213). `left`: `m_inlineData`, the bytes still to be written. -/
structure WriteFrameCo where
  pc : WriteFramePc := .act
  hdr : Header
  scenario : UInt8
  left : List UInt8
deriving DecidableEq, Repr

/-- Functions of `ReadPayloadCoroutine` (AsyncWebSocket.cpp:258-324). `done` stands for a pending `finish()`. -/
inductive ReadPayloadPc where
  | act | readData | onDataRead | done
deriving DecidableEq, Repr

/-- `ReadPayloadCoroutine` (AsyncWebSocket.cpp:223-326). `listener`: `m_listener`, captured at construction. `short`: there is a
short message stream. `cap`: allocated size of `m_buffer`, `buf`: its identity. `want`/`got`: `m_inlineData`. -/
structure ReadPayloadCo where
  pc : ReadPayloadPc := .act
  listener : Option Nat
  short : Bool
  cap : Nat
  buf : Nat
  progress : Int := 0
  want : Int := 0
  got : List UInt8 := []
deriving DecidableEq, Repr

/-- Functions of `HandleFrameCoroutine` (AsyncWebSocket.cpp:352-422). -/
inductive HandleFramePc where
  | act | onClose | onPing | onPong | done
deriving DecidableEq, Repr

/-- `HandleFrameCoroutine` (AsyncWebSocket.cpp:337-424). `listener`: `m_listener`, captured at construction (:349). -/
structure HandleFrameCo where
  pc : HandleFramePc := .act
  listener : Option Nat
deriving DecidableEq, Repr

/-- The coroutine returned by a callback: the operations it performs. `ptr`: the data pointer of the callback (identity of the
buffer), `data` what it pointed to. `catching`: it handles an error of the send in progress. `self`: the listener whose method has
returned the coroutine, if any (used in no step, only in what is said about it).
Models the result of the user's callbacks (AsyncWebSocket.hpp:47-93; called at AsyncWebSocket.cpp:272, 301, 312, 405, 412, 419). Simplified: user code is a list of operations on the socket. -/
structure UserCo where
  ops : List UserOp
  catching : Bool := false
  ptr : Option Nat := none
  data : List UInt8 := []
  self : Option Nat := none
deriving DecidableEq, Repr

/-- Functions of `SendFrameCoroutine` (AsyncWebSocket.cpp:510-533). -/
inductive SendFramePc where
  | act | prepareWriteMessage | writeMessage | done
deriving DecidableEq, Repr

/-- `SendFrameCoroutine` (AsyncWebSocket.cpp:483-535). -/
structure SendFrameCo where
  pc : SendFramePc := .act
  fin : Bool
  opcode : UInt8
  message : Option (List UInt8)
  hdr : Header := default
  left : List UInt8 := []
deriving DecidableEq, Repr

/-- A coroutine object. `listen` is `ListenCoroutine` (AsyncWebSocket.cpp:432-456), which is always at `act`. -/
inductive Co where
  | listen
  | readFrame (c : ReadFrameCo)
  | handleFrame (c : HandleFrameCo)
  | readPayload (c : ReadPayloadCo)
  | user (c : UserCo)
  | sendFrame (c : SendFrameCo)
  | writeFrame (c : WriteFrameCo)
deriving DecidableEq, Repr

/-- Objects shared by the coroutines of one `listenAsync`: the header (AsyncWebSocket.cpp:435) and the content of the short
message stream (:342). -/
structure Local where
  hdr : Header := default
  short : List UInt8 := []
deriving DecidableEq, Repr

/-- A callback as made: the event, the buffer its data pointer refers to, and the bytes found there during the call
(`none`: the buffer does not exist).
Bookkeeping for the proofs; the calls are those of AsyncWebSocket.cpp:272, 301, 312, 405, 412, 419. -/
structure Call where
  event : Event
  ptr : Option Nat
  found : Option (List UInt8)
deriving DecidableEq, Repr

/-- What all coroutines share: socket and connection, the heap buffers for received data, and (for the proofs only) the record
of callbacks.
Models `m_socket`, `m_connection` and `m_buffer` of the coroutines (AsyncWebSocket.cpp:225-232). -/
structure World where
  st : St
  heap : List (Nat × List UInt8) := []
  nextBuf : Nat := 0
  calls : List Call := []
deriving DecidableEq, Repr

/-- `new v_char8[...]` AsyncWebSocket.cpp:246, 290. -/
def World.alloc (w : World) (content : List UInt8) : Nat × World :=
  (w.nextBuf, { w with heap := (w.nextBuf, content) :: w.heap, nextBuf := w.nextBuf + 1 })

/-- `delete []`
AsyncWebSocket.cpp:255 and the end of the scope of `decoded`, :290-303. -/
def World.free (w : World) (id : Nat) : World := { w with heap := w.heap.filter fun p => p.1 ≠ id }

/-- Storing into a buffer.
AsyncWebSocket.cpp:280 (the inline read stores into `m_buffer`) and :291-293. -/
def World.store (w : World) (id : Nat) (content : List UInt8) : World :=
  { w with heap := w.heap.map fun p => if p.1 = id then (id, content) else p }

/-- What a coroutine function returns (`oatpp::async::Action`), or that it cannot return now.
Models the `Action` values returned at AsyncWebSocket.cpp:93-143, 179-211, 258-323, 352-422, 445-454, 510-533. -/
inductive Act where
  | goto (c : Co)                   -- yieldTo / repeat / wait
  | call (cs : List Co) (c : Co)    -- start coroutines, one after the other, then go on with c
  | finish
  | error (e : AErr)
  | blocked                         -- the transport never becomes ready
  | ub (u : UB)

/-- Result of one step of an exact-size inline operation.
External (oatpp core), called at AsyncWebSocket.cpp:94, 121, 142, 180, 198, 210, 532. -/
inductive Io (α : Type) where
  | again (a : α)
  | done (a : α)
  | failed
  | blocked

/-- `readExactSizeDataAsyncInline`: one step.
External (oatpp core), called at AsyncWebSocket.cpp:94, 121, 142. -/
def readInline (need : Nat) (got : List UInt8) (inp : InStream) : Io (List UInt8) × InStream :=
  if need ≤ got.length then (.done got, inp)
  else match inp.sched with
    | [] => (.blocked, inp)
    | o :: sched =>
      match lowRead o inp.bytes (need - got.length) with
      | (.data bs, bytes) =>
        if need ≤ (got ++ bs).length then (.done (got ++ bs), ⟨bytes, sched⟩) else (.again (got ++ bs), ⟨bytes, sched⟩)
      | (.retry, bytes) => (.again got, ⟨bytes, sched⟩)
      | (.zero, bytes) => (.failed, ⟨bytes, sched⟩)
      | (.broken, bytes) => (.failed, ⟨bytes, sched⟩)

/-- `writeExactSizeDataAsyncInline`: one step.
External (oatpp core), called at AsyncWebSocket.cpp:180, 198, 210, 532. -/
def writeInline (left : List UInt8) (out : OutStream) : Io (List UInt8) × OutStream :=
  match left, out.sched with
  | [], _ => (.done [], out)
  | _ :: _, [] => (.blocked, out)
  | b :: bs, o :: sched =>
    match o with
    | .upTo m =>
      let k := min (m + 1) (b :: bs).length
      let written := out.written ++ (b :: bs).take k
      if (b :: bs).drop k = [] then (.done [], ⟨written, sched⟩) else (.again ((b :: bs).drop k), ⟨written, sched⟩)
    | .retry => (.again (b :: bs), ⟨out.written, sched⟩)
    | .zero => (.failed, ⟨out.written, sched⟩)
    | .broken => (.failed, ⟨out.written, sched⟩)

/-- Not from /repo: replaces the input side of the connection in the state (used for AsyncWebSocket.cpp:94, 121, 142, 280). -/
def World.setInp (w : World) (i : InStream) : World := { w with st := { w.st with inp := i } }
/-- Not from /repo: replaces the fields of the socket in the state (used for AsyncWebSocket.cpp:63, 65, 475). -/
def World.setSock (w : World) (s : Sock) : World := { w with st := { w.st with sock := s } }
/-- Not from /repo: replaces the output side of the connection in the state (used for AsyncWebSocket.cpp:180, 198, 210, 532). -/
def World.setOut (w : World) (o : OutStream) : World := w.setSock { w.st.sock with out := o }

/-- A step of a coroutine that reads exactly: `again` with the bytes so far, `cont` with all bytes.
The pattern of AsyncWebSocket.cpp:94, 121, 142. -/
def readStep (need : Nat) (got : List UInt8) (l : Local) (w : World) (again : List UInt8 → Co)
    (cont : List UInt8 → World → Act × Local × World) : Act × Local × World :=
  match readInline need got w.st.inp with
  | (.again g, i) => (.goto (again g), l, w.setInp i)
  | (.done g, i) => cont g (w.setInp i)
  | (.failed, i) => (.error .io, l, w.setInp i)
  | (.blocked, i) => (.blocked, l, w.setInp i)

/-- A step of a coroutine that writes exactly: `again` with the bytes left, `cont` when all are written.
The pattern of AsyncWebSocket.cpp:180, 198, 210, 532. -/
def writeStep (left : List UInt8) (l : Local) (w : World) (again : List UInt8 → Co) (cont : Act) : Act × Local × World :=
  match writeInline left w.st.sock.out with
  | (.again g, o) => (.goto (again g), l, w.setOut o)
  | (.done _, o) => (cont, l, w.setOut o)
  | (.failed, o) => (.error .io, l, w.setOut o)
  | (.blocked, o) => (.blocked, l, w.setOut o)

/-! ## ReadFrameCoroutine -/

/-- The payload length after the length field was read (AsyncWebSocket.cpp:126-130); `old`: the length already in the header. -/
def decodedLength (env : Env) (lenType : Nat) (got : List UInt8) (old : Int) : Int :=
  if lenType = 2 then
    match got with
    | [b0, b1] => (hton16 env.host (load16 env.host b0 b1)).toNat                             -- :127
    | _ => 0
  else if lenType = 3 then
    match got with
    | [b0, b1, b2, b3, b4, b5, b6, b7] =>
      toInt64 ((hton32 env.host (load32 env.host b0 b1 b2 b3)).toNat * 4294967296
        + (hton32 env.host (load32 env.host b4 b5 b6 b7)).toNat)                              -- :129
    | _ => 0
  else old

/-- One function of `ReadFrameCoroutine` (AsyncWebSocket.cpp:93-143). The branches for byte lists of other lengths cannot
occur. Simplification: the mask is stored into the header when it is complete. -/
def readFrameStep (env : Env) (c : ReadFrameCo) (l : Local) (w : World) : Act × Local × World :=
  match c.pc with
  | .act =>                                                                                   -- :93-95
    readStep c.need c.got l w (fun g => .readFrame { c with got := g })
      (fun g w => (.goto (.readFrame { c with pc := .onBbRead, got := g }), l, w))
  | .onBbRead =>                                                                              -- :97-118
    match c.got with
    | [b0, b1] =>
      let (h, messageLen1) := unpackHeaderBits (hton16 env.host (load16 env.host b0 b1)) l.hdr   -- :100
      if messageLen1 < 126 then                                                               -- :102-105
        (.goto (.readFrame { c with pc := .onLenRead, lenType := 1 }),
          { l with hdr := { h with payloadLength := messageLen1.toNat } }, w)
      else if messageLen1 = 126 then                                                          -- :106-109
        (.goto (.readFrame { c with pc := .readLen, lenType := 2, need := 2, got := [] }), { l with hdr := h }, w)
      else                                                                                    -- :110-113
        (.goto (.readFrame { c with pc := .readLen, lenType := 3, need := 8, got := [] }), { l with hdr := h }, w)
    | _ => (.error .io, l, w)
  | .readLen =>                                                                               -- :120-122
    readStep c.need c.got l w (fun g => .readFrame { c with got := g })
      (fun g w => (.goto (.readFrame { c with pc := .onLenRead, got := g }), l, w))
  | .onLenRead =>                                                                             -- :124-139
    let l := { l with hdr := { l.hdr with payloadLength := decodedLength env c.lenType c.got l.hdr.payloadLength } }   -- :126-130
    if l.hdr.hasMask then (.goto (.readFrame { c with pc := .readMask, need := 4, got := [] }), l, w)   -- :132-135
    else (.finish, l, w)                                                                      -- :137
  | .readMask =>                                                                              -- :141-143
    readStep c.need c.got l w (fun g => .readFrame { c with got := g })
      (fun g w => match g with
        | [m0, m1, m2, m3] => (.finish, { l with hdr := { l.hdr with mask := ⟨m0, m1, m2, m3⟩ } }, w)
        | _ => (.error .io, l, w))

/-! ## Sending -/

/-- `writeFrameHeaderAsync` (AsyncWebSocket.cpp:151-217): the constructor of `WriteFrameCoroutine` (:168-177). -/
def newWriteFrame (env : Env) (h : Header) : Co :=
  .writeFrame { hdr := h, scenario := (packHeaderBits h).2, left := store16 env.host (hton16 env.host (packHeaderBits h).1) }

/-- One function of `WriteFrameCoroutine` (AsyncWebSocket.cpp:179-211). -/
def writeFrameStep (env : Env) (c : WriteFrameCo) (l : Local) (w : World) : Act × Local × World :=
  match c.pc with
  | .act =>                                                                                   -- :179-181
    writeStep c.left l w (fun g => .writeFrame { c with left := g }) (.goto (.writeFrame { c with pc := .onBbWritten, left := [] }))
  | .onBbWritten =>                                                                           -- :183-195
    if c.scenario = 2 then
      let messageLen2 := hton16 env.host (UInt16.ofNat (c.hdr.payloadLength % 65536).toNat)   -- :185
      (.goto (.writeFrame { c with pc := .writeMessageLen, left := store16 env.host messageLen2 }), l, w)
    else if c.scenario = 3 then
      let l0 := hton32 env.host (UInt32.ofNat (c.hdr.payloadLength / 4294967296 % 4294967296).toNat)   -- :189
      let l1 := hton32 env.host (UInt32.ofNat (c.hdr.payloadLength % 4294967296).toNat)       -- :190
      (.goto (.writeFrame { c with pc := .writeMessageLen, left := store32 env.host l0 ++ store32 env.host l1 }), l, w)
    else (.goto (.writeFrame { c with pc := .onLenWritten }), l, w)                           -- :194
  | .writeMessageLen =>                                                                       -- :197-199
    writeStep c.left l w (fun g => .writeFrame { c with left := g }) (.goto (.writeFrame { c with pc := .onLenWritten, left := [] }))
  | .onLenWritten =>                                                                          -- :201-207
    if c.hdr.hasMask then (.goto (.writeFrame { c with pc := .writeMask, left := c.hdr.mask.bytes }), l, w)
    else (.finish, l, w)
  | .writeMask =>                                                                             -- :209-211
    writeStep c.left l w (fun g => .writeFrame { c with left := g }) .finish

/-- `sendFrameHeaderAsync` (AsyncWebSocket.cpp:462-479): fills the header, draws the mask, constructs the coroutine. -/
def sendFrameHeaderAsync (env : Env) (h : Header) (fin : Bool) (opcode : UInt8) (messageSize : Int) (w : World) :
    Header × Co × World :=
  let h := { h with
    fin := fin, rsv1 := false, rsv2 := false, rsv3 := false, opcode := opcode,
    hasMask := w.st.sock.config.maskOutgoingMessages, payloadLength := messageSize }          -- :466-472
  if h.hasMask then
    let p := w.st.sock.rngPos
    let h := { h with mask := ⟨env.rng p, env.rng (p + 1), env.rng (p + 2), env.rng (p + 3)⟩ }  -- :475
    (h, newWriteFrame env h, w.setSock { w.st.sock with rngPos := p + 4 })
  else (h, newWriteFrame env h, w)

/-- One function of `SendFrameCoroutine` (AsyncWebSocket.cpp:510-533). -/
def sendFrameStep (env : Env) (c : SendFrameCo) (l : Local) (w : World) : Act × Local × World :=
  match c.pc with
  | .act =>                                                                                   -- :510-516
    match c.message with
    | some (b :: bs) =>
      match sendFrameHeaderAsync env c.hdr c.fin c.opcode (b :: bs).length w with
      | (h, co, w) => (.call [co] (.sendFrame { c with pc := .prepareWriteMessage, hdr := h }), l, w)
    | _ =>
      match sendFrameHeaderAsync env c.hdr c.fin c.opcode 0 w with
      | (h, co, w) => (.call [co] (.sendFrame { c with pc := .done, hdr := h }), l, w)
  | .prepareWriteMessage =>                                                                   -- :518-529
    let msg := c.message.getD []
    if c.hdr.hasMask then
      if msg.length ≥ 2 ^ 31 then (.ub .indexOverflow, l, w)                                  -- :521
      else (.goto (.sendFrame { c with pc := .writeMessage, left := xorMask c.hdr.mask 0 msg }), l, w)
    else (.goto (.sendFrame { c with pc := .writeMessage, left := msg }), l, w)
  | .writeMessage =>                                                                          -- :531-533
    writeStep c.left l w (fun g => .sendFrame { c with left := g }) .finish
  | .done => (.finish, l, w)

/-- `sendOneFrameAsync` (AsyncWebSocket.cpp:481-539). -/
def sendOneFrameAsync (fin : Bool) (opcode : UInt8) (message : Option (List UInt8)) : Co := .sendFrame { fin, opcode, message }

/-- The public send methods (AsyncWebSocket.cpp:481, 541-573). -/
def sendAsync (env : Env) : SendCall → Co
  | .oneFrame fin opcode message => sendOneFrameAsync fin opcode message
  | .close code message =>
    sendOneFrameAsync true OPCODE_CLOSE (some (store16 env.host (hton16 env.host code) ++ message.getD []))   -- :543-551
  | .closeEmpty => sendOneFrameAsync true OPCODE_CLOSE none                                   -- :555-557
  | .ping message => sendOneFrameAsync true OPCODE_PING message                               -- :559-561
  | .pong message => sendOneFrameAsync true OPCODE_PONG message                               -- :563-565
  | .text message => sendOneFrameAsync true OPCODE_TEXT message                               -- :567-569
  | .binary message => sendOneFrameAsync true OPCODE_BINARY message                           -- :571-573

/-! ## Callbacks -/

/-- Calling a method of listener `to`: recorded; the returned coroutine will perform the operations of `env.react`.
Simplification: operations that user code performs directly in the callback are performed in the first steps of the returned
coroutine. AsyncWebSocket.cpp:272, 301, 312, 405, 412, 419. -/
def callback (env : Env) (ev : Event) (ptr : Option Nat) (data : List UInt8) (w : World) : Co × World :=
  let tr := w.st.sock.trace ++ [ev]
  (.user { ops := env.react tr, ptr := ptr, data := data, self := some ev.to },
   { w.setSock { w.st.sock with trace := tr } with
     calls := w.calls ++ [⟨ev, ptr, ptr.bind fun id => w.heap.lookup id⟩] })

/-- User code: the coroutine returned by a callback, or any other coroutine of the application that uses the socket.
`stopListening` does not exist in the async API (no effect). -/
def userStep (env : Env) (c : UserCo) (l : Local) (w : World) : Act × Local × World :=
  match c.ops with
  | [] => (.finish, l, w)
  | .stopListening :: ops => (.goto (.user { c with ops := ops, catching := false }), l, w)
  | .setListener l' :: ops =>                                                                 -- AsyncWebSocket.hpp setListener
    (.goto (.user { c with ops := ops, catching := false }), l, w.setSock { w.st.sock with listener := l' })
  | .setConfig cfg :: ops =>                                                                  -- AsyncWebSocket.cpp:54-56
    (.goto (.user { c with ops := ops, catching := false }), l, w.setSock { w.st.sock with config := cfg })
  | .send call catches :: ops => (.call [sendAsync env call] (.user { c with ops := ops, catching := catches }), l, w)
  | .throw :: _ => (.error (.thrown .user), l, w)

/-! ## ReadPayloadCoroutine -/

/-- `readPayloadAsync` (AsyncWebSocket.cpp:219-333): the check (:328-330) and the constructor (:236-252). -/
def readPayloadAsync (l : Local) (short : Bool) (w : World) : Except AErr (Co × World) :=
  if short ∧ l.hdr.payloadLength > 125 then .error (.thrown .controlTooLong)                  -- :328-330
  else if w.st.sock.config.readBufferSize < 0 then .error (.thrown .badAlloc)                 -- :246
  else
    match w.alloc [] with
    | (buf, w) => .ok (.readPayload {
        listener := w.st.sock.listener, short := short, cap := w.st.sock.config.readBufferSize.toNat, buf := buf }, w)

/-- One function of `ReadPayloadCoroutine` (AsyncWebSocket.cpp:258-324). -/
def readPayloadStep (env : Env) (c : ReadPayloadCo) (l : Local) (w : World) : Act × Local × World :=
  match c.pc with
  | .act =>                                                                                   -- :258-277
    if c.progress < l.hdr.payloadLength then
      let desiredSize := w.st.sock.config.readBufferSize                                      -- :262-265
      let desiredSize := if desiredSize > l.hdr.payloadLength - c.progress then l.hdr.payloadLength - c.progress else desiredSize
      (.goto (.readPayload { c with pc := .readData, want := desiredSize, got := [] }), l, w)
    else
      match c.listener with
      | some to =>
        if !c.short ∧ l.hdr.fin then                                                          -- :271-273
          match callback env (.readMessage to l.hdr.opcode []) none [] w with
          | (u, w) => (.call [u] (.readPayload { c with pc := .done }), l, w)
        else (.finish, l, w)
      | none => (.finish, l, w)
  | .readData =>                                                                              -- :279-281
    if c.want ≤ 0 then (.goto (.readPayload { c with pc := .onDataRead }), l, w)
    else
      match w.st.inp.sched with
      | [] => (.blocked, l, w)
      | o :: sched =>
        match lowRead o w.st.inp.bytes c.want.toNat with
        | (.data bs, bytes) =>
          if bs.length > c.cap then (.ub .bufferOverflow, l, w.setInp ⟨bytes, sched⟩)
          else (.goto (.readPayload { c with pc := .onDataRead, got := bs }), l, (w.setInp ⟨bytes, sched⟩).store c.buf bs)
        | (.retry, bytes) => (.goto (.readPayload c), l, w.setInp ⟨bytes, sched⟩)
        | (.zero, bytes) => (.goto (.readPayload { c with pc := .onDataRead }), l, w.setInp ⟨bytes, sched⟩)
        | (.broken, bytes) => (.error .io, l, w.setInp ⟨bytes, sched⟩)
  | .onDataRead =>                                                                            -- :283-324
    if c.got ≠ [] then
      let c' := { c with pc := .act, progress := c.progress + c.got.length }
      if l.hdr.hasMask then                                                                   -- :289-303
        let decoded := xorMask l.hdr.mask c.progress.toNat c.got
        if c.short then (.goto (.readPayload c'), { l with short := l.short ++ decoded }, w)
        else
          match c.listener with
          | some to =>
            match w.alloc decoded with                                                        -- :290
            | (id, w1) =>
              match callback env (.readMessage to l.hdr.opcode decoded) (some id) decoded w1 with   -- :302
              | (u, w2) => (.call [u] (.readPayload c'), l, w2.free id)                       -- `decoded` goes out of scope
          | none => (.goto (.readPayload c'), l, w)
      else                                                                                    -- :305-316
        if c.short then (.goto (.readPayload c'), { l with short := l.short ++ c.got }, w)
        else
          match c.listener with
          | some to =>
            match callback env (.readMessage to l.hdr.opcode c.got) (some c.buf) c.got w with  -- :313
            | (u, w) => (.call [u] (.readPayload c'), l, w)
          | none => (.goto (.readPayload c'), l, w)
    else (.error (.thrown .connectionState), l, w)                                            -- :322
  | .done => (.finish, l, w)

/-! ## HandleFrameCoroutine -/

/-- Starting `readPayloadAsync` from `HandleFrameCoroutine::act`.
AsyncWebSocket.cpp:359, 363, 370, 377, 381, 385 with the checks of :249-251 and :327-331. -/
def startPayload (c : HandleFrameCo) (short : Bool) (pc : HandleFramePc) (l : Local) (w : World) : Act × Local × World :=
  match readPayloadAsync l short w with
  | .ok (co, w') => (.call [co] (.handleFrame { c with pc := pc }), l, w')
  | .error e => (.error e, l, w)

/-- `checkForContinuation` (AsyncWebSocket.cpp:58-68). -/
def checkForContinuationA (h : Header) (s : Sock) : Bool × Sock :=
  if s.lastOpcode = OPCODE_TEXT.toNat ∨ s.lastOpcode = OPCODE_BINARY.toNat then (false, s)
  else if h.fin then (true, { s with lastOpcode := -1 })
  else (true, { s with lastOpcode := h.opcode.toNat })

/-- `HandleFrameCoroutine::act` for a text or binary frame (AsyncWebSocket.cpp:361-373). -/
def startData (c : HandleFrameCo) (l : Local) (w : World) : Act × Local × World :=
  match checkForContinuationA l.hdr w.st.sock with
  | (true, s) => startPayload c false .done l (w.setSock s)
  | (false, s) => (.error (.thrown .continuationExpected), l, w.setSock s)

/-- The callback of a control frame (AsyncWebSocket.cpp:394-422): to the listener captured at construction. -/
def controlCallback (env : Env) (c : HandleFrameCo) (mk : Nat → Event) (l : Local) (w : World) : Act × Local × World :=
  match c.listener with
  | some to =>
    match callback env (mk to) none [] w with
    | (u, w) => (.call [u] (.handleFrame { c with pc := .done }), l, w)
  | none => (.finish, l, w)

/-- One function of `HandleFrameCoroutine` (AsyncWebSocket.cpp:352-422). -/
def handleFrameStep (env : Env) (c : HandleFrameCo) (l : Local) (w : World) : Act × Local × World :=
  match c.pc with
  | .act =>                                                                                   -- :352-392
    if l.hdr.opcode = OPCODE_CONTINUATION then                                                -- :355-359
      if w.st.sock.lastOpcode < 0 then (.error (.thrown .continuationState), l, w)
      else startPayload c false .done l w
    else if l.hdr.opcode = OPCODE_TEXT then startData c l w                                   -- :361-366
    else if l.hdr.opcode = OPCODE_BINARY then startData c l w                                 -- :368-373
    else if l.hdr.opcode = OPCODE_CLOSE then startPayload c true .onClose { l with short := [] } w   -- :375-377
    else if l.hdr.opcode = OPCODE_PING then startPayload c true .onPing { l with short := [] } w     -- :379-381
    else if l.hdr.opcode = OPCODE_PONG then startPayload c true .onPong { l with short := [] } w     -- :383-385
    else (.error (.thrown .unknownFrame), l, w)                                               -- :387-389
  | .onClose => controlCallback env c (fun to => .onClose to (closeArgs env l.short).1 (closeArgs env l.short).2) l w   -- :394-408
  | .onPing => controlCallback env c (fun to => .onPing to l.short) l w                       -- :410-415
  | .onPong => controlCallback env c (fun to => .onPong to l.short) l w                       -- :417-422
  | .done => (.finish, l, w)

/-! ## ListenCoroutine, stacks -/

/-- `ListenCoroutine::act` (AsyncWebSocket.cpp:445-450): the `HandleFrameCoroutine` is constructed before the header is read. -/
def listenStep (l : Local) (w : World) : Act × Local × World :=
  if l.hdr.opcode ≠ OPCODE_CLOSE then
    (.call [.readFrame {}, .handleFrame { listener := w.st.sock.listener }] .listen, l, w)
  else (.finish, l, w)

/-- One function call of a coroutine.
Which of the functions of AsyncWebSocket.cpp:93-143, 179-211, 258-323, 352-422, 445-450, 510-533 is called next. -/
def coStep (env : Env) : Co → Local → World → Act × Local × World
  | .listen => listenStep
  | .readFrame c => readFrameStep env c
  | .handleFrame c => handleFrameStep env c
  | .readPayload c => readPayloadStep env c
  | .user c => userStep env c
  | .sendFrame c => sendFrameStep env c
  | .writeFrame c => writeFrameStep env c

/-- Destructor: `~ReadPayloadCoroutine` frees its buffer (AsyncWebSocket.cpp:254-256). `~SendFrameCoroutine` (:504-508) frees
a buffer that nobody else sees: not modelled. -/
def destroy : Co → World → World
  | .readPayload c, w => w.free c.buf
  | _, w => w

/-- A stack of coroutines (top first) with the shared objects of its `listenAsync`.
External (oatpp core: the executor keeps the chain of callers); `m_frameHeader` (AsyncWebSocket.cpp:435, 440) and `m_shortMessageStream` (:343) are the shared objects. -/
structure Task where
  stack : List Co
  loc : Local := {}
deriving DecidableEq, Repr

/-- State of a task after a step.
External (oatpp core: state of a coroutine in the executor). -/
inductive Outcome where
  | run (t : Task)
  | finished
  | failed (e : AErr)
  | blocked
  | ub (u : UB)
deriving DecidableEq, Repr

/-- Propagation of an error to the coroutines below (`handleError`).
External (oatpp core), with `ListenCoroutine::handleError` (AsyncWebSocket.cpp:452-454), which passes the error on, and the destructors :254-256, 504-508. -/
def unwind (e : AErr) : List Co → Local → World → Outcome × World
  | [], _, w => (.failed e, w)
  | .user c :: rest, l, w =>
    if c.catching then (.run ⟨.user { c with catching := false } :: rest, l⟩, w) else unwind e rest l w
  | c :: rest, l, w => unwind e rest l (destroy c w)

/-- One step of a task.
External (oatpp core: the processor calls the current function of the top coroutine and acts on the result); the functions are in AsyncWebSocket.cpp. -/
def step (env : Env) (t : Task) (w : World) : Outcome × World :=
  match t.stack with
  | [] => (.finished, w)
  | c :: rest =>
    match coStep env c t.loc w with
    | (.goto c', l, w') => (.run ⟨c' :: rest, l⟩, w')
    | (.call cs c', l, w') => (.run ⟨cs ++ c' :: rest, l⟩, w')
    | (.finish, l, w') =>
      match rest with
      | [] => (.finished, destroy c w')
      | _ :: _ => (.run ⟨rest, l⟩, destroy c w')
    | (.error e, l, w') => unwind e rest l (destroy c w')
    | (.blocked, _, w') => (.blocked, w')
    | (.ub u, _, w') => (.ub u, w')

/-- `listenAsync` (AsyncWebSocket.cpp:430-460): `m_frameHeader->opcode = -1` (:442) in a new header whose other members are
uninitialised, except the mask (zeros). -/
def listenTask (h : Header) : Task := { stack := [.listen], loc := { hdr := { h with opcode := 255 } } }

/-- An async send started by itself.
AsyncWebSocket.cpp:481-573, started with `executor->execute` by the user. -/
def sendTask (env : Env) (c : SendCall) : Task := { stack := [sendAsync env c] }

/-- Some other coroutine of the application that uses the socket.
Not from /repo: user code that calls AsyncWebSocket.cpp:462-573. -/
def userTask (ops : List UserOp) : Task := { stack := [.user { ops }] }

/-! ## Several tasks on one socket -/

/-- Tasks and what they share.
Not from /repo: the tasks of an executor (external, oatpp core) that use one AsyncWebSocket (AsyncWebSocket.cpp:37-52). -/
structure Pool where
  tasks : List Outcome
  world : World

/-- The executor lets one running task do one step (a blocked task does not step).
External (oatpp core: `oatpp::async::Executor`). Simplified: a function call of a coroutine is atomic; C75 treats the accesses inside it. -/
inductive Pool.Step (env : Env) : Pool → Pool → Prop
  | mk {ts w i t o w'} : ts[i]? = some (.run t) → step env t w = (o, w') → o ≠ .blocked →
      Pool.Step env ⟨ts, w⟩ ⟨ts.set i o, w'⟩

/-- Any number of steps, in any order.
External (oatpp core: `oatpp::async::Executor`). -/
inductive Pool.Steps (env : Env) : Pool → Pool → Prop
  | refl {p} : Pool.Steps env p p
  | tail {p q r} : Pool.Steps env p q → Pool.Step env q r → Pool.Steps env p r

end Async
end OatWS
