import Verif.Model.Frame
import Verif.Model.Stream
/-!
# The blocking WebSocket: `WebSocket.hpp`, `WebSocket.cpp`, `Config.hpp`, `Utils.cpp:generateMaskForFrame`
-/

namespace OatWS

/-- `Config` (Config.hpp:35-52). `readBufferSize` is a `v_int32`. -/
structure Config where
  maskOutgoingMessages : Bool := false
  readBufferSize : Int := 1024
deriving DecidableEq, Repr

/-- What a call throws; one constructor per throw site. -/
inductive Err where
  | headerRead          -- WebSocket.cpp:76
  | len2Read            -- :88
  | len3Read            -- :95
  | maskRead            -- :103
  | headerWrite         -- :119
  | len2Write           -- :126
  | len3Write           -- :134
  | maskWrite           -- :141
  | controlTooLong      -- :150
  | connectionState     -- :191
  | continuationState   -- :208
  | continuationExpected -- :217, :225
  | unknownFrame        -- :269
  | sendFailed          -- :353, :361, :368, :375, :382, :389
  | badAlloc            -- std::bad_array_new_length from `new v_char8[...]`, :153
  | user                -- thrown by the listener
deriving DecidableEq, Repr

/-- Undefined behaviour, kept as a distinct outcome. -/
inductive UB where
  | bufferOverflow   -- more bytes stored than allocated (WebSocket.cpp:153, 163)
  | negativeRead     -- read() with a negative count, converted to a huge size_t
  | indexOverflow    -- overflow of the `v_int32 i` of WebSocket.cpp:325
deriving DecidableEq, Repr

/-- How a C++ call ends.
Not from /repo: results of C++ functions (those of WebSocket.cpp). -/
inductive Exit (α : Type) where
  | ret (a : α)
  | throw (e : Err)
  | block              -- never returns: waits for ever inside a transport call
  | ub (u : UB)
deriving DecidableEq, Repr

/-- A callback made to the listener number `l`. `readMessage`'s `size` is `data.length`; `(nullptr, 0)` is `data = []`.
WebSocket.hpp:63, 70, 78, 89; called at WebSocket.cpp:175, 181, 198, 243, 253, 263. -/
inductive Event where
  | readMessage (l : Nat) (opcode : UInt8) (data : List UInt8)
  | onPing (l : Nat) (message : List UInt8)
  | onPong (l : Nat) (message : List UInt8)
  | onClose (l : Nat) (code : UInt16) (message : List UInt8)
deriving DecidableEq, Repr

/-- The listener a callback was made to.
`m_listener` at the call (WebSocket.cpp:175, 181, 198, 243, 253, 263). -/
def Event.to : Event → Nat
  | .readMessage l _ _ => l
  | .onPing l _ => l
  | .onPong l _ => l
  | .onClose l _ _ => l

/-- The public send methods (WebSocket.hpp:231-273). A message is an `oatpp::String`: null (`none`) or bytes. -/
inductive SendCall where
  | oneFrame (fin : Bool) (opcode : UInt8) (message : Option (List UInt8))
  | close (code : UInt16) (message : Option (List UInt8))
  | closeEmpty
  | ping (message : Option (List UInt8))
  | pong (message : Option (List UInt8))
  | text (message : Option (List UInt8))
  | binary (message : Option (List UInt8))
deriving DecidableEq, Repr

/-- What user code may do with the socket inside a callback. `catches`: the user catches an exception of the send.
What it may call: WebSocket.cpp:55-57, 298-391, WebSocket.hpp:175, 204. Simplified: user code is a list of such operations, chosen by `Env.react`. -/
inductive UserOp where
  | stopListening
  | setListener (l : Option Nat)
  | setConfig (c : Config)
  | send (call : SendCall) (catches : Bool)
  | throw
deriving DecidableEq, Repr

/-- The parameters of a run: host byte order, the bytes `oatpp::utils::Random` will produce, and the listeners'
behaviour: what is done in a callback is an arbitrary function of all callbacks so far (the current one last).
Not from /repo: what the code depends on besides the connection (WebSocket.cpp:30-34, Utils.cpp:32, WebSocket.hpp:45-91). -/
structure Env where
  host : Endian
  rng : Nat → UInt8
  react : List Event → List UserOp

/-- State of a socket without its input side: the members of `WebSocket` (WebSocket.hpp:107-111), the output side of
`m_connection`, the position in the random source, and the history of callbacks. -/
structure Sock where
  config : Config
  listener : Option Nat
  lastOpcode : Int
  listening : Bool
  out : OutStream
  rngPos : Nat
  trace : List Event
deriving DecidableEq, Repr

/-- Complete state: socket and input side of the connection. WebSocket.hpp:107-111. -/
structure St where
  sock : Sock
  inp : InStream
deriving DecidableEq, Repr

/-- A program on state `σ`: how it ends and the state it leaves.
Not from /repo: C++ functions as functions of the state. -/
def P (σ α : Type) := σ → Exit α × σ

namespace P
variable {σ α β : Type}

/-- Not from /repo: `return a`. -/
def pure (a : α) : P σ α := fun s => (.ret a, s)

/-- Sequencing: exceptions, blocking and UB end the sequence, keeping the state reached.
Not from /repo: C++ sequencing. -/
def bind (m : P σ α) (f : α → P σ β) : P σ β := fun s =>
  match m s with
  | (.ret a, s') => f a s'
  | (.throw e, s') => (.throw e, s')
  | (.block, s') => (.block, s')
  | (.ub u, s') => (.ub u, s')

/-- Not from /repo: notation for C++ sequencing. -/
instance : Monad (P σ) where
  pure := P.pure
  bind := P.bind

/-- `throw std::runtime_error(...)`.
WebSocket.cpp:76, 88, 95, 103, 119, 126, 134, 141, 150, 191, 208, 217, 225, 269, 353, 361, 368, 375, 382, 389. -/
def fail (e : Err) : P σ α := fun s => (.throw e, s)

/-- Undefined behaviour is reached (e.g. the store at WebSocket.cpp:163 past the end of the buffer, the index at :326 past 2^31). -/
def undef (u : UB) : P σ α := fun s => (.ub u, s)

/-- Not from /repo: reading the state. -/
def get : P σ σ := fun s => (.ret s, s)

/-- Not from /repo: changing the state. -/
def modify (f : σ → σ) : P σ Unit := fun s => (.ret (), f s)

end P

/-- A program on the socket, run in the complete state: it cannot touch the input side.
Not from /repo: embedding. -/
def liftSock {α} (m : P Sock α) : P St α := fun st =>
  match m st.sock with
  | (r, s') => (r, { st with sock := s' })

/-! ## Constructors -/

/-- `WebSocket(connection, config)` (WebSocket.cpp:38-44) over a fresh output side. -/
def Sock.new (config : Config) (out : OutStream) : Sock :=
  { config, listener := none, lastOpcode := -1, listening := false, out, rngPos := 0, trace := [] }

/-- `WebSocket(connection, maskOutgoingMessages)` (WebSocket.cpp:46-53). -/
def Sock.newMask (maskOutgoingMessages : Bool) (out : OutStream) : Sock :=
  Sock.new { maskOutgoingMessages } out

/-! ## Sending -/

/-- `m_connection.object->writeExactSizeDataSimple(data, size)`; returns the number of bytes written.
WebSocket.cpp:117, 124, 132, 139, 328, 330. -/
def connWriteExact (data : List UInt8) : P Sock Nat := fun s =>
  match writeExact s.out.sched s.out.written data 0 with
  | (.wrote n, out') => (.ret n, { s with out := out' })
  | (.blocked, out') => (.block, { s with out := out' })

/-- `res = writeExactSizeDataSimple(data, size); if(res != size) throw` (WebSocket.cpp:117-120, 124-127, 132-135,
139-142). -/
def writeExpect (data : List UInt8) (size : Nat) (e : Err) : P Sock Unit := do
  let res ← connWriteExact data
  if res ≠ size then P.fail e else pure ()

/-- The extended length (WebSocket.cpp:122-136). `htons(frameHeader.payloadLength)` truncates to 16 bits,
`htonl(payloadLength >> 32)` and `htonl(payloadLength & 0xFFFFFFFF)` to 32 bits. -/
def writeLength (env : Env) (h : Header) (messageLengthScenario : UInt8) : P Sock Unit :=
  if messageLengthScenario = 2 then
    let messageLen2 := hton16 env.host (UInt16.ofNat (h.payloadLength % 65536).toNat)              -- :123
    writeExpect (store16 env.host messageLen2) 2 .len2Write                                        -- :124-127
  else if messageLengthScenario = 3 then
    let l0 := hton32 env.host (UInt32.ofNat (h.payloadLength / 4294967296 % 4294967296).toNat)     -- :130
    let l1 := hton32 env.host (UInt32.ofNat (h.payloadLength % 4294967296).toNat)                  -- :131
    writeExpect (store32 env.host l0 ++ store32 env.host l1) 8 .len3Write                          -- :132-135
  else pure ()

/-- The masking key (WebSocket.cpp:138-143). -/
def writeMask (h : Header) : P Sock Unit :=
  if h.hasMask then writeExpect h.mask.bytes 4 .maskWrite else pure ()

/-- `WebSocket::writeFrameHeader` (WebSocket.cpp:109-145). -/
def writeFrameHeader (env : Env) (h : Header) : P Sock Unit := do
  let bb := hton16 env.host (packHeaderBits h).1                             -- :113-115
  writeExpect (store16 env.host bb) 2 .headerWrite                           -- :117-120
  writeLength env h (packHeaderBits h).2                                     -- :122-136
  writeMask h                                                                -- :138-143

/-- `Utils::generateMaskForFrame` (Utils.cpp:31-33): four bytes of the random source. -/
def generateMaskForFrame (env : Env) (h : Header) : P Sock Header := fun s =>
  (.ret { h with mask := ⟨env.rng s.rngPos, env.rng (s.rngPos + 1), env.rng (s.rngPos + 2), env.rng (s.rngPos + 3)⟩ },
   { s with rngPos := s.rngPos + 4 })

/-- `WebSocket::sendFrameHeader` (WebSocket.cpp:302-316): fills the header and writes it; the filled header is returned
(reference parameter `frameHeader`, whose other contents `h` are arbitrary). -/
def sendFrameHeader (env : Env) (h : Header) (fin : Bool) (opcode : UInt8) (messageSize : Int) : P Sock Header := do
  let s ← P.get
  let h := { h with
    fin := fin, rsv1 := false, rsv2 := false, rsv3 := false, opcode := opcode,
    hasMask := s.config.maskOutgoingMessages, payloadLength := messageSize }        -- :303-309
  let h ← if h.hasMask then generateMaskForFrame env h else pure h                  -- :311-313
  writeFrameHeader env h                                                            -- :315
  pure h

/-- The xor loop `out[i] = data[i] ^ mask[(i + offset) % 4]` (WebSocket.cpp:169-171 with `offset = progress`,
:325-327 with `offset = 0`). -/
def xorMask (m : Mask) : Nat → List UInt8 → List UInt8
  | _, [] => []
  | offset, b :: bs => (b ^^^ m.at offset) :: xorMask m (offset + 1) bs

/-- `WebSocket::sendOneFrame` (WebSocket.cpp:318-339). A new `Frame::Header` has zeros in `mask` (Frame.hpp:112); its
other members are uninitialised but all overwritten before use: `default`. The loop index is a `v_int32` compared with a
`size_t`: with 2^31 bytes or more it overflows, which is undefined behaviour. -/
def sendOneFrame (env : Env) (fin : Bool) (opcode : UInt8) (message : Option (List UInt8)) : P Sock Bool := do
  match message with
  | some (b :: bs) =>                                                              -- :320
    let msg := b :: bs
    let h ← sendFrameHeader env default fin opcode msg.length                      -- :321
    if h.hasMask then
      if msg.length ≥ 2 ^ 31 then P.undef .indexOverflow                           -- :325
      else
        let res ← connWriteExact (xorMask h.mask 0 msg)                            -- :328
        pure (res = msg.length)                                                    -- :332-338
    else
      let res ← connWriteExact msg                                                 -- :330
      pure (res = msg.length)
  | _ =>
    let _ ← sendFrameHeader env default fin opcode 0                               -- :336
    pure true

/-- `WebSocket::stopListening` (WebSocket.cpp:298-300). -/
def stopListening : P Sock Unit := P.modify fun s => { s with listening := false }

/-- The common shape of the send wrappers (WebSocket.cpp:351-354, 359-362, 366-369, 373-376, 380-383, 387-390). -/
def sendOrStop (env : Env) (opcode : UInt8) (message : Option (List UInt8)) : P Sock Unit := do
  let ok ← sendOneFrame env true opcode message
  if ok then pure ()
  else
    stopListening
    P.fail .sendFailed

/-- `WebSocket::sendClose(code, message)` (WebSocket.cpp:341-356). -/
def sendClose (env : Env) (code : UInt16) (message : Option (List UInt8)) : P Sock Unit :=
  let code := hton16 env.host code                                   -- :343
  let buffer := store16 env.host code ++ message.getD []             -- :345-349
  sendOrStop env OPCODE_CLOSE (some buffer)                          -- :351

/-- `WebSocket::sendClose()` (WebSocket.cpp:358-363). -/
def sendCloseEmpty (env : Env) : P Sock Unit := sendOrStop env OPCODE_CLOSE none

/-- `WebSocket::sendPing` (WebSocket.cpp:365-370). -/
def sendPing (env : Env) (message : Option (List UInt8)) : P Sock Unit := sendOrStop env OPCODE_PING message

/-- `WebSocket::sendPong` (WebSocket.cpp:372-377). -/
def sendPong (env : Env) (message : Option (List UInt8)) : P Sock Unit := sendOrStop env OPCODE_PONG message

/-- `WebSocket::sendOneFrameText` (WebSocket.cpp:379-384). -/
def sendOneFrameText (env : Env) (message : Option (List UInt8)) : P Sock Unit := sendOrStop env OPCODE_TEXT message

/-- `WebSocket::sendOneFrameBinary` (WebSocket.cpp:386-391). -/
def sendOneFrameBinary (env : Env) (message : Option (List UInt8)) : P Sock Unit := sendOrStop env OPCODE_BINARY message

/-- A call of one of the public send methods; `sendOneFrame`'s result is ignored (as a caller may do).
WebSocket.cpp:318-391. -/
def send (env : Env) : SendCall → P Sock Unit
  | .oneFrame fin opcode message => do let _ ← sendOneFrame env fin opcode message
  | .close code message => sendClose env code message
  | .closeEmpty => sendCloseEmpty env
  | .ping message => sendPing env message
  | .pong message => sendPong env message
  | .text message => sendOneFrameText env message
  | .binary message => sendOneFrameBinary env message

/-! ## Callbacks -/

/-- One operation of user code on the socket: `stopListening`, `setListener` (WebSocket.hpp:175-177), `setConfig`
(WebSocket.cpp:55-57), a send, or throwing an exception. -/
def runUserOp (env : Env) : UserOp → P Sock Unit
  | .stopListening => stopListening
  | .setListener l => P.modify fun s => { s with listener := l }
  | .setConfig c => P.modify fun s => { s with config := c }
  | .send call catches => fun s =>
    match send env call s with
    | (.throw e, s') => if catches then (.ret (), s') else (.throw e, s')
    | r => r
  | .throw => P.fail .user

/-- The operations user code performs in one callback.
Not from /repo: user code in a callback (called at WebSocket.cpp:175, 181, 198, 243, 253, 263). -/
def runUserOps (env : Env) : List UserOp → P Sock Unit
  | [] => pure ()
  | op :: ops => do runUserOp env op; runUserOps env ops

/-- `if(m_listener) m_listener->callback(...)`: records the callback and runs the user's reaction to it.
WebSocket.cpp:174-175, 180-181, 197-198, 233-243, 252-253, 262-263. -/
def callListener (env : Env) (mk : Nat → Event) : P Sock Unit := fun s =>
  match s.listener with
  | none => (.ret (), s)
  | some l =>
    let s := { s with trace := s.trace ++ [mk l] }
    runUserOps env (env.react s.trace) s

/-! ## Receiving -/

/-- `m_connection.object->readExactSizeDataSimple(buf, size)`; returns the bytes read.
WebSocket.cpp:74, 86, 93, 101. -/
def connReadExact (n : Nat) : P St (List UInt8) := fun st =>
  match readExact st.inp.sched st.inp.bytes n [] with
  | (.got bs, inp') => (.ret bs, { st with inp := inp' })
  | (.blocked, inp') => (.block, { st with inp := inp' })

/-- The payload length field read after the two header bytes (WebSocket.cpp:82-98). -/
def readLength (env : Env) (messageLen1 : UInt8) : P St Int := do
  if messageLen1 < 126 then
    pure messageLen1.toNat                                                 -- :83
  else if messageLen1 = 126 then
    match ← connReadExact 2 with                                           -- :86
    | [b0, b1] => pure (hton16 env.host (load16 env.host b0 b1)).toNat     -- :90
    | _ => P.fail .len2Read
  else
    match ← connReadExact 8 with                                           -- :93
    | [b0, b1, b2, b3, b4, b5, b6, b7] =>
      pure (toInt64 ((hton32 env.host (load32 env.host b0 b1 b2 b3)).toNat * 4294967296
        + (hton32 env.host (load32 env.host b4 b5 b6 b7)).toNat))          -- :97
    | _ => P.fail .len3Read

/-- `WebSocket::readFrameHeader` (WebSocket.cpp:71-107): updates the header `h` it is given. -/
def readFrameHeader (env : Env) (h : Header) : P St Header := do
  match ← connReadExact 2 with                                             -- :74
  | [b0, b1] =>
    let (h, messageLen1) := unpackHeaderBits (hton16 env.host (load16 env.host b0 b1)) h   -- :80
    let len ← readLength env messageLen1                                   -- :82-98
    let h := { h with payloadLength := len }
    if h.hasMask then
      match ← connReadExact 4 with                                         -- :101
      | [m0, m1, m2, m3] => pure { h with mask := ⟨m0, m1, m2, m3⟩ }
      | _ => P.fail .maskRead
    else pure h
  | _ => P.fail .headerRead

/-- The loop of `WebSocket::readPayload` (WebSocket.cpp:156-194). `short`: there is a `shortMessageStream`, whose content is
`acc`. `cap`: size of the buffer allocated at :153. The current `m_config.readBufferSize` is read again in every
iteration (:158). Simplification: the `v_int32 i` of :169 cannot overflow as `res` is at most the `v_int32`
readBufferSize, and is not checked. -/
def readPayloadLoop (env : Env) (h : Header) (short : Bool) (cap : Nat) :
    List IoOutcome → List UInt8 → Sock → Int → List UInt8 → Exit (List UInt8) × St
  | sched, bytes, s, progress, acc =>
    if progress < h.payloadLength then                                                     -- :156
      match sched with
      | [] => (.block, ⟨s, ⟨bytes, []⟩⟩)
      | o :: sched' =>
        let desiredSize :=
          if s.config.readBufferSize > h.payloadLength - progress
          then h.payloadLength - progress else s.config.readBufferSize                     -- :158-161
        if desiredSize < 0 then (.ub .negativeRead, ⟨s, ⟨bytes, sched'⟩⟩)
        else
          match lowRead o bytes desiredSize.toNat with                                     -- :163
          | (.data bs, bytes') =>
            if bs.length > cap then (.ub .bufferOverflow, ⟨s, ⟨bytes', sched'⟩⟩)
            else
              let chunk := if h.hasMask then xorMask h.mask progress.toNat bs else bs      -- :167-171
              if short then
                readPayloadLoop env h short cap sched' bytes' s (progress + bs.length) (acc ++ chunk) -- :173, 179
              else
                match callListener env (fun l => .readMessage l h.opcode chunk) s with     -- :175, 181
                | (.ret _, s') => readPayloadLoop env h short cap sched' bytes' s' (progress + bs.length) acc
                | (.throw e, s') => (.throw e, ⟨s', ⟨bytes', sched'⟩⟩)
                | (.block, s') => (.block, ⟨s', ⟨bytes', sched'⟩⟩)
                | (.ub u, s') => (.ub u, ⟨s', ⟨bytes', sched'⟩⟩)
          | (.retry, bytes') => readPayloadLoop env h short cap sched' bytes' s progress acc -- :188-190
          | (.zero, bytes') => (.throw .connectionState, ⟨s, ⟨bytes', sched'⟩⟩)              -- :191
          | (.broken, bytes') => (.throw .connectionState, ⟨s, ⟨bytes', sched'⟩⟩)
    else (.ret acc, ⟨s, ⟨bytes, sched⟩⟩)

/-- Allocation of the buffer and the loop (WebSocket.cpp:153-194). -/
def runPayloadLoop (env : Env) (h : Header) (short : Bool) : P St (List UInt8) := fun st =>
  readPayloadLoop env h short st.sock.config.readBufferSize.toNat st.inp.sched st.inp.bytes st.sock 0 []

/-- The end-of-message callback (WebSocket.cpp:196-199). -/
def endMarker (env : Env) (h : Header) (short : Bool) : P St Unit :=
  if !short ∧ h.fin then liftSock (callListener env fun l => .readMessage l h.opcode []) else pure ()

/-- `WebSocket::readPayload` (WebSocket.cpp:147-201); returns the content of the short message stream. -/
def readPayload (env : Env) (h : Header) (short : Bool) : P St (List UInt8) := do
  if short ∧ h.payloadLength > 125 then P.fail .controlTooLong                             -- :149-151
  else
    let st ← P.get
    if st.sock.config.readBufferSize < 0 then P.fail .badAlloc                             -- :153
    else
      let acc ← runPayloadLoop env h short                                                 -- :153-194
      endMarker env h short                                                                -- :196-199
      pure acc

/-- `WebSocket::checkForContinuation` (WebSocket.cpp:59-69). -/
def checkForContinuation (h : Header) : P Sock Bool := fun s =>
  if s.lastOpcode = OPCODE_TEXT.toNat ∨ s.lastOpcode = OPCODE_BINARY.toNat then (.ret false, s)
  else if h.fin then (.ret true, { s with lastOpcode := -1 })
  else (.ret true, { s with lastOpcode := h.opcode.toNat })

/-- Decoding of a close payload (WebSocket.cpp:234-242). -/
def closeArgs (env : Env) (data : List UInt8) : UInt16 × List UInt8 :=
  match data with
  | b0 :: b1 :: message => (hton16 env.host (load16 env.host b0 b1), message)
  | _ => (0, [])

/-- `WebSocket::handleFrame` (WebSocket.cpp:203-273). -/
def handleFrame (env : Env) (h : Header) : P St Unit := do
  if h.opcode = OPCODE_CONTINUATION then                                     -- :206
    let st ← P.get
    if st.sock.lastOpcode < 0 then P.fail .continuationState                 -- :207-209
    else
      let _ ← readPayload env h false                                        -- :210
  else if h.opcode = OPCODE_TEXT then                                        -- :213
    if ← liftSock (checkForContinuation h) then
      let _ ← readPayload env h false
    else P.fail .continuationExpected
  else if h.opcode = OPCODE_BINARY then                                      -- :221
    if ← liftSock (checkForContinuation h) then
      let _ ← readPayload env h false
    else P.fail .continuationExpected
  else if h.opcode = OPCODE_CLOSE then                                       -- :229
    let data ← readPayload env h true
    let (code, message) := closeArgs env data
    liftSock (callListener env fun l => .onClose l code message)             -- :243
  else if h.opcode = OPCODE_PING then                                        -- :248
    let data ← readPayload env h true
    liftSock (callListener env fun l => .onPing l data)                      -- :253
  else if h.opcode = OPCODE_PONG then                                        -- :258
    let data ← readPayload env h true
    liftSock (callListener env fun l => .onPong l data)                      -- :263
  else P.fail .unknownFrame                                                  -- :268-269

/-- `WebSocket::iterateFrame` (WebSocket.cpp:275-278); `h` is the caller's header object. -/
def iterateFrame (env : Env) (h : Header) : P St Header := do
  let h ← readFrameHeader env h
  handleFrame env h
  pure h

/-- The loop of `WebSocket::listen` (WebSocket.cpp:286-289) before the catch clauses. `fuel` bounds the number of
frames; `listen` gives one more than the number of low-level reads that can still return, and every frame needs at least
one: see `listenLoop_fuel` (the bound is never hit). -/
def listenLoop (env : Env) : Nat → Header → P St Unit
  | 0, _ => fun st => (.block, st)
  | fuel + 1, h => fun st =>
    match iterateFrame env h st with                                         -- :287-288
    | (.ret h', st') =>
      if h'.opcode ≠ OPCODE_CLOSE ∧ st'.sock.listening then listenLoop env fuel h' st'   -- :289
      else (.ret (), st')
    | (.throw e, st') => (.throw e, st')
    | (.block, st') => (.block, st')
    | (.ub u, st') => (.ub u, st')

/-- `WebSocket::listen` without its catch clauses (WebSocket.cpp:282-289); `h` is the uninitialised local
`frameHeader` (:285). -/
def listenBody (env : Env) (h : Header) : P St Unit := fun st =>
  let st := { st with sock := { st.sock with listening := true } }           -- :282
  listenLoop env (st.inp.sched.length + 1) h st

/-- `WebSocket::listen` (WebSocket.cpp:280-296): all exceptions are caught and logged. -/
def listen (env : Env) (h : Header) : P St Unit := fun st =>
  match listenBody env h st with
  | (.throw _, st') => (.ret (), st')                                        -- :290-294
  | r => r

end OatWS
