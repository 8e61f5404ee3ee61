import Verif.Model.WebSocket
/-! Receiving with a listener whose callbacks call `iterateFrame` or `listen` of the same socket (WebSocket.hpp:192, 199 are public; a listener that keeps a pointer to the socket can call them).
The functions of `Model/WebSocket` again, with the callback as a parameter. -/

namespace OatWS.Reentrant

/-- What a callback may do after its other operations (`Env.react`). `iterate`: calls `iterateFrame` with a header object of its own (WebSocket.cpp:275-278), and perhaps catches what it throws; `listen`: calls `listen` (WebSocket.cpp:280-296). -/
inductive NestedOp where
  | op (u : UserOp)
  | iterate (catches : Bool)
  | listen

/-- User code. In a callback, first the operations of `env.react`; then, one after the other, what `next` says: it depends on the callbacks up to this one, on how many such operations this callback has done, and on all callbacks made up to now.
Not from /repo: user code in a callback (called at WebSocket.cpp:175, 181, 198, 243, 253, 263). -/
structure Code where
  env : Env
  next : List Event → Nat → List Event → Option NestedOp

/-- The callback, as a parameter of the functions below. WebSocket.cpp:175, 181, 198, 243, 253, 263. -/
abbrev Callback := (Nat → Event) → P St Unit

/-- The loop of `readPayload` (WebSocket.cpp:156-194), as `readPayloadLoop`, but the callback may change the input side. `fuel` is the number of low-level reads that can still return (each iteration needs one). -/
def payloadLoopWith (call : Callback) (h : Header) (short : Bool) (cap : Nat) : Nat → St → Int → List UInt8 → Exit (List UInt8) × St
  | 0, st, progress, acc => if progress < h.payloadLength then (.block, st) else (.ret acc, st)
  | fuel + 1, st, progress, acc =>
    if progress < h.payloadLength then                                                     -- :156
      match st.inp.sched with
      | [] => (.block, st)
      | o :: sched' =>
        let desiredSize :=
          if st.sock.config.readBufferSize > h.payloadLength - progress
          then h.payloadLength - progress else st.sock.config.readBufferSize               -- :158-161
        if desiredSize < 0 then (.ub .negativeRead, ⟨st.sock, ⟨st.inp.bytes, sched'⟩⟩)
        else
          match lowRead o st.inp.bytes desiredSize.toNat with                              -- :163
          | (.data bs, bytes') =>
            if bs.length > cap then (.ub .bufferOverflow, ⟨st.sock, ⟨bytes', sched'⟩⟩)
            else
              let chunk := if h.hasMask then xorMask h.mask progress.toNat bs else bs      -- :167-171
              if short then
                payloadLoopWith call h short cap fuel ⟨st.sock, ⟨bytes', sched'⟩⟩ (progress + bs.length) (acc ++ chunk) -- :173, 179
              else
                match call (fun l => .readMessage l h.opcode chunk) ⟨st.sock, ⟨bytes', sched'⟩⟩ with -- :175, 181
                | (.ret _, st') => payloadLoopWith call h short cap fuel st' (progress + bs.length) acc
                | (.throw e, st') => (.throw e, st')
                | (.block, st') => (.block, st')
                | (.ub u, st') => (.ub u, st')
          | (.retry, bytes') => payloadLoopWith call h short cap fuel ⟨st.sock, ⟨bytes', sched'⟩⟩ progress acc -- :188-190
          | (.zero, bytes') => (.throw .connectionState, ⟨st.sock, ⟨bytes', sched'⟩⟩)      -- :191
          | (.broken, bytes') => (.throw .connectionState, ⟨st.sock, ⟨bytes', sched'⟩⟩)
    else (.ret acc, st)

/-- Allocation of the buffer and the loop (WebSocket.cpp:153-194). -/
def runPayloadLoopWith (call : Callback) (h : Header) (short : Bool) : P St (List UInt8) := fun st =>
  payloadLoopWith call h short st.sock.config.readBufferSize.toNat st.inp.sched.length st 0 []

/-- The end-of-message callback (WebSocket.cpp:196-199). -/
def endMarkerWith (call : Callback) (h : Header) (short : Bool) : P St Unit :=
  if !short ∧ h.fin then call (fun l => .readMessage l h.opcode []) else pure ()

/-- `WebSocket::readPayload` (WebSocket.cpp:147-201). -/
def readPayloadWith (call : Callback) (h : Header) (short : Bool) : P St (List UInt8) := do
  if short ∧ h.payloadLength > 125 then P.fail .controlTooLong                             -- :149-151
  else
    let st ← P.get
    if st.sock.config.readBufferSize < 0 then P.fail .badAlloc                             -- :153
    else
      let acc ← runPayloadLoopWith call h short                                            -- :153-194
      endMarkerWith call h short                                                           -- :196-199
      pure acc

/-- `WebSocket::handleFrame` (WebSocket.cpp:203-273). -/
def handleFrameWith (env : Env) (call : Callback) (h : Header) : P St Unit := do
  if h.opcode = OPCODE_CONTINUATION then                                     -- :206
    let st ← P.get
    if st.sock.lastOpcode < 0 then P.fail .continuationState                 -- :207-209
    else
      let _ ← readPayloadWith call h false                                   -- :210
  else if h.opcode = OPCODE_TEXT then                                        -- :213
    if ← liftSock (checkForContinuation h) then
      let _ ← readPayloadWith call h false
    else P.fail .continuationExpected
  else if h.opcode = OPCODE_BINARY then                                      -- :221
    if ← liftSock (checkForContinuation h) then
      let _ ← readPayloadWith call h false
    else P.fail .continuationExpected
  else if h.opcode = OPCODE_CLOSE then                                       -- :229
    let data ← readPayloadWith call h true
    let (code, message) := closeArgs env data
    call (fun l => .onClose l code message)                                  -- :243
  else if h.opcode = OPCODE_PING then                                        -- :248
    let data ← readPayloadWith call h true
    call (fun l => .onPing l data)                                           -- :253
  else if h.opcode = OPCODE_PONG then                                        -- :258
    let data ← readPayloadWith call h true
    call (fun l => .onPong l data)                                           -- :263
  else P.fail .unknownFrame                                                  -- :268-269

/-- `WebSocket::iterateFrame` (WebSocket.cpp:275-278). -/
def iterateWith (env : Env) (call : Callback) (h : Header) : P St Header := do
  let h ← readFrameHeader env h
  handleFrameWith env call h
  pure h

/-- The loop of `WebSocket::listen` (WebSocket.cpp:286-289), as `listenLoop`. -/
def listenLoopWith (env : Env) (call : Callback) : Nat → Header → P St Unit
  | 0, _ => fun st => (.block, st)
  | fuel + 1, h => fun st =>
    match iterateWith env call h st with                                     -- :287-288
    | (.ret h', st') =>
      if h'.opcode ≠ OPCODE_CLOSE ∧ st'.sock.listening then listenLoopWith env call fuel h' st'   -- :289
      else (.ret (), st')
    | (.throw e, st') => (.throw e, st')
    | (.block, st') => (.block, st')
    | (.ub u, st') => (.ub u, st')

/-- `WebSocket::listen` (WebSocket.cpp:280-296). -/
def listenWith (env : Env) (call : Callback) (h : Header) : P St Unit := fun st =>
  let st := { st with sock := { st.sock with listening := true } }           -- :282
  match listenLoopWith env call (st.inp.sched.length + 1) h st with
  | (.throw _, st') => (.ret (), st')                                        -- :290-294
  | r => r

/-- One more operation of user code in a callback. WebSocket.cpp:275-296. -/
def nestedWith (env : Env) (call : Callback) : NestedOp → P St Unit
  | .op u => liftSock (runUserOp env u)
  | .iterate catches => fun st =>
    match iterateWith env call default st with
    | (.ret _, st') => (.ret (), st')
    | (.throw e, st') => if catches then (.ret (), st') else (.throw e, st')
    | (.block, st') => (.block, st')
    | (.ub u, st') => (.ub u, st')
  | .listen => listenWith env call default

/-- The operations of user code after those of `env.react`, in the callback that was the last of `tr`; `i` have been done. At most `steps` more: user code that goes on for ever does not return.
Not from /repo: user code in a callback. -/
def moreWith (c : Code) (call : Callback) (tr : List Event) : Nat → Nat → P St Unit
  | 0, i => fun st => if (c.next tr i st.sock.trace).isNone then (.ret (), st) else (.block, st)
  | steps + 1, i => fun st =>
    match c.next tr i st.sock.trace with
    | none => (.ret (), st)
    | some op =>
      match nestedWith c.env call op st with
      | (.ret _, st') => moreWith c call tr steps (i + 1) st'
      | r => r

/-- `if(m_listener) m_listener->callback(...)` (WebSocket.cpp:174-175, 180-181, 197-198, 233-243, 252-253, 262-263), with at most `depth` callbacks inside each other and `steps` further operations in each. Simplified: a run that needs more is cut off there, as if
it never returned; the depth is that of the C++ stack, whose size is not modelled. -/
def callback (c : Code) (steps : Nat) : Nat → Callback
  | 0, mk => fun st =>
    match st.sock.listener with
    | none => (.ret (), st)
    | some l =>
      match liftSock (callListener c.env mk) st with
      | (.ret _, st') => moreWith c (fun _ st => (.block, st)) (st.sock.trace ++ [mk l]) 0 0 st'
      | r => r
  | depth + 1, mk => fun st =>
    match st.sock.listener with
    | none => (.ret (), st)
    | some l =>
      match liftSock (callListener c.env mk) st with
      | (.ret _, st') => moreWith c (callback c steps depth) (st.sock.trace ++ [mk l]) steps 0 st'
      | r => r

/-- `iterateFrame` with such a listener (WebSocket.cpp:275-278). -/
def iterateFrame (c : Code) (steps depth : Nat) (h : Header) : P St Header := iterateWith c.env (callback c steps depth) h

/-- `listen` with such a listener (WebSocket.cpp:280-296). -/
def listen (c : Code) (steps depth : Nat) (h : Header) : P St Unit := listenWith c.env (callback c steps depth) h

end OatWS.Reentrant
