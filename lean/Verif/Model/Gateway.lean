import Verif.Model.Reentrant
/-! One thread with several sockets, which reads from one of them inside callbacks of another (a gateway: it asks a back end for the answer to a message it is receiving).
The receiving functions of `Model/WebSocket` again, on one of several sockets. -/

namespace OatWS.Gateway
open Reentrant (NestedOp)

/-- The sockets of the thread; all callbacks so far, with the socket; and all operations other than reads that the thread has begun, with the socket.
Not from /repo: several objects of WebSocket (WebSocket.cpp:38-53). -/
structure World where
  socks : Nat → St
  log : List (Nat × Event)
  did : List (Nat × UserOp)

/-- Not from /repo: assignment to one of several objects. -/
def World.put (w : World) (k : Nat) (s : St) : World := { w with socks := fun j => if j = k then s else w.socks j }

/-- A function of the library on socket `k`. Not from /repo: method call on one of several objects. -/
def at' {α : Type} (k : Nat) (m : P St α) : P World α := fun w => ((m (w.socks k)).1, w.put k (m (w.socks k)).2)

/-- User code, in callbacks and outside. It does one operation of a socket after the other, as `next` says: this depends on the callbacks up to the one it runs in (none: outside of callbacks), on how many operations it has done there, and on all callbacks up to now.
`env k`: as in `Model/WebSocket`, for socket `k`; what callbacks do is said by `next` only.
Not from /repo: user code (in callbacks: called at WebSocket.cpp:175, 181, 198, 243, 253, 263). -/
structure Code where
  env : Nat → Env
  next : List (Nat × Event) → Nat → List (Nat × Event) → Option (Nat × NestedOp)

/-- The callback of a socket, as a parameter of the functions below. WebSocket.cpp:175, 181, 198, 243, 253, 263. -/
abbrev Callback := Nat → (Nat → Event) → P World Unit

/-- The loop of `readPayload` (WebSocket.cpp:156-194), as `readPayloadLoop`. `fuel`: the number of low-level reads that can still return. -/
def payloadLoopOn (call : Callback) (k : Nat) (h : Header) (short : Bool) (cap : Nat) : Nat → World → Int → List UInt8 → Exit (List UInt8) × World
  | 0, w, progress, acc => if progress < h.payloadLength then (.block, w) else (.ret acc, w)
  | fuel + 1, w, progress, acc =>
    if progress < h.payloadLength then                                                     -- :156
      match (w.socks k).inp.sched with
      | [] => (.block, w)
      | o :: sched' =>
        let desiredSize :=
          if (w.socks k).sock.config.readBufferSize > h.payloadLength - progress
          then h.payloadLength - progress else (w.socks k).sock.config.readBufferSize      -- :158-161
        if desiredSize < 0 then (.ub .negativeRead, w.put k ⟨(w.socks k).sock, ⟨(w.socks k).inp.bytes, sched'⟩⟩)
        else
          match lowRead o (w.socks k).inp.bytes desiredSize.toNat with                     -- :163
          | (.data bs, bytes') =>
            if bs.length > cap then (.ub .bufferOverflow, w.put k ⟨(w.socks k).sock, ⟨bytes', sched'⟩⟩)
            else
              let chunk := if h.hasMask then xorMask h.mask progress.toNat bs else bs      -- :167-171
              if short then
                payloadLoopOn call k h short cap fuel (w.put k ⟨(w.socks k).sock, ⟨bytes', sched'⟩⟩) (progress + bs.length) (acc ++ chunk) -- :173, 179
              else
                match call k (fun l => .readMessage l h.opcode chunk) (w.put k ⟨(w.socks k).sock, ⟨bytes', sched'⟩⟩) with -- :175, 181
                | (.ret _, w') => payloadLoopOn call k h short cap fuel w' (progress + bs.length) acc
                | (.throw e, w') => (.throw e, w')
                | (.block, w') => (.block, w')
                | (.ub u, w') => (.ub u, w')
          | (.retry, bytes') => payloadLoopOn call k h short cap fuel (w.put k ⟨(w.socks k).sock, ⟨bytes', sched'⟩⟩) progress acc -- :188-190
          | (.zero, bytes') => (.throw .connectionState, w.put k ⟨(w.socks k).sock, ⟨bytes', sched'⟩⟩)      -- :191
          | (.broken, bytes') => (.throw .connectionState, w.put k ⟨(w.socks k).sock, ⟨bytes', sched'⟩⟩)
    else (.ret acc, w)

/-- Allocation of the buffer and the loop (WebSocket.cpp:153-194). -/
def runPayloadLoopOn (call : Callback) (k : Nat) (h : Header) (short : Bool) : P World (List UInt8) := fun w =>
  payloadLoopOn call k h short (w.socks k).sock.config.readBufferSize.toNat (w.socks k).inp.sched.length w 0 []

/-- The end-of-message callback (WebSocket.cpp:196-199). -/
def endMarkerOn (call : Callback) (k : Nat) (h : Header) (short : Bool) : P World Unit :=
  if !short ∧ h.fin then call k (fun l => .readMessage l h.opcode []) else pure ()

/-- `WebSocket::readPayload` (WebSocket.cpp:147-201) of socket `k`. -/
def readPayloadOn (call : Callback) (k : Nat) (h : Header) (short : Bool) : P World (List UInt8) := do
  if short ∧ h.payloadLength > 125 then P.fail .controlTooLong                             -- :149-151
  else
    let st ← at' k P.get
    if st.sock.config.readBufferSize < 0 then P.fail .badAlloc                             -- :153
    else
      let acc ← runPayloadLoopOn call k h short                                            -- :153-194
      endMarkerOn call k h short                                                           -- :196-199
      pure acc

/-- `WebSocket::handleFrame` (WebSocket.cpp:203-273) of socket `k`. -/
def handleFrameOn (env : Env) (call : Callback) (k : Nat) (h : Header) : P World Unit := do
  if h.opcode = OPCODE_CONTINUATION then                                     -- :206
    let st ← at' k P.get
    if st.sock.lastOpcode < 0 then P.fail .continuationState                 -- :207-209
    else
      let _ ← readPayloadOn call k h false                                   -- :210
  else if h.opcode = OPCODE_TEXT then                                        -- :213
    if ← at' k (liftSock (checkForContinuation h)) then
      let _ ← readPayloadOn call k h false
    else P.fail .continuationExpected
  else if h.opcode = OPCODE_BINARY then                                      -- :221
    if ← at' k (liftSock (checkForContinuation h)) then
      let _ ← readPayloadOn call k h false
    else P.fail .continuationExpected
  else if h.opcode = OPCODE_CLOSE then                                       -- :229
    let data ← readPayloadOn call k h true
    let (code, message) := closeArgs env data
    call k (fun l => .onClose l code message)                                -- :243
  else if h.opcode = OPCODE_PING then                                        -- :248
    let data ← readPayloadOn call k h true
    call k (fun l => .onPing l data)                                         -- :253
  else if h.opcode = OPCODE_PONG then                                        -- :258
    let data ← readPayloadOn call k h true
    call k (fun l => .onPong l data)                                         -- :263
  else P.fail .unknownFrame                                                  -- :268-269

/-- `WebSocket::iterateFrame` (WebSocket.cpp:275-278) of socket `k`. -/
def iterateOn (env : Env) (call : Callback) (k : Nat) (h : Header) : P World Header := do
  let h ← at' k (readFrameHeader env h)
  handleFrameOn env call k h
  pure h

/-- The loop of `WebSocket::listen` (WebSocket.cpp:286-289) of socket `k`, as `listenLoop`. -/
def listenLoopOn (env : Env) (call : Callback) (k : Nat) : Nat → Header → P World Unit
  | 0, _ => fun w => (.block, w)
  | fuel + 1, h => fun w =>
    match iterateOn env call k h w with                                      -- :287-288
    | (.ret h', w') =>
      if h'.opcode ≠ OPCODE_CLOSE ∧ (w'.socks k).sock.listening then listenLoopOn env call k fuel h' w'   -- :289
      else (.ret (), w')
    | (.throw e, w') => (.throw e, w')
    | (.block, w') => (.block, w')
    | (.ub u, w') => (.ub u, w')

/-- `WebSocket::listen` (WebSocket.cpp:280-296) of socket `k`. -/
def listenOn (env : Env) (call : Callback) (k : Nat) (h : Header) : P World Unit := fun w =>
  let w := w.put k { w.socks k with sock := { (w.socks k).sock with listening := true } }           -- :282
  match listenLoopOn env call k ((w.socks k).inp.sched.length + 1) h w with
  | (.throw _, w') => (.ret (), w')                                          -- :290-294
  | r => r

/-- One operation of user code on socket `k` (recorded when it begins). WebSocket.cpp:275-296. -/
def nestedOn (env : Env) (call : Callback) (k : Nat) : NestedOp → P World Unit
  | .op u => fun w => at' k (liftSock (runUserOp env u)) { w with did := w.did ++ [(k, u)] }
  | .iterate catches => fun w =>
    match iterateOn env call k default w with
    | (.ret _, w') => (.ret (), w')
    | (.throw e, w') => if catches then (.ret (), w') else (.throw e, w')
    | (.block, w') => (.block, w')
    | (.ub u, w') => (.ub u, w')
  | .listen => listenOn env call k default

/-- The operations of user code in the callback that was the last of `tr`, or (`[]`) outside of callbacks; `i` have been done. At most `steps` more: user code that goes on for ever does not return.
Not from /repo: user code. -/
def codeOn (c : Code) (call : Callback) (tr : List (Nat × Event)) : Nat → Nat → P World Unit
  | 0, i => fun w => if (c.next tr i w.log).isNone then (.ret (), w) else (.block, w)
  | steps + 1, i => fun w =>
    match c.next tr i w.log with
    | none => (.ret (), w)
    | some (k, op) =>
      match nestedOn (c.env k) call k op w with
      | (.ret _, w') => codeOn c call tr steps (i + 1) w'
      | r => r

/-- The world when the method of the listener has been called. WebSocket.cpp:175, 181, 198, 243, 253, 263. -/
def World.called (w : World) (k : Nat) (e : Event) : World :=
  { (w.put k { w.socks k with sock := { (w.socks k).sock with trace := (w.socks k).sock.trace ++ [e] } }) with log := w.log ++ [(k, e)] }

/-- `if(m_listener) m_listener->callback(...)` (WebSocket.cpp:174-175, 180-181, 197-198, 233-243, 252-253, 262-263), with at most `depth` callbacks inside each other and `steps` operations in each. Simplified: as `Reentrant.callback`. -/
def callback (c : Code) (steps : Nat) : Nat → Callback
  | 0, k, mk => fun w =>
    match (w.socks k).sock.listener with
    | none => (.ret (), w)
    | some l => codeOn c (fun _ _ w => (.block, w)) (w.log ++ [(k, mk l)]) 0 0 (w.called k (mk l))
  | depth + 1, k, mk => fun w =>
    match (w.socks k).sock.listener with
    | none => (.ret (), w)
    | some l => codeOn c (callback c steps depth) (w.log ++ [(k, mk l)]) steps 0 (w.called k (mk l))

/-- The thread: user code outside of callbacks. Not from /repo. -/
def main (c : Code) (steps depth : Nat) : P World Unit := codeOn c (callback c steps depth) [] steps 0

end OatWS.Gateway
