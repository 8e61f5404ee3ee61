import Verif.Model.WebSocket
/-!
# The blocking WebSocket used by several threads

`Verif.Model.WebSocket` gives the effect of each method when nothing else happens meanwhile. Here the same methods
(WebSocket.cpp) are written once more, statement by statement, as programs whose steps (`Act`) are the single accesses to
what threads share: the members of the socket, and single low-level calls on the connection. Between any two steps of a thread
other threads may make steps. That a program run alone does what `Verif.Model.WebSocket` says is proved in
`Verif.Proofs.ThreadsAlone` (for every method).

Simplifications: `m_listening`, `m_listener`, `m_config`, `m_lastOpcode` are plain (not atomic) members, so that C++ calls
concurrent accesses to them a data race; here each access is one indivisible step. `oatpp::utils::Random` (which is
thread safe) is one source of bytes shared by all threads, four of which are taken in one step. Steps of the threads on data of their
own are not steps of the model.
-/

namespace OatWS.Threads

/-- Result of one low-level `write`.
External (oatpp core), behind WebSocket.cpp:117, 124, 132, 139, 328, 330. -/
inductive LowWrite where
  | wrote (n : Nat)   -- n > 0 bytes were written
  | retry
  | zero
  | broken
deriving DecidableEq, Repr

/-- One step of a thread on shared data. The last three have no effect on the socket; they mark, for the record of an execution, callbacks,
and the call and return of a send method.
The accesses to `m_config`, `m_listener`, `m_lastOpcode`, `m_listening` and the connection in WebSocket.cpp:55-391 (WebSocket.hpp:107-111, 175-185). -/
inductive Act where
  | read (count : Nat)             -- `m_connection.object->read(...)`
  | write (data : List UInt8)      -- `m_connection.object->write(...)`
  | getConfig
  | setConfig (c : Config)
  | getListener
  | setListener (l : Option Nat)
  | getLastOpcode
  | setLastOpcode (v : Int)
  | getListening
  | setListening (b : Bool)
  | random                         -- `oatpp::utils::Random::randomBytes(mask, 4)`
  | callback (e : Event)           -- a method of the listener is called
  | call (c : SendCall)            -- a send method is called
  | returned (whole : Bool)        -- it returns; `whole`: without exception, and not with `false`
deriving DecidableEq, Repr

/-- What a step gives to the thread. Results of the accesses (WebSocket.cpp:55-391). -/
@[reducible] def Act.Res : Act → Type
  | .read _ => ReadRes
  | .write _ => LowWrite
  | .getConfig => Config
  | .getListener => Option Nat
  | .getLastOpcode => Int
  | .getListening => Bool
  | .random => Mask
  | .callback _ => List Event
  | _ => Unit

/-- One low-level `write(data, size)` with `size > 0`.
External (oatpp core), behind WebSocket.cpp:117, 124, 132, 139, 328, 330. -/
def lowWrite (o : IoOutcome) (data : List UInt8) : LowWrite :=
  match o with
  | .upTo m => .wrote (min (m + 1) data.length)
  | .retry => .retry
  | .zero => .zero
  | .broken => .broken

/-- The effect of a step; `none`: it never happens (the thread waits for ever in the low-level call).
WebSocket.cpp:56, 60-65, 74-101, 117-139, 153, 158, 163, 174-198, 207, 233-263, 282, 289, 299, 308, 312, 328, 330. -/
def exec (env : Env) : (a : Act) → St → Option (a.Res × St)
  | .read count, st =>
    match st.inp.sched with
    | [] => none
    | o :: sched =>
      match lowRead o st.inp.bytes count with
      | (r, bytes) => some (r, { st with inp := ⟨bytes, sched⟩ })
  | .write data, st =>
    match st.sock.out.sched with
    | [] => none
    | o :: sched =>
      match lowWrite o data with
      | .wrote n => some (LowWrite.wrote n, { st with sock := { st.sock with out := ⟨st.sock.out.written ++ data.take n, sched⟩ } })
      | r => some (r, { st with sock := { st.sock with out := ⟨st.sock.out.written, sched⟩ } })
  | .getConfig, st => some (st.sock.config, st)
  | .setConfig c, st => some ((), { st with sock := { st.sock with config := c } })
  | .getListener, st => some (st.sock.listener, st)
  | .setListener l, st => some ((), { st with sock := { st.sock with listener := l } })
  | .getLastOpcode, st => some (st.sock.lastOpcode, st)
  | .setLastOpcode v, st => some ((), { st with sock := { st.sock with lastOpcode := v } })
  | .getListening, st => some (st.sock.listening, st)
  | .setListening b, st => some ((), { st with sock := { st.sock with listening := b } })
  | .random, st =>
    let p := st.sock.rngPos
    some ((⟨env.rng p, env.rng (p + 1), env.rng (p + 2), env.rng (p + 3)⟩ : Mask), { st with sock := { st.sock with rngPos := p + 4 } })
  | .callback e, st => some (st.sock.trace ++ [e], { st with sock := { st.sock with trace := st.sock.trace ++ [e] } })
  | .call _, st => some ((), st)
  | .returned _, st => some ((), st)

/-- A program: it has returned, thrown, reached undefined behaviour, or makes a step and goes on with its result. `stuck`: it waits for ever; only
used where the bound on the number of repetitions of a loop is reached, which is proved not to happen.
Not from /repo: C++ code as a tree of its accesses to what threads share. -/
inductive Prog (α : Type) where
  | ret (a : α)
  | throw (e : Err)
  | ub (u : UB)
  | stuck
  | act (a : Act) (k : a.Res → Prog α)

namespace Prog
variable {α β : Type}

/-- `p; f`. Not from /repo: C++ sequencing. -/
def andThen : Prog α → (α → Prog β) → Prog β
  | .ret a, f => f a
  | .throw e, _ => .throw e
  | .ub u, _ => .ub u
  | .stuck, _ => .stuck
  | .act a k, f => .act a fun r => andThen (k r) f

/-- `try { p } catch (e) { f e }`.
Not from /repo: C++ `try`/`catch` (used for WebSocket.cpp:284-294). -/
def catching : Prog α → (Err → Prog α) → Prog α
  | .ret a, _ => .ret a
  | .throw e, f => f e
  | .ub u, _ => .ub u
  | .stuck, _ => .stuck
  | .act a k, f => .act a fun r => catching (k r) f

/-- One step. Not from /repo: a single access. -/
def step (a : Act) : Prog a.Res := .act a .ret

/-- The program run alone. Not from /repo: execution without other threads. -/
def run (env : Env) : Prog α → P St α
  | .ret a => P.pure a
  | .throw e => P.fail e
  | .ub u => P.undef u
  | .stuck => fun st => (.block, st)
  | .act a k => fun st => (exec env a st).elim (.block, st) fun x => run env (k x.1) x.2

end Prog
open Prog

/-! ## Sending -/

/-- External: `writeExactSizeDataSimple` as in `OatWS.writeExact`; at most `fuel` low-level writes. `n` counts the bytes written so far.
Called at WebSocket.cpp:117, 124, 132, 139, 328, 330. -/
def writeExactT : Nat → List UInt8 → Nat → Prog Nat
  | _, [], n => .ret n
  | 0, _ :: _, _ => .stuck
  | fuel + 1, b :: bs, n => .act (.write (b :: bs)) fun r =>
    match r with
    | LowWrite.wrote k => writeExactT fuel ((b :: bs).drop k) (n + k)
    | LowWrite.retry => writeExactT fuel (b :: bs) n
    | LowWrite.zero => .ret n
    | LowWrite.broken => .ret n

/-- As `OatWS.writeExpect` (WebSocket.cpp:117-120, 124-127, 132-135, 139-142). -/
def writeExpectT (fuel : Nat) (data : List UInt8) (size : Nat) (e : Err) : Prog Unit :=
  andThen (writeExactT fuel data 0) fun res => if res ≠ size then .throw e else .ret ()

/-- WebSocket.cpp:122-136. -/
def writeLengthT (env : Env) (fuel : Nat) (h : Header) (messageLengthScenario : UInt8) : Prog Unit :=
  if messageLengthScenario = 2 then
    writeExpectT fuel (store16 env.host (hton16 env.host (UInt16.ofNat (h.payloadLength % 65536).toNat))) 2 .len2Write
  else if messageLengthScenario = 3 then
    writeExpectT fuel (store32 env.host (hton32 env.host (UInt32.ofNat (h.payloadLength / 4294967296 % 4294967296).toNat)) ++
      store32 env.host (hton32 env.host (UInt32.ofNat (h.payloadLength % 4294967296).toNat))) 8 .len3Write
  else .ret ()

/-- WebSocket.cpp:138-143. -/
def writeMaskT (fuel : Nat) (h : Header) : Prog Unit :=
  if h.hasMask then writeExpectT fuel h.mask.bytes 4 .maskWrite else .ret ()

/-- `WebSocket::writeFrameHeader` (WebSocket.cpp:109-145). -/
def writeFrameHeaderT (env : Env) (fuel : Nat) (h : Header) : Prog Unit :=
  andThen (writeExpectT fuel (store16 env.host (hton16 env.host (packHeaderBits h).1)) 2 .headerWrite) fun _ =>
    andThen (writeLengthT env fuel h (packHeaderBits h).2) fun _ => writeMaskT fuel h

/-- `WebSocket::sendFrameHeader` (WebSocket.cpp:302-316). -/
def sendFrameHeaderT (env : Env) (fuel : Nat) (h : Header) (fin : Bool) (opcode : UInt8) (messageSize : Int) : Prog Header :=
  .act .getConfig fun (c : Config) =>
    let h := { h with
      fin := fin, rsv1 := false, rsv2 := false, rsv3 := false, opcode := opcode,
      hasMask := c.maskOutgoingMessages, payloadLength := messageSize }                          -- :303-309
    if c.maskOutgoingMessages then
      .act .random fun (m : Mask) =>                                                             -- :311-313
        andThen (writeFrameHeaderT env fuel { h with mask := m }) fun _ => .ret { h with mask := m }
    else andThen (writeFrameHeaderT env fuel h) fun _ => .ret h                                     -- :315

/-- `WebSocket::sendOneFrame` (WebSocket.cpp:318-339). -/
def sendOneFrameT (env : Env) (fuel : Nat) (fin : Bool) (opcode : UInt8) (message : Option (List UInt8)) : Prog Bool :=
  match message with
  | some (b :: bs) =>
    andThen (sendFrameHeaderT env fuel default fin opcode (b :: bs).length) fun h =>
      if h.hasMask then
        if (b :: bs).length ≥ 2 ^ 31 then .ub .indexOverflow
        else andThen (writeExactT fuel (xorMask h.mask 0 (b :: bs)) 0) fun res => .ret (res = (b :: bs).length)
      else andThen (writeExactT fuel (b :: bs) 0) fun res => .ret (res = (b :: bs).length)
  | _ => andThen (sendFrameHeaderT env fuel default fin opcode 0) fun _ => .ret true

/-- The common shape of the send wrappers (WebSocket.cpp:351-354, 359-362, 366-369, 373-376, 380-383, 387-390). -/
def sendOrStopT (env : Env) (fuel : Nat) (opcode : UInt8) (message : Option (List UInt8)) : Prog Bool :=
  andThen (sendOneFrameT env fuel true opcode message) fun ok =>
    if ok then .ret true else .act (.setListening false) fun _ => .throw .sendFailed

/-- The public send methods (WebSocket.cpp:318-391). The result is that of `sendOneFrame`, and `true` for the others. -/
def sendT (env : Env) (fuel : Nat) : SendCall → Prog Bool
  | .oneFrame fin opcode message => sendOneFrameT env fuel fin opcode message
  | .close code message => sendOrStopT env fuel OPCODE_CLOSE (some (store16 env.host (hton16 env.host code) ++ message.getD []))
  | .closeEmpty => sendOrStopT env fuel OPCODE_CLOSE none
  | .ping message => sendOrStopT env fuel OPCODE_PING message
  | .pong message => sendOrStopT env fuel OPCODE_PONG message
  | .text message => sendOrStopT env fuel OPCODE_TEXT message
  | .binary message => sendOrStopT env fuel OPCODE_BINARY message

/-- A send by user code, with the marks of its call and return. `catches`: user code catches an exception of the send.
Not from /repo: user code that calls WebSocket.cpp:318-391. -/
def userSendT (env : Env) (fuel : Nat) (c : SendCall) (catches : Bool) : Prog Unit :=
  .act (.call c) fun _ =>
    andThen (catching (andThen (sendT env fuel c) fun ok => .act (.returned ok) fun _ => .ret (none : Option Err))
      (fun e => .act (.returned false) fun _ => .ret (some e))) fun r =>
        match r with
        | none => .ret ()
        | some e => if catches then .ret () else .throw e

/-- As `OatWS.runUserOp`.
Not from /repo: user code that calls WebSocket.cpp:55-57, 298-391, WebSocket.hpp:175. -/
def userOpT (env : Env) (fuel : Nat) : UserOp → Prog Unit
  | .stopListening => .act (.setListening false) fun _ => .ret ()
  | .setListener l => .act (.setListener l) fun _ => .ret ()
  | .setConfig c => .act (.setConfig c) fun _ => .ret ()
  | .send call catches => userSendT env fuel call catches
  | .throw => .throw .user

/-- As `OatWS.runUserOps`.
Not from /repo: user code in a callback (called at WebSocket.cpp:175, 181, 198, 243, 253, 263). -/
def userOpsT (env : Env) (fuel : Nat) : List UserOp → Prog Unit
  | [] => .ret ()
  | op :: ops => andThen (userOpT env fuel op) fun _ => userOpsT env fuel ops

/-- As `OatWS.callListener`.
WebSocket.cpp:174-175, 180-181, 197-198, 233-243, 252-253, 262-263. -/
def callListenerT (env : Env) (fuel : Nat) (mk : Nat → Event) : Prog Unit :=
  .act .getListener fun (l : Option Nat) =>
    match l with
    | none => .ret ()
    | some l => .act (.callback (mk l)) fun (tr : List Event) => userOpsT env fuel (env.react tr)

/-! ## Receiving -/

/-- External: `readExactSizeDataSimple` as in `OatWS.readExact`; at most `fuel` low-level reads.
Called at WebSocket.cpp:74, 86, 93, 101. -/
def readExactT : Nat → Nat → List UInt8 → Prog (List UInt8)
  | _, 0, acc => .ret acc
  | 0, _ + 1, _ => .stuck
  | fuel + 1, need + 1, acc => .act (.read (need + 1)) fun r =>
    match r with
    | ReadRes.data bs => readExactT fuel (need + 1 - bs.length) (acc ++ bs)
    | ReadRes.retry => readExactT fuel (need + 1) acc
    | ReadRes.zero => .ret acc
    | ReadRes.broken => .ret acc

/-- WebSocket.cpp:82-98. -/
def readLengthT (env : Env) (fuel : Nat) (messageLen1 : UInt8) : Prog Int :=
  if messageLen1 < 126 then .ret messageLen1.toNat
  else if messageLen1 = 126 then
    andThen (readExactT fuel 2 []) fun bs =>
      match bs with
      | [b0, b1] => .ret (hton16 env.host (load16 env.host b0 b1)).toNat
      | _ => .throw .len2Read
  else
    andThen (readExactT fuel 8 []) fun bs =>
      match bs with
      | [b0, b1, b2, b3, b4, b5, b6, b7] =>
        .ret (toInt64 ((hton32 env.host (load32 env.host b0 b1 b2 b3)).toNat * 4294967296
          + (hton32 env.host (load32 env.host b4 b5 b6 b7)).toNat))
      | _ => .throw .len3Read

/-- `WebSocket::readFrameHeader` (WebSocket.cpp:71-107). -/
def readFrameHeaderT (env : Env) (fuel : Nat) (h : Header) : Prog Header :=
  andThen (readExactT fuel 2 []) fun bs =>
    match bs with
    | [b0, b1] =>
      andThen (readLengthT env fuel (unpackHeaderBits (hton16 env.host (load16 env.host b0 b1)) h).2) fun len =>
        if (unpackHeaderBits (hton16 env.host (load16 env.host b0 b1)) h).1.hasMask then
          andThen (readExactT fuel 4 []) fun ms =>
            match ms with
            | [m0, m1, m2, m3] => .ret { (unpackHeaderBits (hton16 env.host (load16 env.host b0 b1)) h).1 with payloadLength := len, mask := ⟨m0, m1, m2, m3⟩ }
            | _ => .throw .maskRead
        else .ret { (unpackHeaderBits (hton16 env.host (load16 env.host b0 b1)) h).1 with payloadLength := len }
    | _ => .throw .headerRead

/-- The loop of `WebSocket::readPayload` (WebSocket.cpp:156-194); at most `n` low-level reads. -/
def readPayloadLoopT (env : Env) (fuel : Nat) (h : Header) (short : Bool) (cap : Nat) : Nat → Int → List UInt8 → Prog (List UInt8)
  | n, progress, acc =>
    if progress < h.payloadLength then                                                       -- :156
      match n with
      | 0 => .stuck
      | n + 1 =>
        .act .getConfig fun (c : Config) =>                                                  -- :158
          let desiredSize := if c.readBufferSize > h.payloadLength - progress then h.payloadLength - progress else c.readBufferSize
          if desiredSize < 0 then .act (.read 0) fun _ => .ub .negativeRead
          else .act (.read desiredSize.toNat) fun r =>                                       -- :163
            match r with
            | ReadRes.data bs =>
              if bs.length > cap then .ub .bufferOverflow
              else
                let chunk := if h.hasMask then xorMask h.mask progress.toNat bs else bs      -- :167-171
                if short then readPayloadLoopT env fuel h short cap n (progress + bs.length) (acc ++ chunk)
                else andThen (callListenerT env fuel fun l => .readMessage l h.opcode chunk) fun _ =>
                  readPayloadLoopT env fuel h short cap n (progress + bs.length) acc
            | ReadRes.retry => readPayloadLoopT env fuel h short cap n progress acc          -- :188-190
            | ReadRes.zero => .throw .connectionState                                        -- :191
            | ReadRes.broken => .throw .connectionState
    else .ret acc

/-- WebSocket.cpp:196-199. -/
def endMarkerT (env : Env) (fuel : Nat) (h : Header) (short : Bool) : Prog Unit :=
  if !short ∧ h.fin then callListenerT env fuel fun l => .readMessage l h.opcode [] else .ret ()

/-- `WebSocket::readPayload` (WebSocket.cpp:147-201). -/
def readPayloadT (env : Env) (fuel : Nat) (h : Header) (short : Bool) : Prog (List UInt8) :=
  if short ∧ h.payloadLength > 125 then .throw .controlTooLong                               -- :149-151
  else .act .getConfig fun (c : Config) =>                                                   -- :153
    if c.readBufferSize < 0 then .throw .badAlloc
    else andThen (readPayloadLoopT env fuel h short c.readBufferSize.toNat fuel 0 []) fun acc =>
      andThen (endMarkerT env fuel h short) fun _ => .ret acc

/-- `WebSocket::checkForContinuation` (WebSocket.cpp:59-69). -/
def checkForContinuationT (h : Header) : Prog Bool :=
  .act .getLastOpcode fun (v : Int) =>
    if v = OPCODE_TEXT.toNat ∨ v = OPCODE_BINARY.toNat then .ret false
    else if h.fin then .act (.setLastOpcode (-1)) fun _ => .ret true
    else .act (.setLastOpcode h.opcode.toNat) fun _ => .ret true

/-- `WebSocket::handleFrame` (WebSocket.cpp:203-273). -/
def handleFrameT (env : Env) (fuel : Nat) (h : Header) : Prog Unit :=
  if h.opcode = OPCODE_CONTINUATION then
    .act .getLastOpcode fun (v : Int) =>
      if v < 0 then .throw .continuationState else andThen (readPayloadT env fuel h false) fun _ => .ret ()
  else if h.opcode = OPCODE_TEXT then
    andThen (checkForContinuationT h) fun ok =>
      if ok then andThen (readPayloadT env fuel h false) fun _ => .ret () else .throw .continuationExpected
  else if h.opcode = OPCODE_BINARY then
    andThen (checkForContinuationT h) fun ok =>
      if ok then andThen (readPayloadT env fuel h false) fun _ => .ret () else .throw .continuationExpected
  else if h.opcode = OPCODE_CLOSE then
    andThen (readPayloadT env fuel h true) fun data =>
      callListenerT env fuel fun l => .onClose l (closeArgs env data).1 (closeArgs env data).2
  else if h.opcode = OPCODE_PING then
    andThen (readPayloadT env fuel h true) fun data => callListenerT env fuel fun l => .onPing l data
  else if h.opcode = OPCODE_PONG then
    andThen (readPayloadT env fuel h true) fun data => callListenerT env fuel fun l => .onPong l data
  else .throw .unknownFrame

/-- `WebSocket::iterateFrame` (WebSocket.cpp:275-278). -/
def iterateFrameT (env : Env) (fuel : Nat) (h : Header) : Prog Header :=
  andThen (readFrameHeaderT env fuel h) fun h => andThen (handleFrameT env fuel h) fun _ => .ret h

/-- The loop of `WebSocket::listen` (WebSocket.cpp:286-289); at most `n` frames. -/
def listenLoopT (env : Env) (fuel : Nat) : Nat → Header → Prog Unit
  | 0, _ => .stuck
  | n + 1, h =>
    andThen (iterateFrameT env fuel h) fun h' =>
      if h'.opcode ≠ OPCODE_CLOSE then
        .act .getListening fun (b : Bool) => if b then listenLoopT env fuel n h' else .ret ()
      else .ret ()

/-- `WebSocket::listen` (WebSocket.cpp:280-296). -/
def listenT (env : Env) (fuel : Nat) (h : Header) : Prog Unit :=
  catching (.act (.setListening true) fun _ => listenLoopT env fuel fuel h) fun _ => .ret ()

/-! ## Several threads -/

/-- Threads and the socket they share.
Not from /repo: threads of the application that use one WebSocket (WebSocket.cpp:38-53). -/
structure Pool where
  threads : List (Prog Unit)
  st : St

/-- One step of one of the threads.
Not from /repo: the scheduler of the operating system. Simplified: sequentially consistent; which accesses race is C62. -/
inductive Pool.Step (env : Env) : Pool → Pool → Prop
  | mk {ts st i a k r st'} : ts[i]? = some (.act a k) → exec env a st = some (r, st') → Pool.Step env ⟨ts, st⟩ ⟨ts.set i (k r), st'⟩

/-- Any number of steps of the threads, in any order.
Not from /repo: the scheduler of the operating system. -/
inductive Pool.Steps (env : Env) : Pool → Pool → Prop
  | refl {p} : Pool.Steps env p p
  | tail {p q r} : Pool.Steps env p q → Pool.Step env q r → Pool.Steps env p r

end OatWS.Threads
