import Verif.Model.Threads
/-!
# Code of an application that uses a socket

The calls an application makes from its own threads, in a form in which it can go on depending on their results. All of this is
user code, around the public methods of `WebSocket`.
-/

namespace OatWS

/-- User code: a piece of the payload as it goes to the wire, `offset` bytes after the beginning of the payload. What RFC 6455 asks of whoever writes
the payload of a masked frame (in the library: WebSocket.cpp:325-327). -/
def pieceBytes (h : Header) (offset : Nat) (piece : List UInt8) : List UInt8 :=
  if h.hasMask then xorMask h.mask offset piece else piece

/-- User code: `getConnection().object->writeExactSizeDataSimple(...)` (WebSocket.hpp:167) for one piece of the payload after the other; `false`: one was
not written completely. -/
def writePieces (h : Header) : Nat → List (List UInt8) → P Sock Bool
  | _, [] => pure true
  | offset, piece :: pieces => do
    let res ← connWriteExact (pieceBytes h offset piece)
    if res = piece.length then writePieces h (offset + piece.length) pieces else pure false

/-- User code: a frame whose payload is not in memory as a whole: `sendFrameHeader` (WebSocket.cpp:302-316) with a header object of the caller,
then the pieces of the payload. -/
def streamFrame (env : Env) (h : Header) (fin : Bool) (opcode : UInt8) (pieces : List (List UInt8)) : P Sock Bool := do
  let h ← sendFrameHeader env h fin opcode pieces.flatten.length
  writePieces h 0 pieces

namespace Threads
open Prog

/-- A send method is called (with the marks of its call and return); exceptions go to the caller.
WebSocket.cpp:302-391 as called by user code. -/
def callT (env : Env) (fuel : Nat) (c : SendCall) : Prog Bool :=
  .act (.call c) fun _ =>
    catching (andThen (sendT env fuel c) fun ok => .act (.returned ok) fun _ => .ret ok)
      (fun e => .act (.returned false) fun _ => .throw e)

/-- As `OatWS.writePieces`.
Not from /repo: user code that writes to `getConnection()` (WebSocket.hpp:167). -/
def writePiecesT (fuel : Nat) (h : Header) : Nat → List (List UInt8) → Prog Bool
  | _, [] => .ret true
  | offset, piece :: pieces =>
    andThen (writeExactT fuel (pieceBytes h offset piece) 0) fun res =>
      if res = piece.length then writePiecesT fuel h (offset + piece.length) pieces else .ret false

/-- As `OatWS.streamFrame`, with the marks of a send: it stands for the send method `c`, whose FIN, opcode and content it has. The header object is the caller's.
`sendFrameHeader` (WebSocket.cpp:302-316), then user code. -/
def streamT (env : Env) (fuel : Nat) (c : SendCall) (h : Header) (fin : Bool) (opcode : UInt8) (pieces : List (List UInt8)) : Prog Bool :=
  .act (.call c) fun _ =>
    catching (andThen (andThen (sendFrameHeaderT env fuel h fin opcode pieces.flatten.length) fun h => writePiecesT fuel h 0 pieces) fun ok =>
        .act (.returned ok) fun _ => .ret ok)
      (fun e => .act (.returned false) fun _ => .throw e)

end Threads
end OatWS
