import Verif.Model.WebSocket
/-!
# `iterateFrame` and the caller's header object

`WebSocket::iterateFrame(Frame::Header& frameHeader)` is public, and the header is an object of the caller's: after a call that throws, the caller can look at what the call has
stored in it. `Model/WebSocket` gives the header only as the result of calls that return; here it is part of the state. (A call that never returns, or has undefined behaviour, leaves nothing to look at.)
-/

namespace OatWS

/-- The socket and the caller's header object. -/
abbrev StH := St × Header

/-- A part of the call that does not touch the header object. Not from /repo: embedding. -/
def onSt {α : Type} (m : P St α) : P StH α := fun s =>
  match m s.1 with
  | (r, st') => (r, (st', s.2))

/-- Not from /repo: the header object as it is. -/
def theHeader : P StH Header := fun s => (.ret s.2, s)

/-- Not from /repo: a store to the header object. -/
def storeHeader (h : Header) : P StH Unit := fun s => (.ret (), (s.1, h))

/-- The four bytes at `frameHeader.mask` when `bs` (at most four) have been read into them (WebSocket.cpp:101). -/
def Mask.overwrite (m : Mask) : List UInt8 → Mask
  | [] => m
  | [a] => ⟨a, m.m1, m.m2, m.m3⟩
  | [a, b] => ⟨a, b, m.m2, m.m3⟩
  | [a, b, c] => ⟨a, b, c, m.m3⟩
  | a :: b :: c :: d :: _ => ⟨a, b, c, d⟩

/-- `WebSocket::readFrameHeader` (WebSocket.cpp:71-107), store by store. -/
def readFrameHeaderInto (env : Env) : P StH Unit := do
  match ← onSt (connReadExact 2) with                                                       -- :74 (`bb` is a local variable)
  | [b0, b1] =>
    let h ← theHeader
    let (h, messageLen1) := unpackHeaderBits (hton16 env.host (load16 env.host b0 b1)) h     -- :80
    storeHeader h
    let len ← onSt (readLength env messageLen1)                                              -- :82-97 (local variables)
    let h := { h with payloadLength := len }
    storeHeader h                                                                            -- :83, 90, 97
    if h.hasMask then
      let key ← onSt (connReadExact 4)                                                       -- :101
      storeHeader { h with mask := h.mask.overwrite key }
      match key with
      | [_, _, _, _] => pure ()
      | _ => P.fail .maskRead                                                                -- :102-103
    else pure ()
  | _ => P.fail .headerRead                                                                  -- :75-76

/-- `WebSocket::iterateFrame` (WebSocket.cpp:275-278). `handleFrame` takes the header as `const&` (:203). -/
def iterateFrameInto (env : Env) : P StH Unit := do
  readFrameHeaderInto env                                                                    -- :276
  let h ← theHeader
  onSt (handleFrame env h)                                                                   -- :277

end OatWS
