import Verif.Model.Bytes
/-!
# Transport streams (external: oatpp core `IOStream`), as used by /repo

oatpp core is not part of /repo. This file fixes the contract that is assumed of it:

* the peer's bytes arrive in order, none lost, duplicated or invented;
* each low-level `read`/`write` call moves between 1 and the requested number of bytes, or asks for a retry
  (`IOError::RETRY_READ/RETRY_WRITE`), or returns 0, or fails (`IOError::BROKEN_PIPE` or another error);
* `readExactSizeDataSimple`/`writeExactSizeDataSimple` repeat the low-level call until the requested number of bytes was
  moved, repeating on RETRY and giving up on 0 and on errors, and return the number of bytes moved;
* `readSimple` is one low-level call.

Which outcome occurs at each call is an arbitrary *schedule*.
-/

namespace OatWS

/-- The environment's choice for one low-level `read` or `write` call.
External (oatpp core), behind WebSocket.cpp:74, 86, 93, 101, 117, 124, 132, 139, 163, 328, 330. -/
inductive IoOutcome where
  | upTo (n : Nat)  -- move at most n+1 bytes (and at least one, if possible)
  | retry           -- IOError::RETRY_READ / RETRY_WRITE
  | zero            -- 0
  | broken          -- BROKEN_PIPE or any other error
deriving DecidableEq, Repr

/-- Input side of a connection: all bytes not yet read, and the outcomes of the coming `read` calls.
When `sched` is empty the next call blocks for ever.
External (oatpp core): `m_connection.object` (WebSocket.hpp:108). -/
structure InStream where
  bytes : List UInt8
  sched : List IoOutcome
deriving DecidableEq, Repr

/-- Result of a low-level read. External (oatpp core), behind WebSocket.cpp:163. -/
inductive ReadRes where
  | data (bs : List UInt8)  -- res = bs.length > 0
  | retry
  | zero
  | broken
deriving DecidableEq, Repr

/-- One low-level `read(buffer, count)`; returns the result and the bytes left. At the end of the bytes it
returns 0 (end of file).
External (oatpp core), called at WebSocket.cpp:163 and behind :74, 86, 93, 101. -/
def lowRead (o : IoOutcome) (bytes : List UInt8) (count : Nat) : ReadRes × List UInt8 :=
  match o with
  | .upTo n =>
    let k := min (n + 1) (min count bytes.length)
    if k = 0 then (.zero, bytes) else (.data (bytes.take k), bytes.drop k)
  | .retry => (.retry, bytes)
  | .zero => (.zero, bytes)
  | .broken => (.broken, bytes)

/-- Result of `readExactSizeDataSimple(buf, need)`: the bytes stored into the buffer (their number is the return value),
or blocked for ever. Called at WebSocket.cpp:74, 86, 93, 101. -/
inductive ExactRes where
  | got (bs : List UInt8)
  | blocked
deriving DecidableEq, Repr

/-- External: `readExactSizeDataSimple` (used in WebSocket.cpp:74, 86, 93, 101). `acc` holds what was read so far. -/
def readExact : List IoOutcome → List UInt8 → Nat → List UInt8 → ExactRes × InStream
  | sched, bytes, 0, acc => (.got acc, ⟨bytes, sched⟩)
  | [], bytes, _ + 1, _ => (.blocked, ⟨bytes, []⟩)
  | o :: sched, bytes, need + 1, acc =>
    match lowRead o bytes (need + 1) with
    | (.data bs, bytes') => readExact sched bytes' (need + 1 - bs.length) (acc ++ bs)
    | (.retry, bytes') => readExact sched bytes' (need + 1) acc
    | (.zero, bytes') => (.got acc, ⟨bytes', sched⟩)
    | (.broken, bytes') => (.got acc, ⟨bytes', sched⟩)

/-- Output side of a connection: all bytes written so far, and the outcomes of the coming `write` calls.
External (oatpp core): `m_connection.object` (WebSocket.hpp:108). -/
structure OutStream where
  written : List UInt8
  sched : List IoOutcome
deriving DecidableEq, Repr

/-- Result of `writeExactSizeDataSimple(buf, size)`: number of bytes written, or blocked for ever.
Called at WebSocket.cpp:117, 124, 132, 139, 328, 330. -/
inductive WriteRes where
  | wrote (n : Nat)
  | blocked
deriving DecidableEq, Repr

/-- External: `writeExactSizeDataSimple` (used in WebSocket.cpp:117, 124, 132, 139, 328, 330). `n` counts the bytes
written so far. -/
def writeExact : List IoOutcome → List UInt8 → List UInt8 → Nat → WriteRes × OutStream
  | sched, written, [], n => (.wrote n, ⟨written, sched⟩)
  | [], written, _ :: _, _ => (.blocked, ⟨written, []⟩)
  | o :: sched, written, b :: bs, n =>
    match o with
    | .upTo m =>
      let k := min (m + 1) (b :: bs).length
      writeExact sched (written ++ (b :: bs).take k) ((b :: bs).drop k) (n + k)
    | .retry => writeExact sched written (b :: bs) n
    | .zero => (.wrote n, ⟨written, sched⟩)
    | .broken => (.wrote n, ⟨written, sched⟩)

end OatWS
