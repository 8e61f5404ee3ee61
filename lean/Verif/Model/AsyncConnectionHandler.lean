import Verif.Spec.Sockets
/-!
# `AsyncConnectionHandler.cpp`: the async server

`handleConnection` gives a `SocketCoroutine` to the executor (oatpp core), which calls `act` once, then steps the coroutine (`listenAsync`) and finally
destroys it; it may destroy it at any time (for instance when it is stopped). The executor is the list of operations.

The I/O modes (AsyncConnectionHandler.cpp:90-91) are in `Model/ConnectionIO`.
-/

namespace OatWS.AsyncServer
open Server

/-- `class SocketCoroutine` (AsyncConnectionHandler.cpp:57-62). `listener`, `socket`: `none` is null. -/
structure Coroutine (L P : Type) where
  connection : Nat
  params : P
  listener : Option L
  socket : Option Nat

/-- `m_listener` (AsyncConnectionHandler.hpp:81), the `SocketCoroutine` objects (AsyncConnectionHandler.cpp:57-88) by connection number, the number of connections accepted so far, and the sockets created (:81) with their connections. -/
structure Mem (L P : Type) where
  /-- the handler's `m_listener` -/
  listener : Option L
  /-- the coroutines, by the number of the connection they were made for (in the order of `handleConnection` calls) -/
  coroutines : Nat → Option (Coroutine L P)
  /-- `handleConnection` calls so far -/
  accepted : Nat
  /-- sockets created so far: the connection of each -/
  sockets : List Nat

inductive Op (L P : Type) where
  /-- `setSocketInstanceListener` (:49-51) -/
  | setListener (l : Option L)
  /-- `handleConnection` (:53-95): `m_executor->execute<SocketCoroutine>(connection, params, m_listener)` -/
  | handleConnection (connection : Nat) (params : P)
  /-- the executor calls `act` on the `n`-th coroutine; `throws`: it throws (the listener's `onAfterCreate_NonBlocking` does) -/
  | act (n : Nat) (throws : Bool)
  /-- `listenAsync` has ended (normally, or with an error) -/
  | listened (n : Nat)
  /-- the executor destroys the coroutine -/
  | destroy (n : Nat)

/-- Not from /repo: a coroutine object (AsyncConnectionHandler.cpp:57-88) is changed, created or destroyed. -/
def Mem.set (m : Mem L P) (n : Nat) (c : Option (Coroutine L P)) : Mem L P := { m with coroutines := fun i => if i = n then c else m.coroutines i }

/-- One operation; `none`: undefined behaviour (an operation on a coroutine that is not there). -/
def step (m : Mem L P) : Op L P → Option (Mem L P × List (Ev L P))
  | .setListener l => some ({ m with listener := l }, [])
  | .handleConnection connection params =>                                          -- :65-72, 93
    some ({ m with accepted := m.accepted + 1 }.set m.accepted (some ⟨connection, params, m.listener, none⟩), [])
  | .act n throws =>                                                                -- :80-86
    match m.coroutines n with
    | none => none
    | some c =>
      let k := m.sockets.length                                                     -- :81: AsyncWebSocket::createShared(m_connection, false)
      let m' := { m with sockets := m.sockets ++ [c.connection] }.set n (some { c with socket := some k })
      match c.listener with
      | some l =>                                                                   -- :82-84
        if throws then some (m', [.afterCreate l k c.params true])                  -- the exception is the coroutine's error: no listening
        else some (m', [.afterCreate l k c.params false, .listenBegin k])           -- :85
      | none => if throws then some (m', []) else some (m', [.listenBegin k])
  | .listened n =>
    match m.coroutines n with
    | some ⟨_, _, _, some k⟩ => some (m, [.listenEnd k])
    | _ => none
  | .destroy n =>                                                                   -- :74-78
    match m.coroutines n with
    | none => none
    | some c =>
      match c.listener, c.socket with
      | some l, some k => some (m.set n none, [.beforeDestroy l k])
      | _, _ => some (m.set n none, [])

/-- Not from /repo: operations on AsyncConnectionHandler.cpp:49-95 one after the other. -/
def run (m : Mem L P) : List (Op L P) → Option (Mem L P × List (Ev L P))
  | [] => some (m, [])
  | o :: os =>
    match step m o with
    | none => none
    | some (m', tr) =>
      match run m' os with
      | none => none
      | some (m'', tr') => some (m'', tr ++ tr')

/-- A new handler (:29-39), no coroutines. -/
def Mem.init : Mem L P := ⟨none, fun _ => none, 0, []⟩

/-! ## What the executor may do -/

/-- A coroutine: not there (not yet, or destroyed), constructed, listening, done.
Not from /repo: what the executor keeps about a `SocketCoroutine` (AsyncConnectionHandler.cpp:57-88, 93). -/
inductive Status where
  | absent | created | listening | done
deriving DecidableEq, Repr

/-- External (oatpp core): the executor calls `act` once, and only lets `listenAsync` go on after it, if `act` did not throw; it destroys a coroutine once, at any time.
`next`: the number of the next connection.
The coroutine is the one of AsyncConnectionHandler.cpp:57-88, handed over at :93. -/
def legal (st : (Nat → Status) × Nat) : Op L P → Option ((Nat → Status) × Nat)
  | .setListener _ => some st
  | .handleConnection _ _ => some (fun i => if i = st.2 then .created else st.1 i, st.2 + 1)
  | .act n throws => if st.1 n = .created then some (fun i => if i = n then (if throws then .done else .listening) else st.1 i, st.2) else none
  | .listened n => if st.1 n = .listening then some (fun i => if i = n then .done else st.1 i, st.2) else none
  | .destroy n => if st.1 n ≠ .absent then some (fun i => if i = n then .absent else st.1 i, st.2) else none

/-- Not from /repo: `legal` for all operations (AsyncConnectionHandler.cpp:93). -/
def legalRun (st : (Nat → Status) × Nat) : List (Op L P) → Option ((Nat → Status) × Nat)
  | [] => some st
  | o :: os =>
    match legal st o with
    | none => none
    | some st' => legalRun st' os

end OatWS.AsyncServer
