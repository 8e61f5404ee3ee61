import Verif.Model.ConnectionHandler
import Verif.Model.AsyncConnectionHandler
import Verif.Spec.ConnectionIO
/-!
# What the connection handlers do to the connections they are given

`Model/ConnectionHandler` and `Model/AsyncConnectionHandler` with the calls that switch the connection's I/O modes, what the handler's objects keep, and the CPUs
a worker thread may run on. The modes before the connection is handed over, and what others do to a connection, are arbitrary (`Act.outside`).
-/

namespace OatWS.Server

/-- The statements of `handleConnection` before the `Task` is constructed (ConnectionHandler.cpp:83-84). The other operations do not touch the modes. -/
def prelude : Op L P → List (IoEv L P)
  | .construct _ c _ _ => [.mode c .input .blocking, .mode c .output .blocking]
  | _ => []

/-- `Model/ConnectionHandler`'s `step`, with the calls to the connection.
The calls are ConnectionHandler.cpp:83-84. -/
def ioStep (m : Mem L) : Act (Op L P) → Option (Mem L × List (IoEv L P))
  | .outside c d x => some (m, [.mode c d x])
  | .op o =>
    match step m o with
    | none => none
    | some (m', evs) => some (m', prelude o ++ evs.map .ev)

/-- Not from /repo: operations one after the other (ConnectionHandler.cpp:34-100). -/
def ioRun (m : Mem L) : List (Act (Op L P)) → Option (Mem L × List (IoEv L P))
  | [] => some (m, [])
  | a :: as =>
    match ioStep m a with
    | none => none
    | some (m', tr) =>
      match ioRun m' as with
      | none => none
      | some (m'', tr') => some (m'', tr ++ tr')

/-- The handler's objects keep the connection: a `Task`'s `m_connection` (ConnectionHandler.cpp:37), or the `m_connection` of a socket (WebSocket.hpp) that a
`Task`'s `m_socket` (:40) keeps. The listener is only given a reference to the socket (:54): it cannot keep it. -/
def Mem.holds (m : Mem L) (c : Nat) : Prop :=
  ∃ i t, m.slots i = some t ∧ (t.connection = some c ∨ ∃ k, t.socket = some k ∧ m.sockets[k]? = some c)

/-- The CPUs (first, last) the worker thread is bound to, where `hardware` is `getHardwareConcurrency()` (ConnectionHandler.cpp:89-96). -/
def cpuRange (hardware : Int) : Int × Int :=
  let concurrency := if 1 < hardware then hardware - 1 else hardware                -- :90-93
  (0, concurrency - 1)                                                              -- :96

end OatWS.Server

namespace OatWS.AsyncServer
open Server

/-- The statements of `handleConnection` before the coroutine is given to the executor (AsyncConnectionHandler.cpp:90-91). -/
def prelude : Op L P → List (IoEv L P)
  | .handleConnection c _ => [.mode c .input .asynchronous, .mode c .output .asynchronous]
  | _ => []

/-- As for the threaded server; the calls are AsyncConnectionHandler.cpp:90-91. -/
def ioStep (m : Mem L P) : Act (Op L P) → Option (Mem L P × List (IoEv L P))
  | .outside c d x => some (m, [.mode c d x])
  | .op o =>
    match step m o with
    | none => none
    | some (m', evs) => some (m', prelude o ++ evs.map .ev)

/-- Not from /repo: operations one after the other (AsyncConnectionHandler.cpp:53-95). -/
def ioRun (m : Mem L P) : List (Act (Op L P)) → Option (Mem L P × List (IoEv L P))
  | [] => some (m, [])
  | a :: as =>
    match ioStep m a with
    | none => none
    | some (m', tr) =>
      match ioRun m' as with
      | none => none
      | some (m'', tr') => some (m'', tr ++ tr')

/-- The handler's objects keep the connection: a `SocketCoroutine`'s `m_connection` (AsyncConnectionHandler.cpp:59), or the `m_connection` of a socket that a
`SocketCoroutine`'s `m_socket` (:62) keeps. (The listener gets a shared pointer to the socket, and may keep it, and so the connection, as long as it likes.) -/
def Mem.holds (m : Mem L P) (c : Nat) : Prop :=
  ∃ i t, m.coroutines i = some t ∧ (t.connection = c ∨ ∃ k, t.socket = some k ∧ m.sockets[k]? = some c)

end OatWS.AsyncServer
