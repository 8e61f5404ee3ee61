import Verif.Model.Threads
import Verif.Model.Async
/-!
# A whole session on a server

What the two connection handlers do with one connection, with the effect on the socket of the user code they call (the life of the objects is in
`Model/ConnectionHandler`, `Model/AsyncConnectionHandler`).
-/

namespace OatWS.Threads
open Prog

/-- A session of the threaded server (ConnectionHandler.cpp): the constructor of `Task` calls the listener's `onAfterCreate` (:45-56; `created`: what it does with
the socket), `run` calls `listen` (:70-72), the destructor calls `onBeforeDestroy` (:64-68; `destroyed`). If `onAfterCreate` throws, there is no task (nothing else happens).
The first part runs on the thread that accepts connections, the rest on the task's own thread, one after the other; here they are one thread.
Without instance listener both lists are empty. `h`: the uninitialised header of `listen`. -/
def sessionT (env : Env) (fuel : Nat) (created : List UserOp) (h : Header) (destroyed : List UserOp) : Prog Unit :=
  andThen (userOpsT env fuel created) fun _ => andThen (listenT env fuel h) fun _ => userOpsT env fuel destroyed

/-- A new session: the socket is made without masking (ConnectionHandler.cpp:51); `others`: threads to which `onAfterCreate` gives the socket, if any. -/
def newSession (env : Env) (fuel : Nat) (created : List UserOp) (h : Header) (destroyed : List UserOp) (others : List (Prog Unit)) (inp : InStream) (out : OutStream) : Pool :=
  ⟨sessionT env fuel created h destroyed :: others, { sock := Sock.newMask false out, inp := inp }⟩

end OatWS.Threads

namespace OatWS.Async

/-- A change of settings.
WebSocket.cpp:55-57 (`setConfig`), WebSocket.hpp:175-177 (`setListener`). -/
inductive Setting where
  | listener (l : Option Nat)
  | config (c : Config)

/-- Its effect (WebSocket.cpp:56, WebSocket.hpp:176). -/
def Setting.apply (s : Sock) : Setting → Sock
  | .listener l => { s with listener := l }
  | .config c => { s with config := c }

/-- A new session of the async server (AsyncConnectionHandler.cpp:80-86): the socket is made without masking, the listener's `onAfterCreate_NonBlocking`
changes settings of the socket (`created`; it can not send, but start coroutines that do: `others`), then `listenAsync` is started. -/
def newSession (created : List Setting) (h : Header) (others : List Outcome) (inp : InStream) (out : OutStream) : Pool :=
  ⟨.run (listenTask h) :: others, { st := { sock := created.foldl Setting.apply (Sock.newMask false out), inp := inp } }⟩

end OatWS.Async
