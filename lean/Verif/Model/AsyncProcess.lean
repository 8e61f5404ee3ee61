import Verif.Model.Async
/-!
# A process with several async sockets

An async server has a socket for each connection, and user code that runs for one of them (the coroutine that a callback returns, a coroutine of the application) may use all of them: a chat room. Sockets are
numbered; the code of the library for each of them is that of `Model/Async`. One stack of coroutines may have coroutines of several sockets: a coroutine that listens on one socket, the coroutine returned by a
callback, and on top of it a send on another socket.
-/

namespace OatWS.AsyncProcess
open Async

/-- A coroutine object.
The coroutines of AsyncWebSocket.cpp:72-145, 154-213, 223-325, 337-424, 432-456, 483-535 with the socket they belong to, or user code. -/
inductive Coro where
  /-- of the library (AsyncWebSocket.cpp), for socket `k` -/
  | lib (k : Nat) (c : Co)
  /-- of the user. What it does next, it decides when it does it, by any data it has (of which this model knows nothing). `catching`: it handles an error of the send in progress (a flag of `Async.UserCo`) -/
  | user (catching : Bool)
deriving DecidableEq, Repr

/-- As `Async.Task`: the coroutines (top first), and the objects shared by the coroutines of a `listenAsync`.
Not from /repo: as `Async.Task`, for several sockets (AsyncWebSocket.cpp:435, 440, 343). -/
structure Stack where
  coros : List Coro
  loc : Local := {}
deriving DecidableEq, Repr

/-- As `Async.Outcome`; undefined behaviour is that of code of one of the sockets.
Not from /repo: as `Async.Outcome`, for several sockets (external: the executor). -/
inductive State where
  | run (t : Stack)
  | finished
  | failed (e : AErr)
  | ub (k : Nat) (u : UB)
deriving DecidableEq, Repr

/-- A coroutine object constructed by code of socket `k`. A callback has returned a coroutine of the user: what `Env.react` says about it is ignored here.
The coroutines started at AsyncWebSocket.cpp:272, 301, 312, 359-385, 405, 412, 419, 447, 512, 514. -/
def place (k : Nat) : Co → Coro
  | .user u => .user u.catching
  | c => .lib k c

/-- `f`, but `x` at `k`.
Not from /repo: a function changed at one argument (sockets of a process, AsyncWebSocket.cpp:37-52). -/
def put {α : Type} (f : Nat → α) (k : Nat) (x : α) : Nat → α := fun j => if j = k then x else f j

/-- Propagation of an error to the coroutines below, as `Async.unwind` (the destructors, AsyncWebSocket.cpp:254-256, concern the socket of the coroutine). -/
def unwindM (e : AErr) : List Coro → Local → (Nat → World) → State × (Nat → World)
  | [], _, ws => (.failed e, ws)
  | .user c :: rest, l, ws => if c then (.run ⟨.user false :: rest, l⟩, ws) else unwindM e rest l ws
  | .lib k c :: rest, l, ws => unwindM e rest l (put ws k (destroy c (ws k)))

/-- One function call of a coroutine that uses socket `k`, with `rest` below it, as `Async.step`. A coroutine of the user is given as one that does one operation. `none`: it is blocked.
As `Async.step`; the functions are those of AsyncWebSocket.cpp:93-143, 179-211, 258-323, 352-422, 445-454, 510-533. -/
def move (env : Nat → Env) (k : Nat) (c : Co) (rest : List Coro) (l : Local) (ws : Nat → World) : Option (State × (Nat → World)) :=
  match coStep (env k) c l (ws k) with
  | (.goto c', l, w) => some (.run ⟨place k c' :: rest, l⟩, put ws k w)
  | (.call cs c', l, w) => some (.run ⟨cs.map (place k) ++ place k c' :: rest, l⟩, put ws k w)
  | (.finish, l, w) =>
    match rest with
    | [] => some (.finished, put ws k (destroy c w))
    | _ :: _ => some (.run ⟨rest, l⟩, put ws k (destroy c w))
  | (.error e, l, w) => some (unwindM e rest l (put ws k (destroy c w)))
  | (.blocked, _, _) => none
  | (.ub u, _, w) => some (.ub k u, put ws k w)

/-- What a task of the process does. -/
inductive Job where
  /-- any user code -/
  | app
  /-- it listens on socket `k`: `listenAsync` (AsyncWebSocket.cpp:430-460), as in a session of the async server (AsyncConnectionHandler.cpp:80-86) -/
  | listens (k : Nat) (h : Header)
deriving DecidableEq, Repr

/-- The task when it is started.
AsyncWebSocket.cpp:430-460 (`listenAsync`), or user code. -/
def Job.start : Job → State
  | .app => .run { coros := [.user false] }
  | .listens k h => .run { coros := [.lib k .listen], loc := { hdr := { h with opcode := 255 } } }

end OatWS.AsyncProcess
