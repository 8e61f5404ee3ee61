import Verif.Model.Session
/-!
# A process with several sockets

A server has a socket for each session, and user code that runs in one session (a callback, `onAfterCreate`, a thread of the application) may use the sockets of all others: a
chat room. Sockets are numbered; the code of the library for each of them is that of `Model/Threads`.
-/

namespace OatWS.Process
open Threads

/-- As `Threads.Prog`; each step is on one of the sockets (and undefined behaviour is that of code of one of them; `stuck`, as there, that its fuel is used up). `choose`: user code looks at whatever data it has (of which this model knows nothing) and decides what to do next: a list of
operations on sockets.
Not from /repo: as `Threads.Prog`, for the threads of a process with several sockets (WebSocket.cpp:38-53 each). -/
inductive Code (α : Type) where
  | ret (a : α)
  | throw (e : Err)
  | ub (k : Nat) (u : UB)
  | stuck (k : Nat)
  | act (k : Nat) (a : Act) (c : a.Res → Code α)
  | choose (c : List (Nat × UserOp) → Code α)

namespace Code
variable {α β : Type}

/-- `p; f`. Not from /repo: C++ sequencing. -/
def andThen : Code α → (α → Code β) → Code β
  | .ret a, f => f a
  | .throw e, _ => .throw e
  | .ub k u, _ => .ub k u
  | .stuck k, _ => .stuck k
  | .act k a c, f => .act k a fun r => andThen (c r) f
  | .choose c, f => .choose fun cs => andThen (c cs) f

/-- `try { p } catch (e) { f e }`.
Not from /repo: C++ `try`/`catch` (used for WebSocket.cpp:284-294). -/
def catching : Code α → (Err → Code α) → Code α
  | .ret a, _ => .ret a
  | .throw e, f => f e
  | .ub k u, _ => .ub k u
  | .stuck k, _ => .stuck k
  | .act k a c, f => .act k a fun r => catching (c r) f
  | .choose c, f => .choose fun cs => catching (c cs) f

/-- A program of the library, on socket `k`.
Not from /repo: the programs of `Model/Threads` (WebSocket.cpp:59-391) on one of several sockets. -/
def on (k : Nat) : Prog α → Code α
  | .ret a => .ret a
  | .throw e => .throw e
  | .ub u => .ub k u
  | .stuck => .stuck k
  | .act a c => .act k a fun r => on k (c r)

/-- The same; whenever it has called a method of the listener, this runs the code `user`.
The callbacks are those of WebSocket.cpp:175, 181, 198, 243, 253, 263. -/
def weave (k : Nat) (user : Code Unit) : Prog α → Code α
  | .ret a => .ret a
  | .throw e => .throw e
  | .ub u => .ub k u
  | .stuck => .stuck k
  | .act (.callback e) c => .act k (.callback e) fun tr => andThen user fun _ => weave k user (c tr)
  | .act a c => .act k a fun r => weave k user (c r)

end Code
open Code

/-- Operations of user code on any of the sockets, one after the other. `env k`: as in `Model/WebSocket`, for socket `k`.
Not from /repo: user code that calls WebSocket.cpp:55-57, 298-391 and WebSocket.hpp:175. -/
def opsM (env : Nat → Env) (fuel : Nat) : List (Nat × UserOp) → Code Unit
  | [] => .ret ()
  | (k, op) :: cs => (on k (userOpT (env k) fuel op)).andThen fun _ => opsM env fuel cs

/-- User code. Not from /repo. -/
def userM (env : Nat → Env) (fuel : Nat) : Code Unit := .choose fun cs => opsM env fuel cs

/-- The library's part of callbacks: it calls the method of the listener and goes on when this returns. What the method does is user code.
WebSocket.cpp:175, 181, 198, 243, 253, 263. -/
def mute (env : Env) : Env := { env with react := fun _ => [] }

/-- `WebSocket::listen` (WebSocket.cpp:280-296) of socket `k`; callbacks run user code. -/
def listenM (env : Nat → Env) (fuel : Nat) (k : Nat) (h : Header) : Code Unit :=
  (weave k (userM env fuel) (.act (.setListening true) fun _ => listenLoopT (mute (env k)) fuel fuel h)).catching fun _ => .ret ()

/-- What a thread of the process does. -/
inductive Job where
  /-- any user code -/
  | app
  /-- it listens on a socket -/
  | listens (k : Nat) (h : Header)
  /-- it is the session of a socket on the server (as `Threads.sessionT`; ConnectionHandler.cpp:45-72) -/
  | session (k : Nat) (h : Header)

/-- Its code.
ConnectionHandler.cpp:51-71 (a session of the server), WebSocket.cpp:280-296 (`listen`), or user code. -/
def Job.code (env : Nat → Env) (fuel : Nat) : Job → Code Unit
  | .app => userM env fuel
  | .listens k h => listenM env fuel k h
  | .session k h => (userM env fuel).andThen fun _ => (listenM env fuel k h).andThen fun _ => userM env fuel

end OatWS.Process
