import Verif.Model.Async
import Verif.Spec.Threads
/-!
# Who keeps a listener in existence

The socket, the coroutine objects and perhaps the application have shared pointers to listeners. A listener is destroyed when nobody has one.
-/

namespace OatWS

/-- Somebody has a shared pointer to listener `l`: the socket (`m_listener`), or the application (`kept`). For the blocking socket there is nobody else: callbacks
are called through `m_listener` (WebSocket.cpp:175, 181, 198, 243, 253, 263). -/
def Owned (kept : Nat → Prop) (s : Sock) (l : Nat) : Prop := s.listener = some l ∨ kept l

/-- User code installs only such listeners (or none). -/
def UserOp.Installs (I : Option Nat → Prop) : UserOp → Prop
  | .setListener l => I l
  | _ => True

/-- Callbacks install only such listeners. -/
def Env.Installs (env : Env) (I : Option Nat → Prop) : Prop := ∀ tr, ∀ op ∈ env.react tr, op.Installs I

/-- Code of an application that receives and sends, of the operations `O`. -/
inductive Threads.CodeOf (O : UserOp → Prop) (env : Env) (fuel : Nat) : {α : Type} → Threads.Prog α → Prop
  | helper {α : Type} {p : Threads.Prog α} : Threads.HelperCode O env fuel p → CodeOf O env fuel p
  | bind {α β : Type} {p : Threads.Prog α} {f : α → Threads.Prog β} : CodeOf O env fuel p → (∀ a, CodeOf O env fuel (f a)) → CodeOf O env fuel (Threads.Prog.andThen p f)
  | catching {α : Type} {p : Threads.Prog α} {f : Err → Threads.Prog α} : CodeOf O env fuel p → (∀ e, CodeOf O env fuel (f e)) →
      CodeOf O env fuel (Threads.Prog.catching p f)
  | listen (h : Header) : CodeOf O env fuel (Threads.listenT env fuel h)
  | iterate (h : Header) : CodeOf O env fuel (Threads.iterateFrameT env fuel h)
  | getListener : CodeOf O env fuel (Threads.Prog.step .getListener)

namespace Async

/-- The listener that a coroutine object has a shared pointer to (`m_listener`, AsyncWebSocket.cpp:229, 341). -/
def Co.holds : Co → Option Nat
  | .readPayload c => c.listener
  | .handleFrame c => c.listener
  | _ => none

/-- The coroutine was returned by a method of this listener. -/
def Co.of : Co → Option Nat
  | .user c => c.self
  | _ => none

/-- A task that starts: it listens, sends, or is any other coroutine of the application that uses the socket. -/
inductive Starting (env : Env) : Task → Prop
  | listen (h : Header) : Starting env (listenTask h)
  | send (c : SendCall) : Starting env (sendTask env c)
  | user (ops : List UserOp) : Starting env (userTask ops)

/-- The same, where the application installs only such listeners. -/
inductive StartingOf (I : Option Nat → Prop) (env : Env) : Task → Prop
  | listen (h : Header) : StartingOf I env (listenTask h)
  | send (c : SendCall) : StartingOf I env (sendTask env c)
  | user (ops : List UserOp) : (∀ op ∈ ops, op.Installs I) → StartingOf I env (userTask ops)

end Async
end OatWS
