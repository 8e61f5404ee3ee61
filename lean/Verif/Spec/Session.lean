import Verif.Model.Session
import Verif.Spec.Rest
/-! # A whole session on a server: what its user code keeps to -/

namespace OatWS

/-- The listener installed when user code is over, and what it was before. -/
def listenerAfter : List UserOp → Option Nat → Option Nat
  | [], l => l
  | .setListener l :: ops, _ => listenerAfter ops l
  | _ :: ops, l => listenerAfter ops l

/-- The same for the size of the read buffer. -/
def sizeAfter : List UserOp → Int → Int
  | [], n => n
  | .setConfig c :: ops, _ => sizeAfter ops c.readBufferSize
  | _ :: ops, n => sizeAfter ops n

/-- The same for the settings that a session of the async server starts with: the listener installed last (none by default). -/
def lastListener : List Async.Setting → Option Nat → Option Nat
  | [], l => l
  | .listener l :: ss, _ => lastListener ss l
  | .config _ :: ss, l => lastListener ss l

/-- The size of the read buffer set last. -/
def lastSize : List Async.Setting → Int → Int
  | [], n => n
  | .listener _ :: ss, n => lastSize ss n
  | .config c :: ss, _ => lastSize ss c.readBufferSize

/-- The sends that user code calls, if none fails. -/
def said : List UserOp → List SendCall
  | [] => []
  | .throw :: _ => []
  | .send c _ :: ops => c :: said ops
  | _ :: ops => said ops

/-- What the listener says in callbacks `evs`, when there have been callbacks `tr` before. -/
def replies (env : Env) : List Event → List Event → List SendCall
  | _, [] => []
  | tr, e :: evs => said (env.react (tr ++ [e])) ++ replies env (tr ++ [e]) evs

namespace Threads

/-- A session of the threaded server with a socket that has received nothing yet. `onAfterCreate` (`created`) may send, install listeners and configurations; when it is
over, listener `l` is installed, and the size of the read buffer is `B`. That stays so: callbacks, `onBeforeDestroy` (`destroyed`) and other threads send, stop
listening, change whether to mask. -/
structure Session (env : Env) (fuel l B : Nat) (created destroyed : List UserOp) (p : Pool) : Prop where
  threads : ∃ h others, p.threads = sessionT env fuel created h destroyed :: others ∧ ∀ q ∈ others, (steady l B).Helper env fuel q
  listener : listenerAfter created p.st.sock.listener = some l
  bufferSize : sizeAfter created p.st.sock.config.readBufferSize = B
  destroyed : ∀ op ∈ destroyed, (steady l B).Op op
  callbacks : (steady l B).Reacts env
  size : 0 < B
  noMessage : OpenIs false p.st.sock.lastOpcode
  nothing : p.st.inp.bytes = []

end Threads

/-- The first thread has returned. -/
def Network.Endpoint.Over : Network.Endpoint → Prop
  | .threads p => ∃ u, p.threads[0]? = some (.ret u)
  | .tasks _ => False

/-- All sends are called by one and the same thread or task. -/
def Async.OneSender (log : List Async.Entry) : Prop := ∃ i, ∀ e ∈ log, e.called.isSome → e.task = i

end OatWS
