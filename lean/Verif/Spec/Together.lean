import Verif.Spec.Client
import Verif.Spec.Session
import Verif.Spec.Speech
import Verif.Spec.Rest
import Verif.Spec.Moment
/-! # A client and a server of this library -/

namespace OatWS.Together
open Network

/-- The client's application on the connection it got from `connect` or `connectAsync`: it makes a `WebSocket` (masking or not), installs listener `l` (and perhaps a configuration; the read buffer has `B` bytes), and calls
`listen` in one thread, while others send, or does the same with an `AsyncWebSocket` and coroutines. Threads, coroutines and callbacks leave listener and buffer size alone. -/
inductive ClientOn (env : Env) (fuel l B : Nat) (c : Client.Conn) : Endpoint → Prop
  | threads (mask : Bool) (settings : List Async.Setting) (h : Header) (others : List (Threads.Prog Unit)) : lastListener settings none = some l → lastSize settings ({} : Config).readBufferSize = B → 0 < B →
      (Threads.steady l B).Reacts env → (∀ q ∈ others, (Threads.steady l B).Helper env fuel q) → ClientOn env fuel l B c (.threads (Client.threads env fuel mask settings h others c))
  | tasks (mask : Bool) (settings : List Async.Setting) (h : Header) (others : List Async.Outcome) : lastListener settings none = some l → lastSize settings ({} : Config).readBufferSize = B → 0 < B →
      (Async.fixedSettings l B).Env env → (∀ t ∈ others, (Async.fixedSettings l B).Task t) → (∀ t ∈ others, Async.Outcome.quiet t) → ClientOn env fuel l B c (.tasks (Client.tasks mask settings h others c))

/-- The server's session on its side of the connection, from which it has read nothing behind the request: of the threaded server (`onAfterCreate` may send; it and `onBeforeDestroy` do not throw), or of the asynchronous one. -/
inductive SessionOn (env : Env) (fuel l B : Nat) (sched : List IoOutcome) (out : OutStream) : Endpoint → Prop
  | threads (created destroyed : List UserOp) (h : Header) (others : List (Threads.Prog Unit)) : listenerAfter created none = some l → sizeAfter created ({} : Config).readBufferSize = B → 0 < B →
      (∀ op ∈ destroyed, (Threads.steady l B).Op op) → (Threads.steady l B).Reacts env → (∀ q ∈ others, (Threads.steady l B).Helper env fuel q) → (∀ op ∈ created, op.calm) → (∀ op ∈ destroyed, op.calm) →
      SessionOn env fuel l B sched out (.threads (Threads.newSession env fuel created h destroyed others ⟨[], sched⟩ out))
  | tasks (created : List Async.Setting) (h : Header) (others : List Async.Outcome) : lastListener created none = some l → lastSize created ({} : Config).readBufferSize = B → 0 < B →
      (Async.fixedSettings l B).Env env → (∀ t ∈ others, (Async.fixedSettings l B).Task t) → (∀ t ∈ others, Async.Outcome.quiet t) →
      SessionOn env fuel l B sched out (.tasks (Async.newSession created h others ⟨[], sched⟩ out))

/-- What applications have to keep to in a conversation: sends at one endpoint do not overlap (C69: for instance all from one thread; or a lock), nobody sends behind a close or inside another message, nothing is 2^63
bytes long. -/
def Orderly (log : List Async.Entry) : Prop := Async.Serialised log ∧ ∃ cs last, Async.callsOf log = cs ++ last ∧ Speech cs last

/-- The last call was a close. -/
def SaidClose (log : List Async.Entry) : Prop := ∃ c, c.isClose ∧ (Async.callsOf log).getLast? = some c

/-- A conversation that has come to rest: no thread or coroutine of either side can make a step any more, though the connection would still take and give bytes; nothing has failed but reads behind a close. -/
structure Rested (envA envB : Env) (a0 b0 : Endpoint) (logA logB : List Async.Entry) (a b : Endpoint) : Prop where
  rest : a.AtRest envA ∧ b.AtRest envB
  takes : a.Writable ∧ b.Writable
  gives : a.Readable ∧ b.Readable
  sends : (∀ e ∈ logA, e.failed = false) ∧ ∀ e ∈ logB, e.failed = false
  defined : a.Defined ∧ b.Defined
  unbroken : Endpoint.Unbroken envA a0 a ∧ Endpoint.Unbroken envB b0 b

end OatWS.Together
