import Verif.Spec.Exec
/-!
# Memory for reception

What a task of an asynchronous socket needs while it receives: coroutine objects, the buffer for payloads, the content of a control frame.
-/

namespace OatWS.Async

/-- The buffer that belongs to the coroutine, with its size (`ReadPayloadCoroutine`, AsyncWebSocket.cpp:236-256). -/
def Co.buffer : Co → Option (Nat × Nat)
  | .readPayload c => some (c.buf, c.cap)
  | _ => none

/-- The buffers of all coroutines of the task. -/
def Task.buffers (t : Task) : List (Nat × Nat) := t.stack.filterMap Co.buffer

/-- The same, of a task in any state. -/
def Outcome.buffers : Outcome → List (Nat × Nat)
  | .run t => t.buffers
  | _ => []

/-- The buffers of all tasks. -/
def Pool.buffers (p : Pool) : List (Nat × Nat) := p.tasks.flatMap Outcome.buffers

/-- A task as the application starts it: `listenAsync`, a send, or any other coroutine of its own. -/
inductive Outcome.Starts (env : Env) : Outcome → Prop
  | listen (h : Header) : Outcome.Starts env (.run (listenTask h))
  | send (c : SendCall) : Outcome.Starts env (.run (sendTask env c))
  | user (ops : List UserOp) : Outcome.Starts env (.run (userTask ops))

/-- It installs no configuration with a read buffer of more than `B` bytes. -/
def _root_.OatWS.UserOp.sized (B : Nat) (op : UserOp) : Prop := ∀ c, op = .setConfig c → c.readBufferSize ≤ B

/-- What the callback is given: of a data frame at most `B` bytes, of a control frame at most 125. -/
def _root_.OatWS.Event.Little (B : Nat) : Event → Prop
  | .readMessage _ _ d => d.length ≤ B
  | .onPing _ m => m.length ≤ 125
  | .onPong _ m => m.length ≤ 125
  | .onClose _ _ m => m.length ≤ 125

/-- Every task as started; nobody ever asks for a read buffer of more than `B` bytes; no buffers and no callbacks yet. -/
structure Sized (env : Env) (B : Nat) (p : Pool) : Prop where
  starts : ∀ o ∈ p.tasks, o.Starts env
  ops : ∀ ops, .run (userTask ops) ∈ p.tasks → ∀ op ∈ ops, op.sized B
  callbacks : ∀ tr, ∀ op ∈ env.react tr, op.sized B
  config : p.world.st.sock.config.readBufferSize ≤ B
  heap : p.world.heap = []
  trace : p.world.st.sock.trace = []

end OatWS.Async
