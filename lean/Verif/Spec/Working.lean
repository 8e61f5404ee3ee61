import Verif.Spec.Defined
import Verif.Spec.Together
/-! # A connection that does not fail, and applications that do nothing to end listening -/

namespace OatWS

/-- The operation does nothing undefined, and does not throw; `B`: the size of the read buffer. -/
def UserOp.Proper (B : Int) (op : UserOp) : Prop := op.Careful B ∧ op ≠ .throw

/-- What callbacks, threads and coroutines may do: send (less than 2 GiB at a time), and set listener, configuration and masking again, as long as listener `l` and the size `B` of the read buffer stay. They do not throw, and do
not call `stopListening`. -/
def UserOp.Keeps (l B : Nat) : UserOp → Prop
  | .setListener x => x = some l
  | .setConfig c => c.readBufferSize = B
  | .send c _ => c.content.2.2.length < 2 ^ 31
  | .stopListening => False
  | .throw => False

/-- What `onAfterCreate` of a threaded server may do: send, install any listeners, set read buffers of any size but 0. -/
def UserOp.Starts : UserOp → Prop
  | .setListener _ => True
  | .setConfig c => 0 < c.readBufferSize
  | .send c _ => c.content.2.2.length < 2 ^ 31
  | .stopListening => False
  | .throw => False

/-- Whatever the listeners do in callbacks. -/
def Env.Keeps (env : Env) (l B : Nat) : Prop := ∀ tr, ∀ op ∈ env.react tr, op.Keeps l B

namespace Together
open Network

/-- As `ClientOn`, with an application that does nothing to end listening. It need not catch what sends throw. -/
inductive Client (env : Env) (fuel l B : Nat) (c : Client.Conn) : Endpoint → Prop
  | threads (mask : Bool) (settings : List Async.Setting) (h : Header) (others : List (Threads.Prog Unit)) : lastListener settings none = some l → lastSize settings ({} : Config).readBufferSize = B → 0 < B →
      env.Keeps l B → (∀ q ∈ others, Threads.HelperCode (UserOp.Keeps l B) env fuel q) → Client env fuel l B c (.threads (Client.threads env fuel mask settings h others c))
  | tasks (mask : Bool) (settings : List Async.Setting) (h : Header) (others : List (List UserOp)) : lastListener settings none = some l → lastSize settings ({} : Config).readBufferSize = B → 0 < B →
      env.Keeps l B → (∀ ops ∈ others, ∀ op ∈ ops, op.Keeps l B) → Client env fuel l B c (.tasks (Client.tasks mask settings h (others.map fun ops => .run (Async.userTask ops)) c))

/-- As `SessionOn`, with an application that does nothing to end listening. -/
inductive Session (env : Env) (fuel l B : Nat) (sched : List IoOutcome) (out : OutStream) : Endpoint → Prop
  | threads (created destroyed : List UserOp) (h : Header) (others : List (Threads.Prog Unit)) : listenerAfter created none = some l → sizeAfter created ({} : Config).readBufferSize = B → 0 < B →
      (∀ op ∈ created, op.Starts) → (∀ op ∈ destroyed, op.Keeps l B) → env.Keeps l B → (∀ q ∈ others, Threads.HelperCode (UserOp.Keeps l B) env fuel q) →
      Session env fuel l B sched out (.threads (Threads.newSession env fuel created h destroyed others ⟨[], sched⟩ out))
  | tasks (created : List Async.Setting) (h : Header) (others : List (List UserOp)) : lastListener created none = some l → lastSize created ({} : Config).readBufferSize = B → 0 < B →
      env.Keeps l B → (∀ ops ∈ others, ∀ op ∈ ops, op.Keeps l B) → Session env fuel l B sched out (.tasks (Async.newSession created h (others.map fun ops => .run (Async.userTask ops)) ⟨[], sched⟩ out))

/-- The connection does not fail: low-level calls take or give some bytes, or ask to retry. -/
def Reliable (e : Endpoint) : Prop := (∀ o ∈ e.st.inp.sched, o.fine = true) ∧ ∀ o ∈ e.st.sock.out.sched, o.fine = true

end Together

/-- More than the bytes of the frames of these calls. -/
def Network.atMost : List SendCall → Nat
  | [] => 0
  | c :: cs => c.content.2.2.length + 14 + atMost cs

namespace Together
open Network

/-- Listening is over: the thread that listened has returned, the coroutine has finished. -/
def Over : Endpoint → Prop
  | .threads p => ∃ q, p.threads[0]? = some q ∧ Threads.IsAt q (.ret ())
  | .tasks p => p.tasks[0]? = some .finished

/-- The connection lasts for what is said at both sides: it would take, and give, more than all the bytes of the frames. -/
structure Lasts (a0 b0 : Endpoint) (logA logB : List Async.Entry) : Prop where
  takesA : atMost (Async.callsOf logA) < a0.st.sock.out.sched.countP IoOutcome.moves
  takesB : atMost (Async.callsOf logB) < b0.st.sock.out.sched.countP IoOutcome.moves
  givesA : atMost (Async.callsOf logB) < a0.st.inp.sched.countP IoOutcome.moves
  givesB : atMost (Async.callsOf logA) < b0.st.inp.sched.countP IoOutcome.moves

end Together
end OatWS
