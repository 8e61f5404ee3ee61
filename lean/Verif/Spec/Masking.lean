import Verif.Spec.Lifetime
import Verif.Spec.Network
/-! # Endpoints that mask, or do not mask, what they send -/

namespace OatWS

/-- User code does not change whether frames are masked (it may change the rest of the configuration). -/
def UserOp.MasksAs (m : Bool) : UserOp → Prop
  | .setConfig c => c.maskOutgoingMessages = m
  | _ => True

/-- The same for callbacks. -/
def Env.MasksAs (env : Env) (m : Bool) : Prop := ∀ tr, ∀ op ∈ env.react tr, op.MasksAs m

/-- A task that starts: it listens, or is any other coroutine of the application, of the operations `O` (among them sends). -/
inductive Async.TaskOf (O : UserOp → Prop) (env : Env) : Async.Task → Prop
  | listen (h : Header) : TaskOf O env (Async.listenTask h)
  | user (ops : List UserOp) : (∀ op ∈ ops, O op) → TaskOf O env (Async.userTask ops)

/-- The socket of the endpoint was created to mask (`m`), or not to, what it sends, and no thread, task or callback changes this. -/
structure Network.Endpoint.MasksAs (env : Env) (fuel : Nat) (m : Bool) (e : Network.Endpoint) : Prop where
  code : match e with
    | .threads p => ∀ q ∈ p.threads, Threads.CodeOf (UserOp.MasksAs m) env fuel q
    | .tasks p => ∀ o ∈ p.tasks, ∃ t, o = .run t ∧ Async.TaskOf (UserOp.MasksAs m) env t
  callbacks : env.MasksAs m
  config : match e with
    | .threads p => p.st.sock.config.maskOutgoingMessages = m
    | .tasks p => p.world.st.sock.config.maskOutgoingMessages = m

namespace Async
open RFC6455

/-- What the send has written is a beginning of a frame that carries its message and has the MASK bit `m`: all of the frame, if the send is completed. The masking key, if
any of it can be seen, is the four bytes that this send has taken from the random source. -/
def Sent.MaskedAs (env : Env) (m : Bool) (s : Sent) : Prop := ∃ f, Carries env s.call f ∧ f.maskKey.isSome = m ∧ s.bytes <+: f.encode ∧
  (s.state = .completed → s.bytes = f.encode) ∧ (s.bytes ≠ [] ∨ s.state = .completed → f.maskKey = s.key.map (maskBytesAt env))

end Async
end OatWS
