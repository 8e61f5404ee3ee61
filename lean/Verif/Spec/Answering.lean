import Verif.Spec.Working
import Verif.Spec.Service
/-! # A server that answers, over a connection that does not fail -/

namespace OatWS.Together
open Network

/-- A server whose listener `l` answers each message `m` with `f m`: `onAfterCreate` installs the listener, and perhaps a configuration (the read buffer has `B` bytes); the listener's callbacks do nothing but send (they need not catch
what sends throw); nobody else sends. -/
inductive Answering (env : Env) (fuel l B : Nat) (f : Msg → List SendCall) (sched : List IoOutcome) (out : OutStream) : Endpoint → Prop
  | threads (created destroyed : List UserOp) (h : Header) : listenerAfter created none = some l → sizeAfter created ({} : Config).readBufferSize = B → 0 < B →
      (∀ op ∈ created, op.Starts) → (∀ op ∈ destroyed, op.Keeps l B) → said created = [] → said destroyed = [] → (∀ tr, ∀ op ∈ env.react tr, ∃ c catches, op = .send c catches) → env.Serves f →
      Answering env fuel l B f sched out (.threads (Threads.newSession env fuel created h destroyed [] ⟨[], sched⟩ out))
  | tasks (created : List Async.Setting) (h : Header) : lastListener created none = some l → lastSize created ({} : Config).readBufferSize = B → 0 < B →
      (∀ tr, ∀ op ∈ env.react tr, ∃ c catches, op = .send c catches) → env.Serves f → Answering env fuel l B f sched out (.tasks (Async.newSession created h [] ⟨[], sched⟩ out))

/-- Calls that can be made one after the other: no close but at the end, nobody sends inside another message, and nothing is 2 GiB long. -/
def Sayable (calls : List SendCall) : Prop := (∃ cs last, calls = cs ++ last ∧ Speech cs last) ∧ ∀ c ∈ calls, c.content.2.2.length < 2 ^ 31

/-- The connection lasts for these calls at the client, and these answers of the server. -/
structure LastsFor (a0 b0 : Endpoint) (calls answers : List SendCall) : Prop where
  takesA : atMost calls < a0.st.sock.out.sched.countP IoOutcome.moves
  takesB : atMost answers < b0.st.sock.out.sched.countP IoOutcome.moves
  givesA : atMost answers < a0.st.inp.sched.countP IoOutcome.moves
  givesB : atMost calls < b0.st.inp.sched.countP IoOutcome.moves

/-- The last of the calls is a close. -/
def ClosesLast (calls : List SendCall) : Prop := ∃ c, c.isClose ∧ calls.getLast? = some c

end OatWS.Together
