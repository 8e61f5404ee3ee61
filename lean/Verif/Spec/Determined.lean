import Verif.Spec.Messages
import Verif.Spec.Exec
import Verif.Spec.Threads
import Verif.Spec.Schedule
/-!
# Receivers of the same bytes

Three ways to receive: `listen` alone, `listenAsync` among other tasks, `listen` among other threads. Each of the three propositions
below says: this is a receiver of `bytes` that has been left alone (its listener is not replaced, nothing interrupts it, no read fails) and that has ended.
What it was told since it began (`evs`) and what it left unread (`left`) are given.
-/

namespace OatWS

/-- An error by which the receiver refuses what it was sent. -/
def Err.refusal : Err → Prop
  | .controlTooLong | .continuationState | .continuationExpected | .unknownFrame => True
  | _ => False

/-- `listen` on a socket on which nothing else happens, whose connection goes on as long as bytes are left. -/
structure HeardAlone (o : Bool) (bytes : List UInt8) (l B : Nat) (evs : List Event) (left : List UInt8) : Prop where
  run : ∃ (env : Env) (h : Header) (st st' : St), env.Tame ∧ env.Passive ∧ st.sock.listener = some l ∧ st.sock.config.readBufferSize = B ∧
    OpenIs o st.sock.lastOpcode ∧ Healthy (st.inp.bytes.length + 1) st.inp.sched ∧ st.inp.bytes = bytes ∧
    listen env h st = (.ret (), st') ∧ st'.sock.trace = st.sock.trace ++ evs ∧ st'.inp.bytes = left

/-- `listenAsync` among any other tasks that do not replace the listener or the buffer size, in any order, that has ended: normally, or because it refuses what it was
sent. `out` is how it has ended. -/
structure HeardAmongTasks (o : Bool) (bytes : List UInt8) (l B : Nat) (evs : List Event) (left : List UInt8) (out : Async.Outcome) : Prop where
  run : ∃ (env : Env) (h : Header) (w : Async.World) (others : List Async.Outcome) (p : Async.Pool),
    (Async.fixedSettings l B).Env env ∧ w.st.sock.listener = some l ∧ w.st.sock.config.readBufferSize = B ∧ OpenIs o w.st.sock.lastOpcode ∧
    w.st.inp.bytes = bytes ∧ (∀ t ∈ others, (Async.fixedSettings l B).Task t) ∧
    Async.Pool.Steps env ⟨.run (Async.listenTask h) :: others, w⟩ p ∧ p.tasks[0]? = some out ∧
    (out = .finished ∨ ∃ e, e.refusal ∧ out = .failed (.thrown e)) ∧
    p.world.st.sock.trace = w.st.sock.trace ++ evs ∧ p.world.st.inp.bytes = left

/-- `listen` among any other threads that do not replace the listener or the buffer size, in any order, that has returned although listening is still on; callbacks do
not throw and no read fails. -/
structure HeardAmongThreads (o : Bool) (bytes : List UInt8) (l B : Nat) (evs : List Event) (left : List UInt8) : Prop where
  run : ∃ (C : Threads.Rules) (env : Env) (fuel : Nat) (h : Header) (st : St) (others : List (Threads.Prog Unit)) (p : Threads.Pool),
    C.listener = (· = l) ∧ C.size = B ∧ C.Reacts env ∧ C.In o st ∧ C.Fine ∧ env.Calm ∧ st.inp.bytes = bytes ∧ (∀ q ∈ others, C.Helper env fuel q) ∧
    Threads.Pool.Steps env ⟨Threads.listenT env fuel h :: others, st⟩ p ∧ p.threads[0]? = some (.ret ()) ∧ p.st.sock.listening = true ∧
    p.st.sock.trace = st.sock.trace ++ evs ∧ p.st.inp.bytes = left

/-- One of the three. -/
def HeardBy (o : Bool) (bytes : List UInt8) (l B : Nat) (evs : List Event) (left : List UInt8) : Prop :=
  HeardAlone o bytes l B evs left ∨ (∃ out, HeardAmongTasks o bytes l B evs left out) ∨ HeardAmongThreads o bytes l B evs left

end OatWS
