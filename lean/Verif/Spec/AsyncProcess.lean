import Verif.Model.AsyncProcess
import Verif.Spec.Process
/-!
# Executions of a process with several async sockets, each connected to a peer

And what one of the sockets sees of them.
-/

namespace OatWS.AsyncProcess
open Async
open Process (of renumber OrThrows)

/-- The process, and at the other end of the connection of each socket a peer (of any kind). -/
structure Net where
  tasks : List State
  socks : Nat → World
  peers : Nat → Network.Endpoint

/-- Bytes arrive. -/
def reach (w : World) (bs : List UInt8) : World := w.setInp ⟨w.st.inp.bytes ++ bs, w.st.inp.sched⟩

/-- Any number of steps of tasks of the process and of peers, in any order; what is written at one end of a connection arrives at the other. With the records of the steps: of the process, by socket, and of the
peers. A task makes a step in the library, or in user code: this does something with one of the sockets (`may k op`: what user code does with socket `k`), or its coroutine ends. -/
inductive Net.Runs (env penv : Nat → Env) (may : Nat → UserOp → Prop) (n0 : Net) : List (Nat × Entry) → List (Nat × Entry) → Net → Prop
  | refl : Net.Runs env penv may n0 [] [] n0
  | lib {la lb n i k c rest l s ws bs} : Net.Runs env penv may n0 la lb n → n.tasks[i]? = some (.run ⟨.lib k c :: rest, l⟩) → Task.ready ⟨[c], l⟩ (n.socks k) = true →
      move env k c rest l n.socks = some (s, ws) → (ws k).st.sock.out.written = (n.socks k).st.sock.out.written ++ bs →
      Net.Runs env penv may n0 (la ++ [(k, entryOf (env k) i ⟨[c], l⟩ (n.socks k) (ws k) bs)]) lb ⟨n.tasks.set i s, ws, put n.peers k ((n.peers k).receive bs)⟩
  | does {la lb n i b rest l k op s ws} : Net.Runs env penv may n0 la lb n → n.tasks[i]? = some (.run ⟨.user b :: rest, l⟩) → may k op →
      move env k (.user { ops := [op] }) rest l n.socks = some (s, ws) →
      Net.Runs env penv may n0 (la ++ [(k, entryOf (env k) i ⟨[.user { ops := [op] }], l⟩ (n.socks k) (ws k) [])]) lb ⟨n.tasks.set i s, ws, n.peers⟩
  | ends {la lb n i b rest l} : Net.Runs env penv may n0 la lb n → n.tasks[i]? = some (.run ⟨.user b :: rest, l⟩) →
      Net.Runs env penv may n0 la lb ⟨n.tasks.set i (if rest = [] then .finished else .run ⟨rest, l⟩), n.socks, n.peers⟩
  | peer {la lb n k e b} : Net.Runs env penv may n0 la lb n → (n.peers k).Step (penv k) e b →
      Net.Runs env penv may n0 la (lb ++ [(k, e)]) ⟨n.tasks, put n.socks k (reach (n.socks k) e.wrote), put n.peers k b⟩

/-- The socket on which the task listens. -/
def Job.socket : Job → Option Nat
  | .app => none
  | .listens k _ => some k

/-- A step in which nothing happened that a record is about. -/
def idle (e : Entry) : Bool := e.called.isNone && e.wrote.isEmpty && e.drew.isNone && !e.completed && !e.failed

/-- A record without these. -/
def said (log : List Entry) : List Entry := log.filter fun e => !idle e

/-- The task when it is started, as socket `k` sees it: if it listens on this socket, just this; otherwise a task of the application that does such things. -/
def Job.SeenAs (O : UserOp → Prop) (k : Nat) (o : Outcome) : Job → Prop
  | .app => ∃ ops, (∀ op ∈ ops, O op) ∧ o = .run (userTask ops)
  | .listens k' h => (k' = k ∧ o = .run (listenTask h)) ∨ (k' ≠ k ∧ ∃ ops, (∀ op ∈ ops, O op) ∧ o = .run (userTask ops))

/-- Where a task of the process is, and where it is as socket `k` sees it: in the same function of the same coroutine, if this is one of socket `k`; in user code, if it is one of another
socket; both have finished; both have failed; both have reached undefined behaviour in code of socket `k`. -/
structure Tracks (k : Nat) (s : State) (o : Outcome) : Prop where
  at_ : ∀ c rest l, s = .run ⟨.lib k c :: rest, l⟩ → ∃ rest' l', o = .run ⟨c :: rest', l'⟩
  elsewhere : ∀ j c rest l, j ≠ k → s = .run ⟨.lib j c :: rest, l⟩ → ∃ u rest' l', o = .run ⟨.user u :: rest', l'⟩
  ub : ∀ u, s = .ub k u → o = .ub u
  finished : s = .finished → o = .finished
  failed : ∀ e, s = .failed e → ∃ e', o = .failed e'

end OatWS.AsyncProcess
