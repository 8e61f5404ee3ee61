import Verif.Model.Process
import Verif.Spec.Network
/-!
# Executions of a process with several sockets, each connected to a peer

And what one of the sockets sees of them.
-/

namespace OatWS.Process
open Threads Async

/-- The process, and at the other end of the connection of each socket a peer (of any kind). -/
structure Net where
  threads : List (Code Unit)
  socks : Nat → St
  peers : Nat → Network.Endpoint

/-- `f`, but `x` at `k`. -/
def upd {α : Type} (f : Nat → α) (k : Nat) (x : α) : Nat → α := fun j => if j = k then x else f j

/-- Bytes arrive. -/
def arrive (st : St) (bs : List UInt8) : St := { st with inp := ⟨st.inp.bytes ++ bs, st.inp.sched⟩ }

/-- Any number of steps of threads of the process and of peers, in any order; what is written at one end of a connection arrives at the other. With the records of the steps: of the process, by socket, and of the
peers. `may k op`: what user code does with socket `k`. -/
inductive Net.Runs (env penv : Nat → Env) (may : Nat → UserOp → Prop) (n0 : Net) : List (Nat × Entry) → List (Nat × Entry) → Net → Prop
  | refl : Net.Runs env penv may n0 [] [] n0
  | own {la lb n i k a c r st'} : Net.Runs env penv may n0 la lb n → n.threads[i]? = some (.act k a c) → Ready a (n.socks k) = true → exec (env k) a (n.socks k) = some (r, st') →
      Net.Runs env penv may n0 (la ++ [(k, entry i a (n.socks k) st')]) lb
        ⟨n.threads.set i (c r), upd n.socks k st', upd n.peers k ((n.peers k).receive (entry i a (n.socks k) st').wrote)⟩
  | chooses {la lb n i c cs} : Net.Runs env penv may n0 la lb n → n.threads[i]? = some (.choose c) → (∀ x ∈ cs, may x.1 x.2) →
      Net.Runs env penv may n0 la lb ⟨n.threads.set i (c cs), n.socks, n.peers⟩
  | peer {la lb n k e b} : Net.Runs env penv may n0 la lb n → (n.peers k).Step (penv k) e b →
      Net.Runs env penv may n0 la (lb ++ [(k, e)]) ⟨n.threads, upd n.socks k (arrive (n.socks k) e.wrote), upd n.peers k b⟩

/-- The part of a record that is about socket `k`. -/
def of (k : Nat) (log : List (Nat × Entry)) : List Entry := (log.filter fun x => x.1 == k).map Prod.snd

/-- With threads numbered differently. -/
def renumber (f : Nat → Nat) (log : List Entry) : List Entry := log.map fun e => { e with task := f e.task }

/-- The socket on which the thread listens. -/
def Job.socket : Job → Option Nat
  | .app => none
  | .listens k _ => some k
  | .session k _ => some k

/-- What user code does with socket `k`, or it ends with an exception (which may come from another socket). -/
def OrThrows (may : UserOp → Prop) (op : UserOp) : Prop := may op ∨ op = .throw

/-- The thread, as socket `k` sees it: if it listens on this socket, just this; otherwise a thread that calls methods of the socket. -/
def Job.SeenAs (O : UserOp → Prop) (env : Env) (fuel k : Nat) (q : Prog Unit) : Job → Prop
  | .app => HelperCode O env fuel q
  | .listens k' h => (k' = k ∧ q = listenT env fuel h) ∨ (k' ≠ k ∧ HelperCode O env fuel q)
  | .session k' h => (k' = k ∧ ∃ created destroyed, (∀ op ∈ created ++ destroyed, O op) ∧ q = sessionT env fuel created h destroyed) ∨
      (k' ≠ k ∧ HelperCode O env fuel q)

/-- Where a thread of the process is, and where it is as socket `k` sees it: about to make the same step, if this is one on socket `k`; both have returned, both have thrown, or both have reached undefined behaviour in code of socket `k`. -/
structure Tracks {α : Type} (k : Nat) (g : Code α) (q : Prog α) : Prop where
  act : ∀ a c, g = .act k a c → ∃ c', q = .act a c'
  ret : ∀ x, g = .ret x → q = .ret x
  throw : ∀ e, g = .throw e → ∃ e', q = .throw e'
  ub : ∀ u, g = .ub k u → q = .ub u
  stuck : g = .stuck k → q = .stuck

end OatWS.Process
