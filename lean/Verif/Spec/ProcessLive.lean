import Verif.Spec.ProcessRest
/-! # Steps of a process with several sockets, and of its peers -/

namespace OatWS.Process
open Threads

/-- One step of a thread of the process or of a peer (as in `Net.Runs`). -/
inductive Net.Step (env penv : Nat → Env) (may : Nat → UserOp → Prop) (n : Net) : Net → Prop
  | own {i k a c r st'} : n.threads[i]? = some (.act k a c) → Ready a (n.socks k) = true → exec (env k) a (n.socks k) = some (r, st') →
      Net.Step env penv may n ⟨n.threads.set i (c r), upd n.socks k st', upd n.peers k ((n.peers k).receive (entry i a (n.socks k) st').wrote)⟩
  | chooses {i c cs} : n.threads[i]? = some (.choose c) → (∀ x ∈ cs, may x.1 x.2) → Net.Step env penv may n ⟨n.threads.set i (c cs), n.socks, n.peers⟩
  | peer {k e b} : (n.peers k).Step (penv k) e b → Net.Step env penv may n ⟨n.threads, upd n.socks k (arrive (n.socks k) e.wrote), upd n.peers k b⟩

/-- Only finitely many peers have something to do. -/
def Net.Finite (penv : Nat → Env) (n : Net) : Prop := ∃ N, ∀ k, N ≤ k → (n.peers k).AtRest (penv k)

end OatWS.Process

namespace OatWS.AsyncProcess
open Async

/-- One step of a task of the process or of a peer (as in `Net.Runs`). `acts`: in this step, user code does something with a socket. -/
inductive Net.Step (env penv : Nat → Env) (may : Nat → UserOp → Prop) (n : Net) : (acts : Bool) → Net → Prop
  | lib {i k c rest l s ws bs} : n.tasks[i]? = some (.run ⟨.lib k c :: rest, l⟩) → Task.ready ⟨[c], l⟩ (n.socks k) = true → move env k c rest l n.socks = some (s, ws) →
      (ws k).st.sock.out.written = (n.socks k).st.sock.out.written ++ bs → Net.Step env penv may n false ⟨n.tasks.set i s, ws, put n.peers k ((n.peers k).receive bs)⟩
  | does {i b rest l k op s ws} : n.tasks[i]? = some (.run ⟨.user b :: rest, l⟩) → may k op → move env k (.user { ops := [op] }) rest l n.socks = some (s, ws) →
      Net.Step env penv may n true ⟨n.tasks.set i s, ws, n.peers⟩
  | ends {i b rest l} : n.tasks[i]? = some (.run ⟨.user b :: rest, l⟩) → Net.Step env penv may n false ⟨n.tasks.set i (if rest = [] then .finished else .run ⟨rest, l⟩), n.socks, n.peers⟩
  | peer {k e b} : (n.peers k).Step (penv k) e b → Net.Step env penv may n false ⟨n.tasks, put n.socks k (reach (n.socks k) e.wrote), put n.peers k b⟩

/-- Only finitely many peers have something to do. -/
def Net.Finite (penv : Nat → Env) (n : Net) : Prop := ∃ N, ∀ k, N ≤ k → (n.peers k).AtRest (penv k)

end OatWS.AsyncProcess
