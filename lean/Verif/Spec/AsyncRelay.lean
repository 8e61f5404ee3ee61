import Verif.Spec.AsyncProcess
import Verif.Spec.Relay
/-!
# An async process that passes messages on

Executions of a process with several async sockets, with a record of what user code is told and what it does.
-/

namespace OatWS.AsyncProcess
open Async

/-- User code is told something (a callback of the listener of socket `k`; its coroutine starts), does something with socket `k`, or its coroutine ends. -/
inductive Note where
  | told (k : Nat) (e : Event)
  | did (k : Nat) (op : UserOp)
  | done
deriving DecidableEq, Repr

/-- As `Net.Runs`, with notes of what the user code of each task is told and does. -/
inductive Net.Noted (env penv : Nat → Env) (may : Nat → UserOp → Prop) (n0 : Net) : List (Nat × Entry) → List (Nat × Entry) → List (Nat × Note) → Net → Prop
  | refl : Net.Noted env penv may n0 [] [] [] n0
  | lib {la lb ns n i k c rest l s ws bs evs} : Net.Noted env penv may n0 la lb ns n → n.tasks[i]? = some (.run ⟨.lib k c :: rest, l⟩) → Task.ready ⟨[c], l⟩ (n.socks k) = true →
      move env k c rest l n.socks = some (s, ws) → (ws k).st.sock.out.written = (n.socks k).st.sock.out.written ++ bs → (ws k).st.sock.trace = (n.socks k).st.sock.trace ++ evs →
      Net.Noted env penv may n0 (la ++ [(k, entryOf (env k) i ⟨[c], l⟩ (n.socks k) (ws k) bs)]) lb (ns ++ evs.map fun e => (i, .told k e)) ⟨n.tasks.set i s, ws, put n.peers k ((n.peers k).receive bs)⟩
  | does {la lb ns n i b rest l k op s ws} : Net.Noted env penv may n0 la lb ns n → n.tasks[i]? = some (.run ⟨.user b :: rest, l⟩) → may k op →
      move env k (.user { ops := [op] }) rest l n.socks = some (s, ws) →
      Net.Noted env penv may n0 (la ++ [(k, entryOf (env k) i ⟨[.user { ops := [op] }], l⟩ (n.socks k) (ws k) [])]) lb (ns ++ [(i, .did k op)]) ⟨n.tasks.set i s, ws, n.peers⟩
  | ends {la lb ns n i b rest l} : Net.Noted env penv may n0 la lb ns n → n.tasks[i]? = some (.run ⟨.user b :: rest, l⟩) →
      Net.Noted env penv may n0 la lb (ns ++ [(i, .done)]) ⟨n.tasks.set i (if rest = [] then .finished else .run ⟨rest, l⟩), n.socks, n.peers⟩
  | peer {la lb ns n k e b} : Net.Noted env penv may n0 la lb ns n → (n.peers k).Step (penv k) e b →
      Net.Noted env penv may n0 la (lb ++ [(k, e)]) ns ⟨n.tasks, put n.socks k (reach (n.socks k) e.wrote), put n.peers k b⟩

/-- The notes on task `i`. -/
def notesOf (i : Nat) (ns : List (Nat × Note)) : List Note := (ns.filter fun x => x.1 == i).map Prod.snd

/-- What user code was told. -/
def toldIn (ns : List Note) : List Event := ns.filterMap fun
  | .told _ e => some e
  | _ => none

/-- What user code has still to say, if it passes messages on. `told`: what it was told before; `due`: what it had to say before. When a callback completes a message, this is what `f` says of it; each send takes
one away. -/
def duty (f : Msg → List (Nat × SendCall)) : List Event → List (Nat × SendCall) → List Note → List (Nat × SendCall)
  | _, due, [] => due
  | told, _, .told _ e :: ns => duty f (told ++ [e]) ((completes told e).flatMap f) ns
  | told, due, .did _ (.send _ _) :: ns => duty f told due.tail ns
  | told, due, _ :: ns => duty f told due ns

/-- The user code of a task passes messages on: when it has been told a message `m` completely, the coroutine that the callback has returned calls the sends `f m` (on whichever sockets), in order, nothing else, and all of
them before it ends. -/
def PassesOn (f : Msg → List (Nat × SendCall)) (ns : List Note) : Prop :=
  (∀ pre k c x, pre ++ [.did k (.send c x)] <+: ns → (duty f [] [] pre).head? = some (k, c)) ∧
  (∀ pre, pre ++ [.done] <+: ns → duty f [] [] pre = [])

end OatWS.AsyncProcess
