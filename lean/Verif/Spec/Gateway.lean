import Verif.Model.Gateway
import Verif.Spec.Polling
import Verif.Spec.Reentrant
import Verif.Spec.Send
/-! # One thread that reads from sockets inside callbacks of other sockets -/

namespace OatWS.Gateway
open Reentrant (NestedOp)

/-- The operation reads from the socket. -/
def Reads : NestedOp → Prop
  | .op _ => False
  | _ => True

/-- Sockets are in layers: in callbacks of a socket, the code reads only from sockets of higher layers (a gateway reads from its back ends in callbacks of its clients). Outside of callbacks it may read from all. -/
def Code.Layered (c : Code) (layer : Nat → Nat) : Prop := ∀ tr k e i now j op, c.next (tr ++ [(k, e)]) i now = some (j, op) → Reads op → layer k < layer j

/-- The code leaves listeners and configurations alone, and catches exceptions of what it calls. -/
def Code.Careful (c : Code) : Prop := ∀ tr i now j op, c.next tr i now = some (j, op) → match op with
  | .op u => u.tame ∧ u ≠ .throw ∧ ∀ call, u ≠ .send call false
  | .iterate catches => catches = true
  | .listen => True

/-- An environment where callbacks do nothing (what they do is said by `Code.next`). -/
def silent (env : Env) : Env := { env with react := fun _ => [] }

/-- The two states of a socket are the same for the receiving side: unread bytes and what the connection will do, listener, configuration, state of fragmentation, callbacks so far. (They may differ in what has been written, and in the flag.) -/
structure Like (s s0 : St) : Prop where
  inp : s.inp = s0.inp
  listener : s.sock.listener = s0.sock.listener
  config : s.sock.config = s0.sock.config
  lastOpcode : s.sock.lastOpcode = s0.sock.lastOpcode
  trace : s.sock.trace = s0.sock.trace

/-- The code did not come to an end: it waits, goes on for ever, or has undefined behaviour. -/
def Stops {α : Type} : Exit α → Prop
  | .block => True
  | .ub _ => True
  | _ => False

/-- The code calls this send method on socket `k`. -/
def Code.Calls (c : Code) (k : Nat) (call : SendCall) : Prop := ∃ tr i now catches, c.next tr i now = some (k, .op (.send call catches))

/-- What the code sends on socket `k` is shorter than 2^31 bytes, and it leaves the configuration of this socket alone. -/
def Code.Modest (c : Code) (k : Nat) : Prop := (∀ call, c.Calls k call → call.content.2.2.length < 2 ^ 31) ∧ ∀ tr i now cfg, c.next tr i now ≠ some (k, .op (.setConfig cfg))

/-- The sends on socket `k` among the operations. -/
def sendsOn (k : Nat) (ops : List (Nat × UserOp)) : List SendCall := ops.filterMap fun x => match x with
  | (j, .send call _) => if j = k then some call else none
  | _ => none

/-- In each callback, and outside, the code does at most `steps` operations. -/
def Code.Brief (c : Code) (steps : Nat) : Prop := ∀ tr now, c.next tr steps now = none

/-- In each callback, and outside, the code does only reads, if anything, after its first `n` operations. -/
def Code.BriefBesides (c : Code) (n : Nat) : Prop := ∀ tr i now j u, n ≤ i → c.next tr i now ≠ some (j, .op u)

/-- There is a connection that will not do any more reads, or any more writes. -/
def Waiting (w : World) : Prop := ∃ k, (w.socks k).inp.sched = [] ∨ (w.socks k).sock.out.sched = []

/-- The code reads only from the first `n` sockets. -/
def Code.ReadsBelow (c : Code) (n : Nat) : Prop := ∀ tr i now j op, c.next tr i now = some (j, op) → Reads op → j < n

/-- The number of reads that the connections of the first `n` sockets will still do. -/
def readsLeft : Nat → World → Nat
  | 0, _ => 0
  | n + 1, w => readsLeft n w + (w.socks n).inp.sched.length

/-- The callbacks of socket `k` among these. -/
def heardOn (k : Nat) (log : List (Nat × Event)) : List Event := log.filterMap fun x => if x.1 = k then some x.2 else none

end OatWS.Gateway
