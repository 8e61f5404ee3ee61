import Verif.Spec.Process
import Verif.Spec.Service
/-!
# A process that passes messages on

Executions of a process with several sockets, with a record of what user code is told and what it decides to do.
-/

namespace OatWS.Process
open Threads Async

/-- User code is told something (a callback of the listener of socket `k`), or decides what to do. -/
inductive Note where
  | told (k : Nat) (e : Event)
  | chose (cs : List (Nat × UserOp))
deriving DecidableEq, Repr

/-- What a step of thread `i` on socket `k` tells user code. -/
def noteAt (i k : Nat) : Threads.Act → List (Nat × Note)
  | .callback e => [(i, .told k e)]
  | _ => []

/-- As `Net.Runs`, with notes of what the user code of each thread is told and decides. -/
inductive Net.Noted (env penv : Nat → Env) (may : Nat → UserOp → Prop) (n0 : Net) : List (Nat × Entry) → List (Nat × Entry) → List (Nat × Note) → Net → Prop
  | refl : Net.Noted env penv may n0 [] [] [] n0
  | own {la lb ns n i k a c r st'} : Net.Noted env penv may n0 la lb ns n → n.threads[i]? = some (.act k a c) → Ready a (n.socks k) = true → exec (env k) a (n.socks k) = some (r, st') →
      Net.Noted env penv may n0 (la ++ [(k, entry i a (n.socks k) st')]) lb (ns ++ noteAt i k a)
        ⟨n.threads.set i (c r), upd n.socks k st', upd n.peers k ((n.peers k).receive (entry i a (n.socks k) st').wrote)⟩
  | chooses {la lb ns n i c cs} : Net.Noted env penv may n0 la lb ns n → n.threads[i]? = some (.choose c) → (∀ x ∈ cs, may x.1 x.2) →
      Net.Noted env penv may n0 la lb (ns ++ [(i, .chose cs)]) ⟨n.threads.set i (c cs), n.socks, n.peers⟩
  | peer {la lb ns n k e b} : Net.Noted env penv may n0 la lb ns n → (n.peers k).Step (penv k) e b →
      Net.Noted env penv may n0 la (lb ++ [(k, e)]) ns ⟨n.threads, upd n.socks k (arrive (n.socks k) e.wrote), upd n.peers k b⟩

/-- The notes on thread `i`. -/
def notesOf (i : Nat) (ns : List (Nat × Note)) : List Note := (ns.filter fun x => x.1 == i).map Prod.snd

/-- The sends among operations on any sockets; nothing is done behind a throw. -/
def saidM : List (Nat × UserOp) → List (Nat × SendCall)
  | [] => []
  | (_, .throw) :: _ => []
  | (k, .send c _) :: cs => (k, c) :: saidM cs
  | _ :: cs => saidM cs

/-- What user code was told. -/
def toldIn (ns : List Note) : List Event := ns.filterMap fun
  | .told _ e => some e
  | .chose _ => none

/-- What user code that passes messages on says next: directly after a callback, for each message complete with this callback, the sends `f`; otherwise nothing. -/
def dueAfter (f : Msg → List (Nat × SendCall)) (ns : List Note) : List (Nat × SendCall) :=
  match ns.getLast? with
  | some (.told _ e) => (completes (toldIn ns.dropLast) e).flatMap f
  | _ => []

/-- The user code of a thread passes messages on: for each message `m` it has been told completely, it calls at once the sends `f m` (on whichever sockets); it sends nothing else. -/
def PassesOn (f : Msg → List (Nat × SendCall)) (ns : List Note) : Prop := ∀ pre cs, pre ++ [.chose cs] <+: ns → saidM cs = dueAfter f pre

/-- The sends thread `i` has called, on any sockets, in order. -/
def callsBy (i : Nat) (log : List (Nat × Entry)) : List (Nat × SendCall) := log.filterMap fun x => if x.2.task = i then x.2.called.map fun c => (x.1, c) else none

/-- Those on socket `j`. -/
def onto (j : Nat) (cs : List (Nat × SendCall)) : List SendCall := (cs.filter fun x => x.1 == j).map Prod.snd

/-- What is passed on to socket `j` of what the calls say. -/
def passedOn (f : Msg → List (Nat × SendCall)) (j : Nat) (calls : List SendCall) : List SendCall := answersTo (fun m => onto j (f m)) calls

end OatWS.Process
