import Verif.Spec.AsyncProcess
/-! # What a thread or task of a process with several sockets may wait for -/

namespace OatWS.Process
open Threads

/-- The thread has returned, or ended with an exception or in undefined behaviour. -/
def Ended (g : Code Unit) : Prop := g = .ret () ∨ (∃ e, g = .throw e) ∨ ∃ k u, g = .ub k u

/-- Its next step is possible: it is in user code, or on one of the sockets and can be made. -/
def Goes (env : Nat → Env) (n : Net) (g : Code Unit) : Prop :=
  (∃ c, g = .choose c) ∨ ∃ k a c r st', g = .act k a c ∧ Ready a (n.socks k) = true ∧ exec (env k) a (n.socks k) = some (r, st')

/-- It waits for the connection of socket `k`: it is about to read from it, and there is nothing to read or the connection does not answer; or to write to it, and the connection does not answer. -/
def WaitsFor (n : Net) (k : Nat) (g : Code Unit) : Prop :=
  (∃ m c, g = .act k (.read m) c ∧ ((n.socks k).inp.bytes = [] ∨ (n.socks k).inp.sched = [])) ∨ (∃ d c, g = .act k (.write d) c ∧ (n.socks k).sock.out.sched = [])

end OatWS.Process

namespace OatWS.AsyncProcess
open Async

/-- The task has finished, or failed, or ended in undefined behaviour. -/
def Ended (s : State) : Prop := s = .finished ∨ (∃ e, s = .failed e) ∨ ∃ k u, s = .ub k u

/-- Its next step is possible: it is in user code, or in a coroutine of the library that can go on. -/
def Goes (env : Nat → Env) (n : Net) (s : State) : Prop :=
  (∃ b rest l, s = .run ⟨.user b :: rest, l⟩) ∨
  ∃ k c rest l s' ws bs, s = .run ⟨.lib k c :: rest, l⟩ ∧ Task.ready ⟨[c], l⟩ (n.socks k) = true ∧ move env k c rest l n.socks = some (s', ws) ∧
    (ws k).st.sock.out.written = (n.socks k).st.sock.out.written ++ bs

/-- It waits for the connection of socket `k`: it is about to read from it, and there is nothing to read or the connection does not become ready; or to write to it, and the connection does not become ready. -/
def WaitsFor (n : Net) (k : Nat) (s : State) : Prop :=
  ∃ c rest l, s = .run ⟨.lib k c :: rest, l⟩ ∧
    ((Task.reads ⟨[c], l⟩ = true ∧ ((n.socks k).st.inp.bytes = [] ∨ (n.socks k).st.inp.sched = [])) ∨ (Task.writes ⟨[c], l⟩ = true ∧ (n.socks k).st.sock.out.sched = []))

end OatWS.AsyncProcess
