import Verif.Spec.Waits
import Verif.Spec.Rest
/-! # A process with several sockets, at rest -/

namespace OatWS.Process

/-- No thread of the process can make a step. -/
def Net.AtRest (env : Nat → Env) (n : Net) : Prop := ∀ g ∈ n.threads, ¬ Goes env n g

/-- The connections of the process still take and give bytes. -/
def Net.Works (n : Net) : Prop := ∀ k, (n.socks k).sock.out.sched ≠ [] ∧ (n.socks k).inp.sched ≠ []

/-- The thread has ended, or waits for input on socket `k`, of which there is none. -/
def Net.Idle (n : Net) (k : Nat) (g : Code Unit) : Prop := Ended g ∨ ((∃ m c, g = .act k (.read m) c) ∧ (n.socks k).inp.bytes = [])

end OatWS.Process

namespace OatWS.AsyncProcess

/-- No task of the process can make a step. -/
def Net.AtRest (env : Nat → Env) (n : Net) : Prop := ∀ s ∈ n.tasks, ¬ Goes env n s

/-- The connections of the process still take and give bytes. -/
def Net.Works (n : Net) : Prop := ∀ k, (n.socks k).st.sock.out.sched ≠ [] ∧ (n.socks k).st.inp.sched ≠ []

/-- The task has ended, or waits for input on socket `k`, of which there is none. -/
def Net.Idle (n : Net) (k : Nat) (s : State) : Prop :=
  Ended s ∨ ((∃ c rest l, s = .run ⟨.lib k c :: rest, l⟩ ∧ Async.Task.reads ⟨[c], l⟩ = true) ∧ (n.socks k).st.inp.bytes = [])

end OatWS.AsyncProcess
