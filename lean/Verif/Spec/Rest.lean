import Verif.Spec.Network
/-! # Connected endpoints at rest -/

namespace OatWS.Network

/-- A step of one of two connected endpoints; what it writes arrives at the other. -/
inductive Step (envA envB : Env) : Endpoint × Endpoint → Endpoint × Endpoint → Prop
  | left {a b e a'} : Endpoint.Step envA a e a' → Step envA envB (a, b) (a', b.receive e.wrote)
  | right {a b e b'} : Endpoint.Step envB b e b' → Step envA envB (a, b) (a.receive e.wrote, b')

/-- No thread or task of the endpoint can make a step. -/
def Endpoint.AtRest (env : Env) (e : Endpoint) : Prop := ∀ x e', ¬ e.Step env x e'

/-- No thread or task has undefined behaviour. -/
def Endpoint.Defined : Endpoint → Prop
  | .threads p => ∀ u, Threads.Prog.ub u ∉ p.threads
  | .tasks p => ∀ u, Async.Outcome.ub u ∉ p.tasks

/-- A blocking endpoint: as many steps of loops are modelled as the connection can make necessary (see `Model/Threads`). -/
def Endpoint.Enough (fuel : Nat) : Endpoint → Prop
  | .threads p => p.st.inp.sched.length < fuel ∧ p.st.sock.out.sched.length < fuel
  | .tasks p => ∀ o ∈ p.tasks, o ≠ .blocked

/-- Nothing but a close has ended listening: at a blocking endpoint callbacks do not throw, nobody has stopped listening, no read has failed; at an
async endpoint the listening task has not failed. -/
def Endpoint.Unbroken (env : Env) (b0 b : Endpoint) : Prop :=
  match b with
  | .threads _ => env.Calm ∧ Endpoint.Undisturbed b0 b
  | .tasks p => (∃ t, p.tasks[0]? = some (.run t)) ∨ p.tasks[0]? = some .finished

/-- The connection still takes bytes. -/
def Endpoint.Writable (e : Endpoint) : Prop := e.st.sock.out.sched ≠ []

/-- The connection still gives bytes, if any have arrived. -/
def Endpoint.Readable (e : Endpoint) : Prop := e.st.inp.sched ≠ []

end OatWS.Network
