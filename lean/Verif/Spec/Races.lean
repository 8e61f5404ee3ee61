import Verif.Spec.Threads
/-! # Data races on the members of a socket -/

namespace OatWS.Threads
open RFC6455 Async Prog

/-- What threads share: the members of the socket (WebSocket.hpp:107-111), and the two directions of the connection. -/
inductive Loc where
  | config
  | listener
  | lastOpcode
  | listening
  | input
  | output
deriving DecidableEq, Repr

/-- What a step accesses, and whether it changes it (`true`) or only reads it. (The random source is thread safe; calls of the listener are
the user's own code.) Reading from the connection takes bytes away, so it changes the input. -/
def Act.touches : Act → Option (Loc × Bool)
  | .read _ => some (.input, true)
  | .write _ => some (.output, true)
  | .getConfig => some (.config, false)
  | .setConfig _ => some (.config, true)
  | .getListener => some (.listener, false)
  | .setListener _ => some (.listener, true)
  | .getLastOpcode => some (.lastOpcode, false)
  | .setLastOpcode _ => some (.lastOpcode, true)
  | .getListening => some (.listening, false)
  | .setListening _ => some (.listening, true)
  | .random => none
  | .callback _ => none
  | .call _ => none
  | .returned _ => none

/-- The thread's next step accesses `l`; `w`: it changes it. -/
def Accesses (q : Prog Unit) (l : Loc) (w : Bool) : Prop := ∃ a k, q = .act a k ∧ a.touches = some (l, w)

/-- A data race (there is no synchronisation in the library): two threads are about to access `l`, at least one of them to change it. -/
def Race (p : Pool) (l : Loc) : Prop :=
  ∃ (i j : Nat) (q q' : Prog Unit) (w w' : Bool), i ≠ j ∧ p.threads[i]? = some q ∧ p.threads[j]? = some q' ∧ Accesses q l w ∧ Accesses q' l w' ∧ (w || w') = true

/-- One thread listens, the others run any code (of operations `O`) that does not receive; callbacks consist of operations `O'`. -/
structure Team (env : Env) (fuel : Nat) (O O' : UserOp → Prop) (p : Pool) : Prop where
  one : ∃ h others, p.threads = listenT env fuel h :: others ∧ ∀ q ∈ others, HelperCode O env fuel q
  callbacks : ∀ tr, ∀ op ∈ env.react tr, O' op

/-- Any operation. -/
def _root_.OatWS.UserOp.any (_ : UserOp) : Prop := True
/-- Any operation but `setListener`. -/
def _root_.OatWS.UserOp.keepsListener (op : UserOp) : Prop := ∀ l, op ≠ .setListener l
/-- Any operation but a change of the configuration. -/
def _root_.OatWS.UserOp.keepsConfig (op : UserOp) : Prop := ∀ c, op ≠ .setConfig c
/-- Any operation but `stopListening`. -/
def _root_.OatWS.UserOp.keepsListening (op : UserOp) : Prop := op ≠ .stopListening
/-- A send (or the end of the code by an exception). -/
def _root_.OatWS.UserOp.sends (op : UserOp) : Prop := op.keepsListener ∧ op.keepsConfig ∧ op.keepsListening

end OatWS.Threads
