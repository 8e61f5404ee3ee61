import Verif.Model.Stream
/-! # Vocabulary for schedules -/

namespace OatWS

/-- The transport moves at least one byte. -/
def IoOutcome.moves : IoOutcome → Bool
  | .upTo _ => true
  | _ => false

/-- The transport does not fail. -/
def IoOutcome.fine : IoOutcome → Bool
  | .upTo _ => true
  | .retry => true
  | _ => false

/-- A schedule that never fails and moves data at least `n` times: enough to transfer any `n` bytes, whatever the
sizes of the partial transfers and however many retries. -/
def Healthy (n : Nat) (sched : List IoOutcome) : Prop :=
  (∀ o ∈ sched, o.fine = true) ∧ n ≤ sched.countP IoOutcome.moves

instance (n sched) : Decidable (Healthy n sched) := by unfold Healthy; exact inferInstance

end OatWS
