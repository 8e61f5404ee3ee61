import Verif.Proofs.GatewayLog
import Verif.Props.Gateway
/-! # C97: what the code is told -/

namespace OatWS.Gateway
open RFC6455

/-- **C97** (the code knows what has been heard). User code decides by the callbacks up to now, of all sockets in one list; this list has each callback of each socket exactly once, in the order of the socket, whatever the code does, however callbacks are inside each other, in layers or not, whether messages
were sent, exceptions thrown and caught, or reads failed. -/
theorem C97_told (c : Code) (steps depth : Nat) (w : World) :
    ∃ more, (main c steps depth w).2.log = w.log ++ more ∧ ∀ k, ((main c steps depth w).2.socks k).sock.trace = (w.socks k).sock.trace ++ heardOn k more :=
  main_tells c steps depth w

/-! ## A case -/

/-- The gateway of `exRun`: nothing has been heard at first, and sixteen callbacks in the end, seven of them of the client's socket. -/
example : exWorld.log = [] ∧ (∀ k, (exWorld.socks k).sock.trace = []) ∧ (main exCode 5 5 exWorld).2.log.length = 16 ∧ ((main exCode 5 5 exWorld).2.socks 0).sock.trace.length = 7 := by
  refine ⟨rfl, fun _ => rfl, ?_, ?_⟩
  · rw [← List.length_map (f := (·.1)), exRun.2.1]
    rfl
  · rw [exRun.2.2.1]
    rfl

example (k : Nat) : ((main exCode 5 5 exWorld).2.socks k).sock.trace = heardOn k (main exCode 5 5 exWorld).2.log := by
  obtain ⟨more, h1, h2⟩ := C97_told exCode 5 5 exWorld
  rw [h2, h1]
  rfl

end OatWS.Gateway
