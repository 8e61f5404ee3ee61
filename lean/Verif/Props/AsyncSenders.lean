import Verif.Props.AsyncEquiv
import Verif.Proofs.Exec
/-! # C33: concurrent senders -/

namespace OatWS.Async
open RFC6455

/-- Two tasks, each sending one message; the transport takes a byte at a time. -/
def exTwo : Pool := ⟨[.run (sendTask Fixture.env (.text (some [1, 2]))), .run (sendTask Fixture.env (.binary (some [3])))],
  { st := { sock := Sock.new { maskOutgoingMessages := false } ⟨[], Fixture.slow 20⟩, inp := ⟨[], []⟩ } }⟩

/-- **C33** (not serialised). Two concurrent sends, both finished, whose bytes are interleaved on the wire: they are not the two
frames in any order, and the peer would read a frame that nobody sent. -/
theorem C33_interleaved : ∃ p, Pool.Steps Fixture.env exTwo p ∧ p.tasks = [.finished, .finished] ∧
    p.world.st.sock.out.written ≠ wireOf [{ fin := true, opcode := 1, payload := [1, 2] }, { fin := true, opcode := 2, payload := [3] }] ∧
    p.world.st.sock.out.written ≠ wireOf [{ fin := true, opcode := 2, payload := [3] }, { fin := true, opcode := 1, payload := [1, 2] }] ∧
    parseHdr p.world.st.sock.out.written = some (⟨true, false, false, false, 1, some [1, 3, 2, 1], 2⟩, [2]) := by
  have h : (Pool.exec Fixture.env ([0, 0, 0, 0] ++ List.replicate 9 1 ++ List.replicate 9 0) exTwo).isSome = true := by decide +kernel
  have h2 : ((Pool.exec Fixture.env ([0, 0, 0, 0] ++ List.replicate 9 1 ++ List.replicate 9 0) exTwo).map fun p =>
      (p.tasks, p.world.st.sock.out.written)) = some ([.finished, .finished], [129, 130, 1, 3, 2, 1, 2]) := by decide +kernel
  obtain ⟨p, hp⟩ := Option.isSome_iff_exists.mp h
  rw [hp] at h2
  injection h2 with h2
  injection h2 with e1 e2
  refine ⟨p, Pool.exec_steps hp, e1, ?_, ?_, ?_⟩ <;> rw [e2] <;> decide +kernel

end OatWS.Async
