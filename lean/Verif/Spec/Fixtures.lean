import Verif.Spec.Frames
import Verif.Spec.Schedule
/-! # Concrete cases used to show that the hypotheses of theorems can be met -/

namespace OatWS.Fixture
open RFC6455

/-- A little-endian host, a listener that only looks, and a simple random source. -/
def env : Env := { host := .little, rng := fun i => UInt8.ofNat (17 * i + 3), react := fun _ => [] }

theorem env_quiet : env.Quiet := fun _ => rfl

/-- A masked two-fragment text message "Hel" "lo" with a ping in between, then nothing. -/
def hel : Frame := { fin := false, opcode := 1, maskKey := some [1, 2, 3, 4], payload := [0x48, 0x65, 0x6c] }
def ping : Frame := { fin := true, opcode := 9, maskKey := some [9, 9, 9, 9], payload := [0x21] }
def lo : Frame := { fin := true, opcode := 0, maskKey := some [5, 6, 7, 8], payload := [0x6c, 0x6f] }

/-- A final text frame and a close frame with code 1000 and reason "x". -/
def text : Frame := { fin := true, opcode := 1, payload := [0x61, 0x62, 0x63] }
def closing : Frame := { fin := true, opcode := 8, payload := [0x03, 0xe8, 0x78] }

/-- Byte by byte, with retries. -/
def slow (n : Nat) : List IoOutcome := (List.replicate n [IoOutcome.retry, .upTo 0]).flatten

/-- A fresh socket with listener 7 and a read buffer of 2 bytes, receiving these bytes byte by byte. -/
def receiving (bytes : List UInt8) : St :=
  { sock := { Sock.new { readBufferSize := 2 } ⟨[], []⟩ with listener := some 7 }
    inp := ⟨bytes, slow (bytes.length + 1)⟩ }

end OatWS.Fixture
