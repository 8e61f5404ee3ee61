import Verif.Model.TestApp
import Verif.Spec.Service
import Verif.Spec.Schedule
/-! # The project's own asynchronous test: what is expected -/

namespace OatWS.TestApp

/-- The bytes of "Hello from oatpp!: " and of "hello!" in ASCII. -/
def greeting : List UInt8 := [0x48, 0x65, 0x6c, 0x6c, 0x6f, 0x20, 0x66, 0x72, 0x6f, 0x6d, 0x20, 0x6f, 0x61, 0x74, 0x70, 0x70, 0x21, 0x3a, 0x20]
def greeted : List UInt8 := [0x68, 0x65, 0x6c, 0x6c, 0x6f, 0x21]

/-- The server greets back: every message of data `d` is answered by the text "Hello from oatpp!: " and `d`, a ping by a pong, a close by a close. -/
def greet : Msg → List SendCall
  | .text d => [.text (some (greeting ++ d))]
  | .binary d => [.text (some (greeting ++ d))]
  | .other _ d => [.text (some (greeting ++ d))]
  | .ping d => [.pong (some d)]
  | .pong _ => []
  | .close _ _ => [.closeEmpty]

/-- The client only answers pings. -/
def pongs : Msg → List SendCall
  | .ping d => [.pong (some d)]
  | _ => []

/-- Text messages `ms`, then a close without code. -/
def conversation (ms : List (List UInt8)) : List Msg := ms.map Msg.text ++ [.close 0 []]

/-- Number of data messages. -/
def dataMessages (ms : List Msg) : Nat := (ms.filter fun | .text _ => true | .binary _ => true | .other _ _ => true | _ => false).length

/-- More than the bytes that go over the connection in one direction: a frame of each message, greeted or not, with its header (at most 14 bytes), and of the close. -/
def traffic (ms : List (List UInt8)) : Nat := (ms.map fun m => m.length + 33).sum + 15

/-- The connection between them does not fail, and has enough outcomes for what goes over it. -/
structure Sound (ms : List (List UInt8)) (c : Client.Conn) (sched : List IoOutcome) (out : OutStream) : Prop where
  clientReads : Healthy (traffic ms) c.inp.sched
  clientWrites : Healthy (traffic ms) c.out.sched
  serverReads : Healthy (traffic ms) sched
  serverWrites : Healthy (traffic ms) out.sched

/-- The bytes of "Hello from oatpp! Your message was: " in ASCII. -/
def yours : List UInt8 := [0x48, 0x65, 0x6c, 0x6c, 0x6f, 0x20, 0x66, 0x72, 0x6f, 0x6d, 0x20, 0x6f, 0x61, 0x74, 0x70, 0x70, 0x21, 0x20, 0x59, 0x6f, 0x75, 0x72, 0x20, 0x6d, 0x65, 0x73, 0x73, 0x61, 0x67, 0x65, 0x20, 0x77, 0x61, 0x73, 0x3a, 0x20]

/-- The blocking test's listener answers every message of data `d` with the text "Hello from oatpp! Your message was: " and `d`, and a ping with an empty pong. -/
def replyTo : Msg → List SendCall
  | .text d => [.text (some (yours ++ d))]
  | .binary d => [.text (some (yours ++ d))]
  | .other _ d => [.text (some (yours ++ d))]
  | .ping _ => [.pong (some [])]
  | .pong _ => []
  | .close _ _ => []

end OatWS.TestApp
