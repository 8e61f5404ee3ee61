import Verif.Model.WebSocket
/-! # Listening that is stopped and resumed -/

namespace OatWS

/-- Is it a `stopListening`? -/
def UserOp.isStop : UserOp → Bool
  | .stopListening => true
  | _ => false

/-- The same listener, but never calling `stopListening`. -/
def Env.nonstop (env : Env) : Env := { env with react := fun tr => (env.react tr).filter fun op => !op.isStop }

/-- The listener does not send from inside its callbacks. -/
def Env.NoSends (env : Env) : Prop := ∀ tr c b, UserOp.send c b ∉ env.react tr

/-- The state with the listening flag set. -/
def St.on (st : St) : St := { st with sock := { st.sock with listening := true } }

/-- Handling frames from `st` on, one after the other, none of them a close frame, listening being on after each but the last, and off after that
one; the state is then `st'`. This is when `listen` returns because of `stopListening`. -/
inductive StopsAt (env : Env) : Header → St → St → Prop
  | stop {h st h' st'} : iterateFrame env h st = (.ret h', st') → h'.opcode ≠ 8 → st'.sock.listening = false → StopsAt env h st st'
  | next {h st h' st1 st'} : iterateFrame env h st = (.ret h', st1) → h'.opcode ≠ 8 → st1.sock.listening = true → StopsAt env h' st1 st' →
      StopsAt env h st st'

/-- Calling `listen` again and again: `Session env st x st'` means that some calls of `listen` (each with its own header object, of arbitrary
contents) were ended by `stopListening`, that `listen` was called again each time, and that the last call was ended by something
else (a close frame, an error, or for lack of data), with outcome `x`, in state `st'`. -/
inductive Session (env : Env) : St → Exit Unit → St → Prop
  | last {h st x st'} : listenBody env h st = (x, st') → (∀ st1, ¬ StopsAt env h st.on st1) → Session env st x st'
  | again {h st st1 x st'} : listenBody env h st = (.ret (), st1) → StopsAt env h st.on st1 → Session env st1 x st' → Session env st x st'

end OatWS
