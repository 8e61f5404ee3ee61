import Verif.Model.WebSocket
/-! # Listening, as a user would write it with `iterateFrame` -/

namespace OatWS

/-- `Listening env h st n x st'`: calling `iterateFrame` again and again from `st`, as long as it returns, the frame was not
a close frame and listening is on, handles `n` frames and ends with `x` (without the value) in `st'`. -/
inductive Listening (env : Env) : Header → St → Nat → Exit Unit → St → Prop
  | throws {h st e st'} : iterateFrame env h st = (.throw e, st') → Listening env h st 0 (.throw e) st'
  | blocks {h st st'} : iterateFrame env h st = (.block, st') → Listening env h st 0 .block st'
  | undefined {h st u st'} : iterateFrame env h st = (.ub u, st') → Listening env h st 0 (.ub u) st'
  | closed {h st h' st'} : iterateFrame env h st = (.ret h', st') → h'.opcode = 8 → Listening env h st 1 (.ret ()) st'
  | stopped {h st h' st'} : iterateFrame env h st = (.ret h', st') → st'.sock.listening = false →
      Listening env h st 1 (.ret ()) st'
  | next {h st h' st' n x st''} : iterateFrame env h st = (.ret h', st') → h'.opcode ≠ 8 → st'.sock.listening = true →
      Listening env h' st' n x st'' → Listening env h st (n + 1) x st''

/-- A listener that never calls `setConfig` inside a callback. -/
def Env.KeepsConfig (env : Env) : Prop := ∀ tr c, UserOp.setConfig c ∉ env.react tr

/-- A listener whose callbacks return normally, and switch listening off only by `stopListening` itself (not by a send that
fails). -/
def Env.OnlyStops (env : Env) : Prop := ∀ tr s, ∃ s', runUserOps env (env.react tr) s = (.ret (), s') ∧
  (UserOp.stopListening ∉ env.react tr → s'.listening = s.listening)

end OatWS
