import Verif.Model.Reentrant
import Verif.Spec.Frames
import Verif.Spec.Send
/-! # A program outside of callbacks -/

namespace OatWS.Reentrant
open RFC6455

/-- What a program outside of any callback does with the socket: it reads a frame, does an operation, or sets the listening flag (as `listen` does first). -/
inductive Action where
  | frame
  | op (u : UserOp)
  | start

def Action.run (env : Env) : Action → P St Unit
  | .frame => do let _ ← OatWS.iterateFrame env default
  | .op u => liftSock (runUserOp env u)
  | .start => P.modify fun st => { st with sock := { st.sock with listening := true } }

/-- These actions one after the other; with each, whether an exception is caught. -/
def inTurn (env : Env) : List (Action × Bool) → P St Unit
  | [] => pure ()
  | (a, catches) :: rest => fun st =>
    match a.run env st with
    | (.ret _, st') => inTurn env rest st'
    | (.throw e, st') => if catches then inTurn env rest st' else (.throw e, st')
    | r => r

/-- The code reads only in callbacks that are made when a frame has been read completely: `onPing`, `onPong`, `onClose` and `readMessage` with size 0; not in `readMessage` with data. -/
def Code.BetweenFrames (c : Code) : Prop := ∀ tr l opcode x data now, c.next (tr ++ [.readMessage l opcode (x :: data)]) 0 now = none

/-- What the code may do in callbacks, apart from `env.react`. -/
def Code.Does (c : Code) : Action → Prop
  | .frame => True
  | .op u => ∃ tr i now, c.next tr i now = some (.op u)
  | .start => ∃ tr i now, c.next tr i now = some .listen

/-- The result `r` is the result `s`, or the code did not return (it waits, or goes on for ever) with the same effects. -/
def Same {α : Type} (r s : Exit α × St) : Prop := r.2 = s.2 ∧ (r.1 = s.1 ∨ r.1 = .block)

/-- The first frames have been heard, exactly and in order, and nothing behind them has been read; or all of them have been heard, in order, before anything else. -/
def Heard (l B : Nat) (fs : List Frame) (tail : List UInt8) (st st' : St) : Prop :=
  ∃ evs, st'.sock.trace = st.sock.trace ++ evs ∧
    ((∃ n, n ≤ fs.length ∧ FramesEvents l B (fs.take n) evs ∧ st'.inp.bytes = wireOf (fs.drop n) ++ tail) ∨ ∃ e1 e2, evs = e1 ++ e2 ∧ FramesEvents l B fs e1)

/-- The operation sends less than 2^31 bytes, or no message, and leaves the configuration alone. -/
def Modest (u : UserOp) : Prop := (∀ call catches, u = .send call catches → call.content.2.2.length < 2 ^ 31) ∧ ∀ cfg, u ≠ .setConfig cfg

/-- All operations that the code does in callbacks are so. -/
def Code.Modest (c : Code) : Prop := (∀ tr, ∀ u ∈ c.env.react tr, Reentrant.Modest u) ∧ ∀ tr i now u, c.next tr i now = some (.op u) → Reentrant.Modest u

/-- In a callback the code does only reads, if anything, after its first `n` operations (apart from those of `env.react`). -/
def Code.Brief (c : Code) (n : Nat) : Prop := ∀ tr i now u, n ≤ i → c.next tr i now ≠ some (.op u)

/-- The connection will not do any more reads, or any more writes. -/
def Waiting (st : St) : Prop := st.inp.sched = [] ∨ st.sock.out.sched = []

/-- No close frame has been heard. -/
def NoClose (tr : List Event) : Prop := ∀ l c m, Event.onClose l c m ∉ tr

/-- The code takes a close frame as the end: in `onClose` it calls `stopListening` first, and it does no more in callbacks once `onClose` has been made. -/
structure Code.StopsAtClose (c : Code) : Prop where
  stops : ∀ tr l code m, ∃ ops, c.env.react (tr ++ [.onClose l code m]) = .stopListening :: ops
  nothing : ∀ tr i now l code m, .onClose l code m ∈ now → c.next tr i now = none

end OatWS.Reentrant
