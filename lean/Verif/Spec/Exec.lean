import Verif.Spec.Async
import Verif.Spec.Receive
/-! # A task among other tasks of the application -/

namespace OatWS.Async

/-- Execution of one task while other code does things in between: `R w w'` says what the other code may do to the shared state
in one go; `G t` says which states of the task may step. -/
inductive Exec (env : Env) (R : World → World → Prop) (G : Task → Prop) : Outcome × World → Outcome × World → Prop
  | refl {p} : Exec env R G p p
  | own {p t w q} : Exec env R G p (.run t, w) → G t → step env t w = q → Exec env R G p q
  | other {p o w w'} : Exec env R G p (o, w) → R w w' → Exec env R G p (o, w')

/-- What code that does not listen can do to what is shared: change the configuration and the listener, write, draw random bytes.
It reads nothing from the connection, makes no callbacks and does not touch the buffers of received data. -/
structure OthersDo (w w' : World) : Prop where
  heap : w'.heap = w.heap
  nextBuf : w'.nextBuf = w.nextBuf
  calls : w'.calls = w.calls
  inp : w'.st.inp = w.st.inp
  trace : w'.st.sock.trace = w.st.sock.trace
  lastOpcode : w'.st.sock.lastOpcode = w.st.sock.lastOpcode

/-- A coroutine that does not listen: user code and sends. -/
def Co.sends : Co → Prop
  | .user _ => True
  | .sendFrame _ => True
  | .writeFrame _ => True
  | _ => False

/-- A task that does not listen. -/
def Outcome.sends : Outcome → Prop
  | .run t => ∀ c ∈ t.stack, c.sends
  | _ => True

/-- A coroutine of the library that receives. -/
def Co.receives (c : Co) : Prop := ¬ c.sends

/-- The receiver of a callback. -/
def _root_.OatWS.Event.listener : Event → Nat
  | .readMessage l _ _ => l
  | .onPing l _ => l
  | .onPong l _ => l
  | .onClose l _ _ => l

/-- The data of a `readMessage`. -/
def _root_.OatWS.Event.data : Event → List UInt8
  | .readMessage _ _ d => d
  | _ => []

def _root_.OatWS.Event.isMessage : Event → Bool
  | .readMessage _ _ _ => true
  | _ => false

/-- Executing steps of the given tasks, in the given order, if possible. -/
def Pool.exec (env : Env) : List Nat → Pool → Option Pool
  | [], p => some p
  | i :: is, p =>
    match p.tasks[i]? with
    | some (.run t) =>
      match step env t p.world with
      | (.blocked, _) => none
      | (o, w) => Pool.exec env is ⟨p.tasks.set i o, w⟩
    | _ => none

/-! ## What a listening task has done, however many other tasks were active -/

/-- The listeners and buffer sizes that anybody installs. -/
structure Settings where
  listener : Option Nat → Prop
  size : Int → Prop

/-- Any listener, any buffer size. -/
def anySettings : Settings := ⟨fun _ => True, fun _ => True⟩

/-- Always this listener and this buffer size. -/
def fixedSettings (l : Nat) (B : Int) : Settings := ⟨fun l? => l? = some l, fun B' => B' = B⟩

/-- The installed listener and buffer size are among those. -/
def Settings.In (S : Settings) (w : World) : Prop := S.listener w.st.sock.listener ∧ S.size w.st.sock.config.readBufferSize

/-- The operation installs only such ones. -/
def Settings.Op (S : Settings) : UserOp → Prop
  | .setListener l => S.listener l
  | .setConfig c => S.size c.readBufferSize
  | _ => True

/-- The listeners install only such ones. -/
def Settings.Env (S : Settings) (env : Env) : Prop := ∀ tr, ∀ op ∈ env.react tr, S.Op op

/-- A task that does not listen and installs only such ones. -/
def Settings.Task (S : Settings) : Outcome → Prop
  | .run t => ∀ c ∈ t.stack, c.sends ∧ ∀ u, c = .user u → ∀ op ∈ u.ops, S.Op op
  | _ => True

/-- Other tasks do not listen, and install only such ones. -/
def Settings.Others (S : Settings) (w w' : World) : Prop := OthersDo w w' ∧ (S.In w → S.In w')

/-- `bs` are complete frames, received by a receiver for which a fragmented message is open or not (`o`); `ds` is what is
delivered for them; afterwards a fragmented message is open or not (`o'`). -/
inductive Complete (o : Bool) : List UInt8 → List Delivery → Bool → Prop
  | nil : Complete o [] [] o
  | snoc {bs ds o' bs' ds' o''} : Complete o bs ds o' → OneFrame o' bs' ds' (.next o'') → Complete o (bs ++ bs') (ds ++ ds') o''

/-- The callbacks `evs` render the deliveries `ds`, where listener and buffer size may be different for each group of
deliveries (each frame). -/
inductive RendersMix (S : Settings) : List Event → List Delivery → Prop
  | nil : RendersMix S [] []
  | snoc {evs ds l? B e d} : RendersMix S evs ds → S.listener l? → S.size B → RendersFor l? B.toNat e d →
      RendersMix S (evs ++ e) (ds ++ d)

/-- What the listeners were told between `w` and `w'`: bytes were consumed for which a receiver makes certain deliveries and
ends for reason `r`; the callbacks made are exactly a rendering of these deliveries. -/
def Told (S : Settings) (o : Bool) (w w' : World) (r : Reason) : Prop :=
  ∃ consumed ds evs, w.st.inp.bytes = consumed ++ w'.st.inp.bytes ∧ w'.st.sock.trace = w.st.sock.trace ++ evs ∧
    Receives o consumed ds r ∧ RendersMix S evs ds

/-- The error with which `listenAsync` fails for each reason. -/
def FailsLike : Reason → AErr → Prop
  | .closed, _ => False
  | .stopped, _ => False
  | .incomplete, e => e = .io ∨ e = .thrown .connectionState
  | .badControl, e => e = .thrown .controlTooLong
  | .badContinuation, e => e = .thrown .continuationState
  | .badStart, e => e = .thrown .continuationExpected
  | .badOpcode, e => e = .thrown .unknownFrame
  | .interrupted, e => e = .io ∨ e = .thrown .user

end OatWS.Async
