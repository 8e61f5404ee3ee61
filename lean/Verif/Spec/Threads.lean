import Verif.Model.ThreadCalls
import Verif.Spec.Send
import Verif.Spec.Concurrent
import Verif.Spec.Schedule
/-! # Several threads on one blocking socket: what is observed of an execution -/

namespace OatWS.Threads
open RFC6455 Async Prog

/-- The code of an application: any program that uses the socket by calls of `listen`, `iterateFrame`, the send methods, `sendFrameHeader` followed by the pieces
of the payload, `setListener`, `setConfig`, `stopListening` and `getListener`, one after the other, where what is called next may depend on
the results of earlier calls, and exceptions may be thrown and caught. (`fuel` bounds the number of repetitions of the loops of the library; it plays no role as long as
it is larger than the number of low-level calls, C61.) -/
inductive AppCode (env : Env) (fuel : Nat) : {α : Type} → Prog α → Prop
  | ret {α : Type} (a : α) : AppCode env fuel (.ret a)
  | throw {α : Type} (e : Err) : AppCode env fuel (.throw e : Prog α)
  | bind {α β : Type} {p : Prog α} {f : α → Prog β} : AppCode env fuel p → (∀ a, AppCode env fuel (f a)) → AppCode env fuel (andThen p f)
  | catching {α : Type} {p : Prog α} {f : Err → Prog α} : AppCode env fuel p → (∀ e, AppCode env fuel (f e)) → AppCode env fuel (catching p f)
  | listen (h : Header) : AppCode env fuel (listenT env fuel h)
  | iterate (h : Header) : AppCode env fuel (iterateFrameT env fuel h)
  | code (ops : List UserOp) : AppCode env fuel (userOpsT env fuel ops)
  | send (c : SendCall) : AppCode env fuel (callT env fuel c)
  | stream (c : SendCall) (h : Header) (pieces : List (List UInt8)) : pieces.flatten = c.content.2.2 →
      AppCode env fuel (streamT env fuel c h c.content.1 c.content.2.1 pieces)
  | getListener : AppCode env fuel (step .getListener)

/-- The code of a thread of an application. -/
abbrev AppThread (env : Env) (fuel : Nat) (p : Prog Unit) : Prop := AppCode env fuel p

/-- One after the other. -/
theorem AppCode.seq {env : Env} {fuel : Nat} {p q : Prog Unit} (h1 : AppCode env fuel p) (h2 : AppCode env fuel q) : AppCode env fuel (andThen p fun _ => q) :=
  h1.bind fun _ => h2

/-- Code of an application that does not receive: as `AppCode`, without `listen`, `iterateFrame` and `getListener`, of the operations `O`. -/
inductive HelperCode (O : UserOp → Prop) (env : Env) (fuel : Nat) : {α : Type} → Prog α → Prop
  | ret {α : Type} (a : α) : HelperCode O env fuel (.ret a)
  | throw {α : Type} (e : Err) : HelperCode O env fuel (.throw e : Prog α)
  | bind {α β : Type} {p : Prog α} {f : α → Prog β} : HelperCode O env fuel p → (∀ a, HelperCode O env fuel (f a)) → HelperCode O env fuel (andThen p f)
  | catching {α : Type} {p : Prog α} {f : Err → Prog α} : HelperCode O env fuel p → (∀ e, HelperCode O env fuel (f e)) → HelperCode O env fuel (catching p f)
  | code (ops : List UserOp) : (∀ op ∈ ops, O op) → HelperCode O env fuel (userOpsT env fuel ops)
  | send (c : SendCall) : O (.send c false) → HelperCode O env fuel (callT env fuel c)
  | stream (c : SendCall) (h : Header) (pieces : List (List UInt8)) : O (.send c false) → pieces.flatten = c.content.2.2 →
      HelperCode O env fuel (streamT env fuel c h c.content.1 c.content.2.1 pieces)

theorem HelperCode.app {O : UserOp → Prop} {env : Env} {fuel : Nat} {α : Type} {q : Prog α} (h : HelperCode O env fuel q) : AppCode env fuel q := by
  induction h with
  | ret a => exact .ret a
  | throw e => exact .throw e
  | bind _ _ h1 h2 => exact .bind h1 h2
  | catching _ _ h1 h2 => exact .catching h1 h2
  | code ops _ => exact .code ops
  | send c _ => exact .send c
  | stream c h pieces _ hp => exact .stream c h pieces hp

theorem HelperCode.weaken {O P : UserOp → Prop} {env : Env} {fuel : Nat} {α : Type} {q : Prog α} (h : HelperCode O env fuel q) (hP : ∀ op, O op → P op) : HelperCode P env fuel q := by
  induction h with
  | ret a => exact .ret a
  | throw e => exact .throw e
  | bind _ _ h1 h2 => exact .bind h1 h2
  | catching _ _ h1 h2 => exact .catching h1 h2
  | code ops ho => exact .code ops fun op h => hP op (ho op h)
  | send c ho => exact .send c (hP _ ho)
  | stream c h pieces ho hp => exact .stream c h pieces (hP _ ho) hp

/-- The send method that is called in a step. -/
def Act.called : Act → Option SendCall
  | .call c => some c
  | _ => none

/-- The record of one step (as for tasks): the call of a send method, the bytes that the step has added to what is written, the position from
which random bytes were taken, the return of the send method (`completed`: normally, and not with `false`). -/
def entry (i : Nat) (a : Act) (st st' : St) : Entry :=
  { task := i
    called := a.called
    wrote := st'.sock.out.written.drop st.sock.out.written.length
    drew := drewAt st.sock st'.sock
    completed := a = .returned true
    failed := a = .returned false }

/-- An execution (any number of steps of the threads, in any order) and its record. -/
inductive Pool.Logged (env : Env) : Pool → List Entry → Pool → Prop
  | refl {p} : Pool.Logged env p [] p
  | tail {p log ts st i a k r st'} : Pool.Logged env p log ⟨ts, st⟩ → ts[i]? = some (.act a k) → exec env a st = some (r, st') →
      Pool.Logged env p (log ++ [entry i a st st']) ⟨ts.set i (k r), st'⟩

/-- Executing steps of the given threads, in the given order, if possible, with the record. -/
def Pool.execLog (env : Env) : List Nat → Pool → Option (List Entry × Pool)
  | [], p => some ([], p)
  | i :: is, p =>
    match p.threads[i]? with
    | some (.act a k) =>
      match exec env a p.st with
      | none => none
      | some (r, st') =>
        match Pool.execLog env is ⟨p.threads.set i (k r), st'⟩ with
        | some (log, q) => some (entry i a p.st st' :: log, q)
        | none => none
    | _ => none

/-! ## One thread listens, others do not -/

/-- What everybody keeps to: the listeners that are installed (there always is one), the size of the read buffer, what the transport
does. Everything else may be changed, in particular whether outgoing messages are masked. -/
structure Rules where
  listener : Nat → Prop
  size : Nat
  outcome : IoOutcome → Prop

/-- The operation keeps to the rules. -/
def Rules.Op (C : Rules) : UserOp → Prop
  | .setListener l => ∃ i, l = some i ∧ C.listener i
  | .setConfig c => c.readBufferSize = C.size
  | _ => True

/-- Whatever the listeners do in callbacks keeps to the rules. -/
def Rules.Reacts (C : Rules) (env : Env) : Prop := ∀ tr, ∀ op ∈ env.react tr, C.Op op

/-- No read fails (the end of the input apart). -/
def Rules.Fine (C : Rules) : Prop := ∀ o, C.outcome o → o.fine = true

/-- The state keeps to the rules; `o`: whether a fragmented message is open. -/
structure Rules.In (C : Rules) (o : Bool) (st : St) : Prop where
  listener : ∃ i, st.sock.listener = some i ∧ C.listener i
  size : st.sock.config.readBufferSize = C.size
  sched : ∀ x ∈ st.inp.sched, C.outcome x
  opened : OpenIs o st.sock.lastOpcode

/-- A thread that does not listen: any code that keeps to the rules. -/
def Rules.Helper (C : Rules) (env : Env) (fuel : Nat) (q : Prog Unit) : Prop := HelperCode C.Op env fuel q

/-- The operation returns normally whatever happens: user code catches what a send throws. (Lengths from 2 GiB on are undefined
behaviour in masked sends, C27.) -/
def _root_.OatWS.UserOp.calm : UserOp → Prop
  | .throw => False
  | .send c catches => catches = true ∧ c.content.2.2.length < 2 ^ 31
  | _ => True

/-- No callback ever throws. -/
def _root_.OatWS.Env.Calm (env : Env) : Prop := ∀ tr, ∀ op ∈ env.react tr, op.calm

/-- The callbacks `evs` are a rendering of the deliveries `ds`, in order, as in `Renders`; each callback goes to one of
the given listeners. -/
inductive RendersBy (L : Nat → Prop) (B : Nat) : List Event → List Delivery → Prop
  | nil : RendersBy L B [] []
  | data {op : UInt8} {cs : List (Nat × List UInt8)} {evs ds} : (∀ c ∈ cs, L c.1 ∧ 0 < c.2.length ∧ c.2.length ≤ B) → RendersBy L B evs ds →
      RendersBy L B (cs.map (fun c => Event.readMessage c.1 op c.2) ++ evs) (.data op.toNat (cs.map Prod.snd).flatten :: ds)
  | endOfMessage {l} {op : UInt8} {evs ds} : L l → RendersBy L B evs ds → RendersBy L B (.readMessage l op [] :: evs) (.endOfMessage op.toNat :: ds)
  | ping {l p evs ds} : L l → RendersBy L B evs ds → RendersBy L B (.onPing l p :: evs) (.ping p :: ds)
  | pong {l p evs ds} : L l → RendersBy L B evs ds → RendersBy L B (.onPong l p :: evs) (.pong p :: ds)
  | close {l} {code : UInt16} {p evs ds} : L l → RendersBy L B evs ds → RendersBy L B (.onClose l code p :: evs) (.close code.toNat p :: ds)

/-- Where a thread is: it has returned, thrown, reached undefined behaviour; it is about to call `read` or `write` of the connection (or waits
there). -/
inductive Out (α : Type) where
  | ret (a : α)
  | throw (e : Err)
  | ub (u : UB)
  | reading
  | writing

/-- The thread is there. (A thread about to access a member of the socket, or to make a callback, is at none of these places.) -/
def IsAt {α : Type} : Prog α → Out α → Prop
  | .ret a, x => x = .ret a
  | .throw e, x => x = .throw e
  | .ub u, x => x = .ub u
  | .stuck, _ => False
  | .act (.read _) _, x => x = .reading
  | .act (.write _) _, x => x = .writing
  | .act _ _, _ => False

/-- How the fate of the frame it is at shows in what `listen` does:
- the frame is over and another could follow: `listen` has returned, and only because listening is switched off;
- it is not complete: `listen` reads on; or it has returned, because the connection is broken, which, if reads do not fail, is at the end of the input;
- a callback for it has not returned: it writes to the connection; or (if callbacks throw) it has thrown and `listen` has returned;
- it is a close frame or violates the protocol: `listen` has returned. -/
def ListenShows (C : Rules) (env : Env) (fe : FrameEnd) (st : St) (x : Out Unit) : Prop :=
  match fe with
  | .next _ => x = .ret () ∧ st.sock.listening = false
  | .over .stopped => False
  | .over .incomplete => x = .reading ∨ x = .ret () ∧ (C.Fine → st.inp.bytes = [])
  | .over .interrupted => x = .writing ∨ ¬ env.Calm ∧ (x = .ret () ∨ x = .ub .indexOverflow)
  | .over _ => x = .ret ()

/-- What has been received since `st`, by a receiver for which a fragmented message is open or not (`o`), and told to listeners: complete frames
`whole`, then `part`, bytes of one more frame, with the fate `fe`. -/
structure Heard (C : Rules) (o : Bool) (st st' : St) (whole part : List UInt8) (fe : FrameEnd) : Prop where
  bytes : st.inp.bytes = whole ++ part ++ st'.inp.bytes
  told : ∃ ds o' ds' evs, Complete o whole ds o' ∧ OneFrame o' part ds' fe ∧ st'.sock.trace = st.sock.trace ++ evs ∧
    RendersBy C.listener C.size evs (ds ++ ds')

/-- A step of thread number `i`. -/
inductive Pool.StepOf (env : Env) (i : Nat) : Pool → Pool → Prop
  | mk {ts st a k r st'} : ts[i]? = some (.act a k) → exec env a st = some (r, st') → Pool.StepOf env i ⟨ts, st⟩ ⟨ts.set i (k r), st'⟩

end OatWS.Threads
