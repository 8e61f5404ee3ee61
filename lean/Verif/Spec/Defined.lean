import Verif.Spec.Session
/-! # What user code must keep to so that nothing undefined happens -/

namespace OatWS

/-- The operation does not change the size `B` of the read buffer (it may change everything else), and sends less than 2 GiB at a time. -/
def UserOp.Careful (B : Int) : UserOp → Prop
  | .setConfig c => c.readBufferSize = B
  | .send c _ => c.content.2.2.length < 2 ^ 31
  | _ => True

/-- The same for whatever listeners do in callbacks. -/
def Env.Careful (env : Env) (B : Int) : Prop := ∀ tr, ∀ op ∈ env.react tr, op.Careful B

/-- The code of an application, as `AppCode`: any number of calls of `listen` and `iterateFrame` (also from several threads at once), sends, changes of listener and
configuration, in any order, depending on results; at most what is sent at a time by one of the send methods is limited. A frame that is written in pieces may have any size. -/
inductive Threads.CarefulCode (env : Env) (fuel : Nat) (B : Int) : {α : Type} → Threads.Prog α → Prop
  | ret {α : Type} (a : α) : CarefulCode env fuel B (.ret a)
  | throw {α : Type} (e : Err) : CarefulCode env fuel B (.throw e : Threads.Prog α)
  | bind {α β : Type} {p : Threads.Prog α} {f : α → Threads.Prog β} : CarefulCode env fuel B p → (∀ a, CarefulCode env fuel B (f a)) →
      CarefulCode env fuel B (Threads.Prog.andThen p f)
  | catching {α : Type} {p : Threads.Prog α} {f : Err → Threads.Prog α} : CarefulCode env fuel B p → (∀ e, CarefulCode env fuel B (f e)) →
      CarefulCode env fuel B (Threads.Prog.catching p f)
  | listen (h : Header) : CarefulCode env fuel B (Threads.listenT env fuel h)
  | iterate (h : Header) : CarefulCode env fuel B (Threads.iterateFrameT env fuel h)
  | code (ops : List UserOp) (careful : ∀ op ∈ ops, op.Careful B) : CarefulCode env fuel B (Threads.userOpsT env fuel ops)
  | send (c : SendCall) (short : c.content.2.2.length < 2 ^ 31) : CarefulCode env fuel B (Threads.callT env fuel c)
  | stream (c : SendCall) (h : Header) (fin : Bool) (op : UInt8) (pieces : List (List UInt8)) : CarefulCode env fuel B (Threads.streamT env fuel c h fin op pieces)
  | getListener : CarefulCode env fuel B (Threads.Prog.step .getListener)

/-- The code of a thread. -/
abbrev Threads.CarefulThread (env : Env) (fuel : Nat) (B : Int) (p : Threads.Prog Unit) : Prop := Threads.CarefulCode env fuel B p

/-- One after the other. -/
theorem Threads.CarefulCode.seq {env : Env} {fuel : Nat} {B : Int} {p q : Threads.Prog Unit} (h1 : CarefulCode env fuel B p) (h2 : CarefulCode env fuel B q) :
    CarefulCode env fuel B (Threads.Prog.andThen p fun _ => q) := h1.bind fun _ => h2

/-- The session of a threaded server. `onAfterCreate` may choose the size of the read buffer, which is `B` when it is over, as long as nobody else listens on the
socket; threads that are given the socket keep to that size already, as do callbacks and `onBeforeDestroy`. -/
structure Threads.CarefulSession (env : Env) (fuel : Nat) (B : Int) (created destroyed : List UserOp) (p : Threads.Pool) : Prop where
  threads : ∃ h others, p.threads = Threads.sessionT env fuel created h destroyed :: others ∧
    ∀ q ∈ others, Threads.HelperCode (UserOp.Careful B) env fuel q
  size : sizeAfter created p.st.sock.config.readBufferSize = B
  created : ∀ c catches, .send c catches ∈ created → c.content.2.2.length < 2 ^ 31
  callbacks : env.Careful B
  destroyed : ∀ op ∈ destroyed, op.Careful B

/-- A task that starts: it listens, sends, or is any other coroutine that uses the socket. -/
inductive Async.CarefulTask (env : Env) (B : Int) : Async.Task → Prop
  | listen (h : Header) : CarefulTask env B (Async.listenTask h)
  | send (c : SendCall) (short : c.content.2.2.length < 2 ^ 31) : CarefulTask env B (Async.sendTask env c)
  | code (ops : List UserOp) (careful : ∀ op ∈ ops, op.Careful B) : CarefulTask env B (Async.userTask ops)

/-- Threads, or tasks, that keep to this; `B` is the size of the read buffer. -/
def Network.Endpoint.Careful (env : Env) (fuel : Nat) (B : Int) : Network.Endpoint → Prop
  | .threads p => (∀ q ∈ p.threads, Threads.CarefulThread env fuel B q) ∧ p.st.sock.config.readBufferSize = B
  | .tasks p => (∀ o ∈ p.tasks, ∃ t, o = .run t ∧ Async.CarefulTask env B t) ∧ p.world.st.sock.config.readBufferSize = B

end OatWS
