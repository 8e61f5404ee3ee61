import Verif.Spec.Link
import Verif.Spec.Exec
/-!
# Two connected endpoints of any kind: a blocking socket used by threads, or an async socket used by tasks

`Spec/Link` with either kind of endpoint on either side.
-/

namespace OatWS.Async

/-- The task's next step reads from the connection. -/
def Task.reads (t : Task) : Bool :=
  match t.stack with
  | .readFrame c :: _ => match c.pc with
    | .act | .readLen | .readMask => decide (c.got.length < c.need)
    | _ => false
  | .readPayload c :: _ => match c.pc with
    | .readData => decide (0 < c.want)
    | _ => false
  | _ => false

/-- The task's next step writes to the connection. -/
def Task.writes (t : Task) : Bool :=
  match t.stack with
  | .sendFrame c :: _ => match c.pc with
    | .writeMessage => decide (c.left ≠ [])
    | _ => false
  | .writeFrame c :: _ => match c.pc with
    | .act | .writeMessageLen | .writeMask => decide (c.left ≠ [])
    | _ => false
  | _ => false

/-- A read that is to give bytes waits until there are some: the peer has not closed the connection. -/
def Task.ready (t : Task) (w : World) : Bool :=
  match t.reads, w.st.inp.sched with
  | true, .upTo _ :: _ => w.st.inp.bytes ≠ []
  | _, _ => true

/-- Bytes arrive. -/
def Pool.receive (p : Pool) (bs : List UInt8) : Pool := ⟨p.tasks, p.world.setInp ⟨p.world.st.inp.bytes ++ bs, p.world.st.inp.sched⟩⟩

/-- What a step of task `i` did (`bs`: written). -/
def entryOf (env : Env) (i : Nat) (t : Task) (w w' : World) (bs : List UInt8) : Entry :=
  ⟨i, t.calls, bs, drewAt w.st.sock w'.st.sock, t.completes env w, t.fails env w⟩

/-- An async socket on which the first task listens (others, and callbacks, may send and change whether to mask), that has received nothing yet. -/
structure Listening (env : Env) (l : Nat) (B : Int) (p : Pool) : Prop where
  tasks : ∃ h others, p.tasks = .run (listenTask h) :: others ∧ ∀ t ∈ others, (fixedSettings l B).Task t
  callbacks : (fixedSettings l B).Env env
  size : 0 < B
  start : (fixedSettings l B).In p.world
  noMessage : OpenIs false p.world.st.sock.lastOpcode
  nothing : p.world.st.inp.bytes = []

end OatWS.Async

namespace OatWS.Network
open RFC6455

/-- An endpoint: threads that use a blocking socket, or tasks that use an async socket. -/
inductive Endpoint where
  | threads (p : Threads.Pool)
  | tasks (p : Async.Pool)

/-- Socket and connection of the endpoint. -/
def Endpoint.st : Endpoint → St
  | .threads p => p.st
  | .tasks p => p.world.st

/-- Bytes arrive. -/
def Endpoint.receive : Endpoint → List UInt8 → Endpoint
  | .threads p, bs => .threads (p.receive bs)
  | .tasks p, bs => .tasks (p.receive bs)

/-- One step of one thread, or of one task, and its record. -/
inductive Endpoint.Step (env : Env) : Endpoint → Async.Entry → Endpoint → Prop
  | thread {p : Threads.Pool} {i a k r st'} : p.threads[i]? = some (.act a k) → Threads.Ready a p.st = true → Threads.exec env a p.st = some (r, st') →
      Endpoint.Step env (.threads p) (Threads.entry i a p.st st') (.threads ⟨p.threads.set i (k r), st'⟩)
  | task {p : Async.Pool} {i t o w' bs} : p.tasks[i]? = some (.run t) → t.ready p.world = true → Async.step env t p.world = (o, w') → o ≠ .blocked →
      w'.st.sock.out.written = p.world.st.sock.out.written ++ bs →
      Endpoint.Step env (.tasks p) (Async.entryOf env i t p.world w' bs) (.tasks ⟨p.tasks.set i o, w'⟩)

/-- Any number of steps of both endpoints, in any order; what one writes arrives at the other. With the records of the steps at each of them. -/
inductive Linked (envA envB : Env) (a0 b0 : Endpoint) : List Async.Entry → List Async.Entry → Endpoint → Endpoint → Prop
  | refl : Linked envA envB a0 b0 [] [] a0 b0
  | left {la lb a b e a'} : Linked envA envB a0 b0 la lb a b → Endpoint.Step envA a e a' → Linked envA envB a0 b0 (la ++ [e]) lb a' (b.receive e.wrote)
  | right {la lb a b e b'} : Linked envA envB a0 b0 la lb a b → Endpoint.Step envB b e b' → Linked envA envB a0 b0 la (lb ++ [e]) (a.receive e.wrote) b'

/-- The endpoint is used by an application: threads that listen or use the API, tasks none of which is in the middle of a send. (`fuel`: see `Model/Threads`.) -/
def Endpoint.App (env : Env) (fuel : Nat) : Endpoint → Prop
  | .threads p => ∀ t ∈ p.threads, Threads.AppThread env fuel t
  | .tasks p => ∀ t ∈ p.tasks, Async.Outcome.quiet t

/-- The first thread or task listens. -/
def Endpoint.Listening (env : Env) (fuel l B : Nat) : Endpoint → Prop
  | .threads p => Threads.Listening env fuel l B p
  | .tasks p => Async.Listening env l B p ∧ ∀ t ∈ p.tasks, Async.Outcome.quiet t

/-- The listening thread or task is about to read. -/
def Endpoint.Waits : Endpoint → Prop
  | .threads p => ∃ q, p.threads[0]? = some q ∧ Threads.IsAt q .reading
  | .tasks p => ∃ t, p.tasks[0]? = some (.run t) ∧ t.reads = true

/-- Listening has ended normally: `listen` has returned (callbacks do not throw: `listen` would swallow the exception), `listenAsync` has finished. -/
def Endpoint.Ended (env : Env) : Endpoint → Prop
  | .threads p => ∃ q, p.threads[0]? = some q ∧ Threads.IsAt q (.ret ()) ∧ env.Calm
  | .tasks p => p.tasks[0]? = some .finished

/-- Listening was not ended by `stopListening` (which only blocking sockets have) or by a failing read (which ends `listen` as well). -/
def Endpoint.Undisturbed (b0 b : Endpoint) : Prop :=
  match b with
  | .threads p => p.st.sock.listening = true ∧ ∀ o ∈ b0.st.inp.sched, o.fine = true
  | .tasks _ => True

/-- The callbacks `evs`, all of listener `l`, say exactly the messages of the first `n` calls, in order, and at most a proper part of the data of the next one, which then is a
text or binary message. -/
structure HeardFirst (calls : List SendCall) (l n : Nat) (evs : List Event) : Prop where
  to : ∀ e ∈ evs, e.to = l
  le : n ≤ calls.length
  messages : (reassemble [] evs).1 = (calls.take n).map SendCall.msg
  part : (reassemble [] evs).2 = [] ∨ ∃ c d, calls[n]? = some c ∧ (c.msg = .text d ∨ c.msg = .binary d) ∧ (reassemble [] evs).2 <+: d ∧ (reassemble [] evs).2.length < d.length

/-- They say all of them. -/
def HeardAll (calls : List SendCall) (l : Nat) (evs : List Event) : Prop := (∀ e ∈ evs, e.to = l) ∧ reassemble [] evs = (calls.map SendCall.msg, [])

end OatWS.Network
