import Verif.Spec.Exec
import Verif.Spec.Send
/-! # Sends of several tasks on one socket: what each of them puts on the wire -/

namespace OatWS.Async
open RFC6455

/-- The send method that the task calls in its next step. -/
def Task.calls (t : Task) : Option SendCall :=
  match t.stack with
  | .user c :: _ =>
    match c.ops with
    | .send call _ :: _ => some call
    | _ => none
  | _ => none

/-- The next step completes the task's send. -/
def Task.completes (env : Env) (t : Task) (w : World) : Bool :=
  match t.stack with
  | .sendFrame c :: _ =>
    match coStep env (.sendFrame c) t.loc w with
    | (.finish, _) => true
    | _ => false
  | _ => false

/-- In the next step the task's send fails. -/
def Task.fails (env : Env) (t : Task) (w : World) : Bool :=
  match t.stack with
  | .sendFrame c :: _ =>
    match coStep env (.sendFrame c) t.loc w with
    | (.error _, _) => true
    | _ => false
  | .writeFrame c :: _ =>
    match coStep env (.writeFrame c) t.loc w with
    | (.error _, _) => true
    | _ => false
  | _ => false

/-- What one step of task number `task` did: a send method was called, bytes were written, bytes were taken from the random source
(`drew`: beginning at which position), the send was completed, it failed. -/
structure Entry where
  task : Nat
  called : Option SendCall
  wrote : List UInt8
  drew : Option Nat
  completed : Bool
  failed : Bool
deriving DecidableEq, Repr

/-- The position in the random source from which bytes were taken, if the position has changed. -/
def drewAt (s s' : Sock) : Option Nat := if s'.rngPos = s.rngPos then none else some s.rngPos

/-- An execution (any number of steps, in any order) and its record. -/
inductive Pool.Logged (env : Env) : Pool → List Entry → Pool → Prop
  | refl {p} : Pool.Logged env p [] p
  | tail {p log ts w i t o w' bs} : Pool.Logged env p log ⟨ts, w⟩ → ts[i]? = some (.run t) → step env t w = (o, w') → o ≠ .blocked →
      w'.st.sock.out.written = w.st.sock.out.written ++ bs →
      Pool.Logged env p (log ++ [⟨i, t.calls, bs, drewAt w.st.sock w'.st.sock, t.completes env w, t.fails env w⟩]) ⟨ts.set i o, w'⟩

/-- What has become of a send. -/
inductive SendState where
  | inProgress
  | completed
  | failed
deriving DecidableEq, Repr

/-- A send: the call, the bytes it has written, the position of its masking key in the random source, what has become of it. -/
structure Sent where
  call : SendCall
  bytes : List UInt8
  key : Option Nat
  state : SendState
deriving DecidableEq, Repr

/-- The sends of a task, latest first, after one more entry of that task. -/
def feed (ss : List Sent) (e : Entry) : List Sent :=
  match e.called with
  | some c => ⟨c, e.wrote, e.drew, .inProgress⟩ :: ss
  | none =>
    match ss with
    | [] => []
    | s :: ss => ⟨s.call, s.bytes ++ e.wrote, s.key.or e.drew, if e.completed then .completed else if e.failed then .failed else s.state⟩ :: ss

/-- The sends of task `i`, latest first. -/
def sendsOf (i : Nat) (log : List Entry) : List Sent := (log.filter fun e => e.task == i).foldl feed []

/-- The bytes written by task `i`. -/
def bytesOf (i : Nat) (log : List Entry) : List UInt8 := (log.filter fun e => e.task == i).flatMap Entry.wrote

/-- The positions in the random source from which keys were taken, in order. -/
def drawn (log : List Entry) : List Nat := log.filterMap Entry.drew

/-- The frame carries what the send method stands for: FIN, opcode, RSV bits 0, payload; if masked, the key is four consecutive
bytes of the random source. -/
structure Carries (env : Env) (c : SendCall) (f : Frame) : Prop where
  fin : f.fin = c.content.1
  opcode : f.opcode = c.content.2.1.toNat % 16
  rsv : f.rsv1 = false ∧ f.rsv2 = false ∧ f.rsv3 = false
  payload : f.payload = c.content.2.2
  key : f.maskKey = none ∨ ∃ p, f.maskKey = some (maskBytesAt env p)

/-- The bytes written by a send are those of its frame: all of them when it was completed, a proper part from the beginning when it
failed. The masking key is the one it has taken from the random source. -/
def Sent.Sound (env : Env) (s : Sent) : Prop := ∃ f, Carries env s.call f ∧ f.maskKey = s.key.map (maskBytesAt env) ∧ s.bytes <+: f.encode ∧
  (s.state = .completed → s.bytes = f.encode) ∧ (s.state = .failed → s.bytes.length < f.encode.length)

/-- A task that is not in the middle of a send. -/
def Outcome.quiet : Outcome → Prop
  | .run t => ∀ co ∈ t.stack, (∀ c, co ≠ .sendFrame c) ∧ (∀ c, co ≠ .writeFrame c)
  | _ => True

/-- Task `i` is in the middle of a send. -/
def Sending (i : Nat) (log : List Entry) : Prop := ∃ s ss, sendsOf i log = s :: ss ∧ s.state = .inProgress

/-- Sends are serialised (as by a lock held around each send): no send is called while one of another task is in progress. -/
def Serialised (log : List Entry) : Prop :=
  ∀ a e b, log = a ++ e :: b → e.called.isSome → ∀ j, j ≠ e.task → ¬ Sending j a

/-- The send methods called, in the order of the calls. -/
def callsOf (log : List Entry) : List SendCall := log.filterMap Entry.called

/-- Frames that carry these calls, one for one, in order. -/
def CarryAll (env : Env) : List SendCall → List Frame → Prop
  | [], [] => True
  | c :: cs, f :: fs => Carries env c f ∧ CarryAll env cs fs
  | _, _ => False

/-- Executing steps of the given tasks, in the given order, if possible, with the record. -/
def Pool.execLog (env : Env) : List Nat → Pool → Option (List Entry × Pool)
  | [], p => some ([], p)
  | i :: is, p =>
    match p.tasks[i]? with
    | some (.run t) =>
      match step env t p.world with
      | (.blocked, _) => none
      | (o, w) =>
        let bs := w.st.sock.out.written.drop p.world.st.sock.out.written.length
        if w.st.sock.out.written = p.world.st.sock.out.written ++ bs then
          match Pool.execLog env is ⟨p.tasks.set i o, w⟩ with
          | some (log, q) => some (⟨i, t.calls, bs, drewAt p.world.st.sock w.st.sock, t.completes env p.world, t.fails env p.world⟩ :: log, q)
          | none => none
        else none
    | _ => none

/-- A check of `Serialised` for a given record: `busy` is the task in the middle of a send. -/
def serialCheck : Option Nat → List Entry → Bool
  | _, [] => true
  | busy, e :: log =>
    match e.called with
    | some _ => (busy == none || busy == some e.task) && serialCheck (some e.task) log
    | none => serialCheck (if busy == some e.task && (e.completed || e.failed) then none else busy) log

end OatWS.Async
