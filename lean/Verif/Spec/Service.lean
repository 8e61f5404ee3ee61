import Verif.Spec.Speech
/-! # A service: a server whose listener answers every message -/

namespace OatWS

/-- The messages that are complete with callback `e`, if there were the callbacks `tr` before. -/
def completes (tr : List Event) (e : Event) : List Msg := (reassemble (reassemble [] tr).2 [e]).1

/-- The listener answers each message `m`, as soon as it has been told all of it, by calling the sends `f m`, one after the other; it sends nothing else. -/
def Env.Serves (env : Env) (f : Msg → List SendCall) : Prop := ∀ tr e, said (env.react (tr ++ [e])) = (completes tr e).flatMap f

/-- The answers to what the calls say. -/
def answersTo (f : Msg → List SendCall) (calls : List SendCall) : List SendCall := (told [] calls).1.flatMap f

/-- An echo service for messages of at most `N` bytes: text and binary messages are sent back, pings are answered with pongs. -/
def echo (N : Nat) : Msg → List SendCall
  | .text d => if d.length ≤ N then [.text (some d)] else []
  | .binary d => if d.length ≤ N then [.binary (some d)] else []
  | .ping d => if d.length ≤ N then [.pong (some d)] else []
  | _ => []

/-- The listener of a service: it collects the data of a message and sends the answers when it is complete. -/
def service (f : Msg → List SendCall) (env : Env) : Env := { env with react := fun tr => match tr.getLast? with
  | some e => ((completes tr.dropLast e).flatMap f).map fun c => .send c true
  | none => [] }

/-- Text and binary messages of at most `N` bytes. -/
def Data (N : Nat) (calls : List SendCall) : Prop := ∀ c ∈ calls, ((∃ m, c = .text m) ∨ ∃ m, c = .binary m) ∧ c.content.2.2.length ≤ N

namespace Network
open Async

/-- A server: an endpoint whose first thread or task listens; or a session of the threaded server whose `onAfterCreate` and `onBeforeDestroy` (which do not throw) send nothing. -/
inductive Server (env : Env) (fuel l B : Nat) : Endpoint → Prop
  | listening {b} : b.Listening env fuel l B → Server env fuel l B b
  | session {p created destroyed} : Threads.Session env fuel l B created destroyed p → (∀ op ∈ created, op.calm) → (∀ op ∈ destroyed, op.calm) → said created = [] → said destroyed = [] →
      Server env fuel l B (.threads p)

/-- Only the first thread or task, the one that listens, calls sends (in callbacks). -/
def OnlyListener (log : List Entry) : Prop := ∀ e ∈ log, e.called.isSome → e.task = 0

end Network
end OatWS
