import Verif.Spec.Threads
import Verif.Spec.Messages
/-! # Two connected endpoints, each used by several threads -/

namespace OatWS.Threads
open RFC6455 Async Prog

/-- Two endpoints. -/
structure Sys where
  a : Pool
  b : Pool

/-- Bytes arrive. -/
def Pool.receive (p : Pool) (bs : List UInt8) : Pool := ⟨p.threads, { p.st with inp := ⟨p.st.inp.bytes ++ bs, p.st.inp.sched⟩ }⟩

/-- A read that is to give bytes waits until there are some: the peer has not closed the connection. (Reads may still give fewer bytes than have
arrived, ask to retry, or fail.) -/
def Ready (a : Act) (st : St) : Bool :=
  match a, st.inp.sched with
  | .read _, .upTo _ :: _ => st.inp.bytes ≠ []
  | _, _ => true

/-- Any number of steps of threads of both endpoints, in any order; what one endpoint writes arrives at the other. With the records of the steps
at each of them. -/
inductive Linked (envA envB : Env) (s0 : Sys) : List Entry → List Entry → Sys → Prop
  | refl : Linked envA envB s0 [] [] s0
  | left {la lb s i a k r st'} : Linked envA envB s0 la lb s → s.a.threads[i]? = some (.act a k) → Ready a s.a.st = true → exec envA a s.a.st = some (r, st') →
      Linked envA envB s0 (la ++ [entry i a s.a.st st']) lb ⟨⟨s.a.threads.set i (k r), st'⟩, s.b.receive (entry i a s.a.st st').wrote⟩
  | right {la lb s i a k r st'} : Linked envA envB s0 la lb s → s.b.threads[i]? = some (.act a k) → Ready a s.b.st = true → exec envB a s.b.st = some (r, st') →
      Linked envA envB s0 la (lb ++ [entry i a s.b.st st']) ⟨s.a.receive (entry i a s.b.st st').wrote, ⟨s.b.threads.set i (k r), st'⟩⟩

/-- Listener `l` stays, the size of the read buffer stays `B`; the transport does whatever it does. -/
def steady (l B : Nat) : Rules := ⟨(· = l), B, fun _ => True⟩

/-- An endpoint at which one thread listens (others, and callbacks, may send, stop listening, change whether to mask), that has received
nothing yet. -/
structure Listening (env : Env) (fuel l B : Nat) (p : Pool) : Prop where
  threads : ∃ h others, p.threads = listenT env fuel h :: others ∧ ∀ q ∈ others, (steady l B).Helper env fuel q
  callbacks : (steady l B).Reacts env
  size : 0 < B
  start : (steady l B).In false p.st
  nothing : p.st.inp.bytes = []

/-- Messages, ended or not by a close. -/
structure Talk (cs last : List SendCall) : Prop where
  messages : ∀ c ∈ cs, c.isMessage
  ends : last = [] ∨ ∃ c, last = [c] ∧ c.isClose
  small : ∀ c ∈ cs ++ last, c.content.2.2.length < 2 ^ 63

/-- Executing steps, `(false, i)`: of thread `i` of the first endpoint, `(true, i)`: of the second. -/
def Sys.exec (envA envB : Env) : List (Bool × Nat) → Sys → Option (List Entry × List Entry × Sys)
  | [], s => some ([], [], s)
  | (false, i) :: is, s =>
    match s.a.threads[i]? with
    | some (.act a k) =>
      match Ready a s.a.st, Threads.exec envA a s.a.st with
      | true, some (r, st') =>
        match Sys.exec envA envB is ⟨⟨s.a.threads.set i (k r), st'⟩, s.b.receive (entry i a s.a.st st').wrote⟩ with
        | some (la, lb, s') => some (entry i a s.a.st st' :: la, lb, s')
        | none => none
      | _, _ => none
    | _ => none
  | (true, i) :: is, s =>
    match s.b.threads[i]? with
    | some (.act a k) =>
      match Ready a s.b.st, Threads.exec envB a s.b.st with
      | true, some (r, st') =>
        match Sys.exec envA envB is ⟨s.a.receive (entry i a s.b.st st').wrote, ⟨s.b.threads.set i (k r), st'⟩⟩ with
        | some (la, lb, s') => some (la, entry i a s.b.st st' :: lb, s')
        | none => none
      | _, _ => none
    | _ => none

end OatWS.Threads
