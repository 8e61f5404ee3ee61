import Verif.Proofs.ThreadLive
import Verif.Props.ThreadListen
/-! # C61: threads wait for nothing but the connection -/

namespace OatWS.Threads
open RFC6455 Async Prog

/-- The thread has ended: it returned, threw, or reached undefined behaviour. -/
def Ended (q : Prog Unit) : Prop := q = .ret () ∨ (∃ e, q = .throw e) ∨ ∃ u, q = .ub u

/-- The thread waits in `read` or `write` of the connection, which will not answer any more. -/
def WaitsFor (st : St) (q : Prog Unit) : Prop :=
  (∃ n k, q = .act (.read n) k ∧ st.inp.sched = []) ∨ (∃ d k, q = .act (.write d) k ∧ st.sock.out.sched = [])

/-- The thread can make its next step now. -/
def CanStep (env : Env) (st : St) (q : Prog Unit) : Prop := ∃ a k r st', q = .act a k ∧ exec env a st = some (r, st')

theorem exec_or_waits (env : Env) (st : St) (a : Act) (k : a.Res → Prog Unit) : CanStep env st (.act a k) ∨ WaitsFor st (.act a k) := by
  cases a with
  | read n =>
    cases hs : st.inp.sched with
    | nil => exact .inr (.inl ⟨n, k, rfl, hs⟩)
    | cons o os =>
      refine .inl ⟨_, k, (lowRead o st.inp.bytes n).1, { st with inp := ⟨(lowRead o st.inp.bytes n).2, os⟩ }, rfl, ?_⟩
      dsimp only [exec]
      rw [hs]
  | write d =>
    cases hs : st.sock.out.sched with
    | nil => exact .inr (.inr ⟨d, k, rfl, hs⟩)
    | cons o os =>
      refine .inl ?_
      have : ∃ r st', exec env (.write d) st = some (r, st') := by
        dsimp only [exec]
        rw [hs]
        dsimp only
        split
        · exact ⟨_, _, rfl⟩
        · exact ⟨_, _, rfl⟩
      obtain ⟨r, st', h⟩ := this
      exact ⟨_, k, r, st', rfl, h⟩
  | _ => exact .inl ⟨_, k, _, _, rfl, rfl⟩

/-- **C61** (no deadlock). Any threads that listen, send and change settings, any execution: each thread has ended, or it can make its next step
at once, whatever the others are doing, or it waits in a call of the connection that will never answer. No thread ever waits for another one. -/
theorem C61_no_deadlock (env : Env) (fuel : Nat) (p p' : Pool) (happ : ∀ q ∈ p.threads, AppThread env fuel q)
    (hr : p.st.inp.sched.length < fuel) (hw : p.st.sock.out.sched.length < fuel) (hs : Pool.Steps env p p') (q : Prog Unit) (hq : q ∈ p'.threads) :
    Ended q ∨ CanStep env p'.st q ∨ WaitsFor p'.st q := by
  have hl : AllLive p := fun q hq => (happ q hq).live _ _ hr hw
  have h := hl.steps hs q hq
  cases q with
  | ret a => exact .inl (.inl rfl)
  | throw e => exact .inl (.inr (.inl ⟨e, rfl⟩))
  | ub u => exact .inl (.inr (.inr ⟨u, rfl⟩))
  | stuck => exact h.elim
  | act a k => exact .inr (exec_or_waits env p'.st a k)

/-- **C61** (nothing goes on for ever). There is no infinite execution (the connection answers finitely often). -/
theorem C61_finite (env : Env) (f : Nat → Pool) : ¬ ∀ n, Pool.Step env (f n) (f (n + 1)) := by
  intro h
  have go : ∀ p, Acc (fun q p => Pool.Step env p q) p → ∀ n, p = f n → False := by
    intro p hp
    induction hp with
    | intro p _ ih =>
      rintro n rfl
      exact ih _ (h n) (n + 1) rfl
  exact go _ (step_acc env (f 0)) 0 rfl

theorem Pool.Steps.trans {env : Env} {p q r : Pool} (h : Pool.Steps env p q) (h' : Pool.Steps env q r) : Pool.Steps env p r := by
  induction h' with
  | refl => exact h
  | tail _ hs ih => exact .tail ih hs

/-- **C61** (every call finishes). However an execution has gone so far, if all threads go on as long as they can, then each thread ends or comes
to wait in a call of the connection that will never answer. -/
theorem C61_finish (env : Env) (fuel : Nat) (p p' : Pool) (happ : ∀ q ∈ p.threads, AppThread env fuel q)
    (hr : p.st.inp.sched.length < fuel) (hw : p.st.sock.out.sched.length < fuel) (hs : Pool.Steps env p p') :
    ∃ p'', Pool.Steps env p' p'' ∧ ∀ q ∈ p''.threads, Ended q ∨ WaitsFor p''.st q := by
  have ha := step_acc env p'
  induction ha with
  | intro p' _ ih =>
    by_cases hc : ∃ p2, Pool.Step env p' p2
    · obtain ⟨p2, h2⟩ := hc
      obtain ⟨p3, h3, h4⟩ := ih p2 h2 (.tail hs h2)
      exact ⟨p3, (Pool.Steps.tail .refl h2).trans h3, h4⟩
    · refine ⟨p', .refl, fun q hq => ?_⟩
      rcases C61_no_deadlock env fuel p p' happ hr hw hs q hq with h | ⟨a, k, r, st', rfl, he⟩ | h
      · exact .inl h
      · obtain ⟨i, hi⟩ := List.getElem?_of_mem hq
        exact absurd ⟨_, Pool.Step.mk hi he⟩ hc
      · exact .inr h

/-- A thread that listens and answers a ping, one that sends; the connection delivers a ping and half a header, and then nothing more. -/
def exLive : Pool := ⟨[listenT exEnv 40 default, userOpsT exEnv 40 [.send (.text (some [7, 8])) false]],
  { sock := { Sock.new { readBufferSize := 2 } ⟨[], Fixture.slow 10⟩ with listener := some 7 }
    inp := ⟨[0x89, 0x01, 0x21, 0x89], List.replicate 4 (.upTo 0)⟩ }⟩

structure LiveView where
  places : List Nat
  reads : Nat
  written : List UInt8
deriving DecidableEq

def liveView (r : Option (List Entry × Pool)) : Option LiveView :=
  r.map fun (_, q) => ⟨[placeOf q.threads[0]?, placeOf q.threads[1]?], q.st.inp.sched.length, q.st.sock.out.written⟩

theorem exLiveRun : liveView (Pool.execLog exEnv (List.replicate 10 0 ++ List.replicate 11 1 ++ List.replicate 9 0) exLive) =
    some ⟨[1, 0], 0, [0x81, 2, 7, 8, 0x8a, 1, 0x21]⟩ := by
  decide +kernel

/-- The hypotheses of `C61_no_deadlock` and `C61_finish` are met; in this execution one thread has ended and the other one waits for input. -/
example : ∃ p q0 q1, Pool.Steps exEnv exLive p ∧ (∀ q ∈ exLive.threads, AppThread exEnv 40 q) ∧ exLive.st.inp.sched.length < 40 ∧
    exLive.st.sock.out.sched.length < 40 ∧ p.threads[0]? = some q0 ∧ WaitsFor p.st q0 ∧ p.threads[1]? = some q1 ∧ Ended q1 := by
  have h := exLiveRun
  rcases he : Pool.execLog exEnv (List.replicate 10 0 ++ List.replicate 11 1 ++ List.replicate 9 0) exLive with _ | ⟨log, p⟩
  · rw [he] at h; cases h
  · rw [he] at h
    injection h with h
    injection h with h1 h2 h3
    injection h1 with h4 h5
    injection h5 with h5 _
    obtain ⟨q0, e1, e2⟩ := placeOf_read h4
    refine ⟨p, q0, .ret (), execLog_steps_from _ _ _ _ .refl he, ?_, by decide, by decide, e1, ?_, placeOf_ret h5, .inl rfl⟩
    · intro t ht
      simp only [exLive, List.mem_cons, List.not_mem_nil, or_false] at ht
      rcases ht with rfl | rfl
      · exact .listen _
      · exact .code _
    · unfold IsAt at e2
      split at e2 <;> first | exact .inl ⟨_, _, rfl, List.length_eq_zero_iff.mp h2⟩ | cases e2

end OatWS.Threads
