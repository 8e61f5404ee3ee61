import Verif.Proofs.AsyncRest
import Verif.Spec.Fixtures
/-! # C67: tasks wait for nothing but the connection -/

namespace OatWS.Async

/-- The task has ended: it finished, failed, or reached undefined behaviour. -/
def Ended (o : Outcome) : Prop := o = .finished ∨ (∃ e, o = .failed e) ∨ ∃ u, o = .ub u

/-- The task waits to read from or to write to the connection, which will not become ready any more. -/
def WaitsFor (w : World) (o : Outcome) : Prop :=
  ∃ t, o = .run t ∧ ((t.reads = true ∧ w.st.inp.sched = []) ∨ (t.writes = true ∧ w.st.sock.out.sched = []))

/-- The task can make its next step now. -/
def CanStep (env : Env) (w : World) (o : Outcome) : Prop := ∃ t o' w', o = .run t ∧ step env t w = (o', w') ∧ o' ≠ .blocked

theorem reads_of_stack {t : Task} {c : Co} {rest : List Co} (h : t.stack = c :: rest) : t.reads = c.reading ∧ t.writes = c.writing := by
  unfold Task.reads Task.writes
  rw [h]
  cases c <;> exact ⟨rfl, rfl⟩

theorem can_or_waits (env : Env) (w : World) (t : Task) : CanStep env w (.run t) ∨ WaitsFor w (.run t) := by
  by_cases hb : (step env t w).1 = .blocked
  · right
    rcases step_does env t w with ⟨_, h⟩ | ⟨_, h⟩ | ⟨_, c, rest, h1, h2⟩
    · exact absurd hb h
    · rw [hb] at h
      exact h.elim
    · obtain ⟨e1, e2⟩ := reads_of_stack h1
      exact ⟨t, rfl, by rw [e1, e2]; exact h2⟩
  · exact .inl ⟨t, _, _, rfl, rfl, hb⟩

theorem never_blocked {env : Env} {p p' : Pool} (hs : Pool.Steps env p p') (hp : ∀ o ∈ p.tasks, o ≠ .blocked) : ∀ o ∈ p'.tasks, o ≠ .blocked := by
  induction hs with
  | refl => exact hp
  | tail _ h ih =>
    cases h with
    | mk h1 h2 h3 =>
      intro o ho
      rcases List.mem_or_eq_of_mem_set ho with ho | rfl
      · exact ih o ho
      · exact h3

/-- **C67** (no deadlock). Any tasks that listen, send and change settings on an async socket, any execution: each task has ended, or it can make
its next step at once, whatever the others are doing, or it waits for the connection, which will never become ready. No task ever waits for
another one. -/
theorem C67_no_deadlock (env : Env) (p p' : Pool) (hp : ∀ o ∈ p.tasks, o ≠ .blocked) (hs : Pool.Steps env p p') (o : Outcome) (ho : o ∈ p'.tasks) :
    Ended o ∨ CanStep env p'.world o ∨ WaitsFor p'.world o := by
  have hb := never_blocked hs hp o ho
  cases o with
  | run t => exact .inr (can_or_waits env p'.world t)
  | finished => exact .inl (.inl rfl)
  | failed e => exact .inl (.inr (.inl ⟨e, rfl⟩))
  | ub u => exact .inl (.inr (.inr ⟨u, rfl⟩))
  | blocked => exact absurd rfl hb

theorem pool_step_acc (env : Env) (p : Pool) : Acc (fun q p => Pool.Step env p q) p := by
  have h := poolDown_acc (p.world.left, p.tasks)
  generalize hx : (p.world.left, p.tasks) = x at h
  induction h generalizing p with
  | intro x _ ih =>
    subst hx
    refine ⟨_, fun q hq => ?_⟩
    cases hq with
    | mk h1 h2 h3 => exact ih _ (poolDown_step h1 h2 h3) _ rfl

/-- **C67** (nothing goes on for ever). There is no infinite execution (the connection becomes ready finitely often), whatever the callbacks do. -/
theorem C67_finite (env : Env) (f : Nat → Pool) : ¬ ∀ n, Pool.Step env (f n) (f (n + 1)) := by
  intro h
  have go : ∀ p, Acc (fun q p => Pool.Step env p q) p → ∀ n, p = f n → False := by
    intro p hp
    induction hp with
    | intro p _ ih =>
      rintro n rfl
      exact ih _ (h n) (n + 1) rfl
  exact go _ (pool_step_acc env (f 0)) 0 rfl

/-- **C67** (everything finishes). However an execution has gone so far, if the executor goes on with the tasks as long as it can, then each task
ends or comes to wait for the connection, which will never become ready. -/
theorem C67_finish (env : Env) (p p' : Pool) (hp : ∀ o ∈ p.tasks, o ≠ .blocked) (hs : Pool.Steps env p p') :
    ∃ p'', Pool.Steps env p' p'' ∧ ∀ o ∈ p''.tasks, Ended o ∨ WaitsFor p''.world o := by
  have ha := pool_step_acc env p'
  induction ha with
  | intro p' _ ih =>
    by_cases hc : ∃ p2, Pool.Step env p' p2
    · obtain ⟨p2, h2⟩ := hc
      obtain ⟨p3, h3, h4⟩ := ih p2 h2 (.tail hs h2)
      exact ⟨p3, (Pool.Steps.tail .refl h2).trans h3, h4⟩
    · refine ⟨p', .refl, fun o ho => ?_⟩
      rcases C67_no_deadlock env p p' hp hs o ho with h | ⟨t, o', w', rfl, he, hb⟩ | h
      · exact .inl h
      · obtain ⟨i, hi⟩ := List.getElem?_of_mem ho
        exact absurd ⟨_, Pool.Step.mk hi he hb⟩ hc
      · exact .inr h

/-- A task that listens and answers a ping, one that sends; the connection delivers a ping and half a header, and then nothing more. -/
def exLive : Pool := ⟨[.run (listenTask default), .run (userTask [.send (.text (some [7, 8])) false])],
  { st := { sock := { Sock.new { readBufferSize := 2 } ⟨[], Fixture.slow 10⟩ with listener := some 7 }
            inp := ⟨[0x89, 0x01, 0x21, 0x89], List.replicate 4 (.upTo 0)⟩ } }⟩

structure LiveView where
  first : Bool
  second : Bool
  reads : Nat
  written : List UInt8
deriving DecidableEq

def liveView (r : Option Pool) : Option LiveView :=
  r.map fun q => ⟨match q.tasks[0]? with | some (Outcome.run t) => t.reads | _ => false, q.tasks[1]? == some .finished, q.world.st.inp.sched.length, q.world.st.sock.out.written⟩

def exLiveTurns : List Nat := List.replicate 10 0 ++ List.replicate 14 1 ++ List.replicate 16 0

theorem exLiveRun : liveView (Pool.exec exEnv exLiveTurns exLive) = some ⟨true, true, 0, [0x81, 2, 7, 8, 0x8a, 1, 0x21]⟩ := by
  decide +kernel

/-- The hypotheses of `C67_no_deadlock` and `C67_finish` are met; in this execution one task has ended and the other one waits for input. -/
example : ∃ p o0 o1, Pool.Steps exEnv exLive p ∧ (∀ o ∈ exLive.tasks, o ≠ .blocked) ∧ p.tasks[0]? = some o0 ∧ WaitsFor p.world o0 ∧
    p.tasks[1]? = some o1 ∧ Ended o1 := by
  have h := exLiveRun
  rcases he : Pool.exec exEnv exLiveTurns exLive with _ | p
  · rw [he] at h; cases h
  · rw [he] at h
    injection h with h
    injection h with h1 h2 h3 h4
    split at h1
    · rename_i t e
      refine ⟨p, .run t, .finished, Pool.exec_steps he, ?_, e, ⟨t, rfl, .inl ⟨h1, List.length_eq_zero_iff.mp h3⟩⟩, eq_of_beq h2, .inl rfl⟩
      intro o ho
      simp only [exLive, List.mem_cons, List.not_mem_nil, or_false] at ho
      rcases ho with rfl | rfl <;> nofun
    · cases h1

end OatWS.Async
