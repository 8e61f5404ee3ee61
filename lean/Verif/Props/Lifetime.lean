import Verif.Proofs.AsyncLifetime
import Verif.Proofs.AsyncInstalled
import Verif.Proofs.ThreadLifetime
import Verif.Proofs.Exec
import Verif.Spec.Fixtures
/-!
# C74: which listeners exist while their callbacks run

The blocking socket calls callbacks through its member `m_listener` and has the only shared pointer of the library; the coroutines of the asynchronous one have a shared
pointer of their own.
-/

namespace OatWS
open Async (listenTask sendTask userTask)

/-! ## Asynchronous -/

namespace Async

theorem starting_held {env : Env} {t : Task} (h : Starting env t) : Held t.stack := by
  cases h with
  | listen h => exact ⟨fun _ h => (by cases h), trivial⟩
  | send c => exact ⟨fun _ h => (by cases c <;> cases h), trivial⟩
  | user ops => exact ⟨fun _ h => (by cases h), trivial⟩

theorem held_steps {env : Env} {p p' : Pool} (h : ∀ o ∈ p.tasks, ∀ t, o = .run t → Held t.stack) (hs : Pool.Steps env p p') :
    ∀ o ∈ p'.tasks, ∀ t, o = .run t → Held t.stack := by
  induction hs with
  | refl => exact h
  | tail _ hs ih =>
    cases hs with
    | @mk ts w i t o w' hi hst _ =>
      intro o' ho t' ht'
      rcases List.mem_or_eq_of_mem_set ho with ho | ho
      · exact ih o' ho t' ht'
      · subst ho ht'
        exact held_step env (ih _ (List.mem_of_getElem? hi) t rfl) hst

end Async

/-- **C74** (asynchronous): any number of tasks listen, send, or are other coroutines of the application, which may install any listeners at any time. In every execution, a
coroutine that was returned by a callback of listener `l` has, as long as it is there, below it a coroutine of the library that has a shared pointer to `l`. -/
theorem C74_tasks (env : Env) (p p' : Async.Pool) (hp : ∀ o ∈ p.tasks, ∀ t, o = .run t → Async.Starting env t) (hs : Async.Pool.Steps env p p')
    (t : Async.Task) (ht : .run t ∈ p'.tasks) (above below : List Async.Co) (c : Async.Co) (l : Nat) (hc : t.stack = above ++ c :: below) (hl : c.of = some l) :
    ∃ d ∈ below, d.holds = some l := by
  have h := Async.held_steps (fun o ho t' ht' => Async.starting_held (hp o ho t' ht')) hs _ ht t rfl
  rw [hc] at h
  exact h.split hl

/-- **C74** (asynchronous): each step of a task makes at most one callback; after that the coroutine returned by the method of the listener is the one on top, directly above one that
has a shared pointer to the listener called. -/
theorem C74_callback (env : Env) (p p' : Async.Pool) (hs : Async.Pool.Step env p p') :
    p'.world.st.sock.trace = p.world.st.sock.trace ∨
    ∃ e t u c rest, p'.world.st.sock.trace = p.world.st.sock.trace ++ [e] ∧ .run t ∈ p'.tasks ∧ t.stack = .user u :: c :: rest ∧
      (Async.Co.user u).of = some e.to ∧ c.holds = some e.to := by
  cases hs with
  | @mk ts w i t o w' hi hst _ =>
    rcases Async.told_step env t w hst with h | ⟨u, c, rest, l, e, h1, h2, h3, h4⟩
    · exact .inl h
    · subst h1
      exact .inr ⟨e, ⟨.user u :: c :: rest, l⟩, u, c, rest, h2, List.mem_set (List.getElem?_eq_some_iff.mp hi).1 _, rfl, h3, h4⟩

theorem Async.StartingOf.from {I : Option Nat → Prop} {env : Env} {t : Async.Task} (h : Async.StartingOf I env t) : ∀ c ∈ t.stack, c.From I := by
  cases h with
  | listen h => intro c hc; rw [Async.listenTask, List.mem_singleton] at hc; subst hc; trivial
  | send c => intro d hd; rw [Async.sendTask, List.mem_singleton] at hd; subst hd; cases c <;> trivial
  | user ops h => intro c hc; rw [Async.userTask, List.mem_singleton] at hc; subst hc; exact h

/-- **C74** (asynchronous): if the application has shared pointers of its own to all the listeners that are ever installed, it has one to every listener that is called, and to every
listener that a coroutine has a pointer to. -/
theorem C74_tasks_kept (env : Env) (kept : Nat → Prop) (p p' : Async.Pool) (henv : env.Installs fun x => ∀ l, x = some l → kept l)
    (hp : ∀ o ∈ p.tasks, ∀ t, o = .run t → Async.StartingOf (fun x => ∀ l, x = some l → kept l) env t) (h0 : ∀ l, p.world.st.sock.listener = some l → kept l)
    (hs : Async.Pool.Steps env p p') :
    (∃ new, p'.world.st.sock.trace = p.world.st.sock.trace ++ new ∧ ∀ e ∈ new, kept e.to) ∧
      ∀ t, .run t ∈ p'.tasks → ∀ c ∈ t.stack, ∀ l, c.holds = some l → kept l := by
  obtain ⟨h1, _, new, h3, h4⟩ := Async.from_steps henv (fun o ho t ht => (hp o ho t ht).from) h0 hs
  refine ⟨⟨new, h3, fun e he => h4 e he _ rfl⟩, fun t ht c hc l hl => ?_⟩
  have h := h1 _ ht t rfl c hc
  cases c with
  | readPayload c => exact h l hl
  | handleFrame c => exact h l hl
  | _ => cases hl

/-- **C74** (asynchronous): if nobody installs another listener, the socket owns its listener, and no other one is called. -/
theorem C74_tasks_fixed (env : Env) (l : Nat) (p p' : Async.Pool) (henv : env.Installs fun x => x = some l)
    (hp : ∀ o ∈ p.tasks, ∀ t, o = .run t → Async.StartingOf (fun x => x = some l) env t) (h0 : p.world.st.sock.listener = some l) (hs : Async.Pool.Steps env p p') :
    p'.world.st.sock.listener = some l ∧ ∃ new, p'.world.st.sock.trace = p.world.st.sock.trace ++ new ∧ ∀ e ∈ new, e.to = l := by
  obtain ⟨_, h2, new, h3, h4⟩ := Async.from_steps henv (fun o ho t ht => (hp o ho t ht).from) h0 hs
  exact ⟨h2, new, h3, fun e he => by injection h4 e he⟩

/-! ## Blocking -/

/-- **C74** (blocking): if the application has shared pointers of its own to all the listeners that are ever installed, it has one to every listener that is called. -/
theorem C74_threads_kept (env : Env) (fuel : Nat) (kept : Nat → Prop) (p p' : Threads.Pool) (henv : env.Installs fun x => ∀ l, x = some l → kept l)
    (hp : ∀ q ∈ p.threads, Threads.CodeOf (UserOp.Installs fun x => ∀ l, x = some l → kept l) env fuel q) (h0 : ∀ l, p.st.sock.listener = some l → kept l)
    (hs : Threads.Pool.Steps env p p') :
    ∃ new, p'.st.sock.trace = p.st.sock.trace ++ new ∧ ∀ e ∈ new, kept e.to := by
  have h : Threads.Keeping (fun x => ∀ l, x = some l → kept l) p.st.sock.trace p :=
    ⟨fun q hq => Threads.calls_code henv (hp q hq), h0, [], (List.append_nil _).symm, fun _ h => absurd h List.not_mem_nil⟩
  obtain ⟨new, h1, h2⟩ := (h.steps hs).told
  exact ⟨new, h1, fun e he => h2 e he _ rfl⟩

/-- **C74** (blocking): if the listener `l` is installed and nobody installs another one while the socket is in use, then at each moment the socket has a shared pointer to `l`, and `l` is
the only listener called. -/
theorem C74_threads_fixed (env : Env) (fuel l : Nat) (p p' : Threads.Pool) (henv : env.Installs fun x => x = some l)
    (hp : ∀ q ∈ p.threads, Threads.CodeOf (UserOp.Installs fun x => x = some l) env fuel q) (h0 : p.st.sock.listener = some l)
    (hs : Threads.Pool.Steps env p p') :
    p'.st.sock.listener = some l ∧ ∃ new, p'.st.sock.trace = p.st.sock.trace ++ new ∧ ∀ e ∈ new, e.to = l := by
  have h : Threads.Keeping (fun x => x = some l) p.st.sock.trace p :=
    ⟨fun q hq => Threads.calls_code henv (hp q hq), h0, [], (List.append_nil _).symm, fun _ h => absurd h List.not_mem_nil⟩
  have h' := h.steps hs
  obtain ⟨new, h1, h2⟩ := h'.told
  exact ⟨h'.now, new, h1, fun e he => (by have := h2 e he; injection this)⟩

/-! ## Blocking: a listener that is replaced during its callback -/

namespace Threads

/-- The step that a program makes next. -/
def Prog.next {α : Type} : Prog α → Option Act
  | .act a _ => some a
  | _ => none

/-- Executing steps of the given threads, in the given order, if possible. -/
def Pool.turns (env : Env) : List Nat → Pool → Option Pool
  | [], p => some p
  | i :: is, p =>
    match p.threads[i]? with
    | some (.act a k) =>
      match exec env a p.st with
      | none => none
      | some (r, st') => Pool.turns env is ⟨p.threads.set i (k r), st'⟩
    | _ => none

theorem Pool.turns_steps {env : Env} {is : List Nat} {p0 p q : Pool} (h0 : Pool.Steps env p0 p) (h : Pool.turns env is p = some q) : Pool.Steps env p0 q := by
  induction is generalizing p with
  | nil => injection h with h; subst h; exact h0
  | cons i is ih =>
    unfold Pool.turns at h
    split at h
    · rename_i a k hi
      split at h
      · cases h
      · rename_i r st' he
        exact ih (.tail h0 (.mk hi he)) h
    · cases h

end Threads

/-- On a ping, listener 7 installs listener 8 and answers with a pong. -/
def exSwap : Env := { Fixture.env with react := fun tr => if tr = [.onPing 7 [0x21]] then [.setListener (some 8), .send (.pong (some [0x21])) false] else [] }

/-- A thread listens with listener 7; a ping arrives. -/
def exSwapped : Threads.Pool := ⟨[Threads.listenT exSwap 40 default],
  { sock := { Sock.new { readBufferSize := 2 } ⟨[], Fixture.slow 9⟩ with listener := some 7 }, inp := ⟨[0x89, 0x01, 0x21], [.upTo 9, .upTo 9]⟩ }⟩

theorem exSwapped_run : (Threads.Pool.turns exSwap (List.replicate 8 0) exSwapped).map
    (fun q => (q.st.sock.trace, q.st.sock.listener, q.threads.map Threads.Prog.next)) = some ([.onPing 7 [0x21]], some 8, [some (.call (.pong (some [0x21])))]) := by
  decide +kernel

/-- **C74** (blocking), the exception: listener 7 has been called and is about to answer, as its code says, but it has installed listener 8, and unless the application has kept one,
there is no shared pointer to it any more: the rest of its code runs in an object that has been destroyed. -/
theorem C74_replaced : ∃ p', Threads.Pool.Steps exSwap exSwapped p' ∧ p'.st.sock.trace = [.onPing 7 [0x21]] ∧
    exSwap.react p'.st.sock.trace = [.setListener (some 8), .send (.pong (some [0x21])) false] ∧ p'.threads.map Threads.Prog.next = [some (.call (.pong (some [0x21])))] ∧
    ∀ kept, Owned kept p'.st.sock 7 → kept 7 := by
  have h := exSwapped_run
  rcases he : Threads.Pool.turns exSwap (List.replicate 8 0) exSwapped with _ | p'
  · rw [he] at h; cases h
  · rw [he] at h
    have h := Option.some.inj h
    have h1 : p'.st.sock.trace = [.onPing 7 [0x21]] := congrArg Prod.fst h
    have h2 : p'.st.sock.listener = some 8 := congrArg (fun x => x.2.1) h
    refine ⟨p', Threads.Pool.turns_steps .refl he, h1, ?_, congrArg (fun x => x.2.2) h, fun kept ho => ?_⟩
    · rw [h1]; rfl
    · rcases ho with ho | ho
      · rw [h2] at ho; cases ho
      · exact ho

/-- As `exSwap`, but listener 7 only answers. -/
def exAnswer : Env := { Fixture.env with react := fun _ => [.send (.pong (some [0x21])) false] }

/-- As `exSwapped`, and another thread installs listener 8. -/
def exStolen : Threads.Pool := ⟨[Threads.listenT exAnswer 40 default, Threads.userOpsT exAnswer 40 [.setListener (some 8)]], exSwapped.st⟩

theorem exStolen_run : (Threads.Pool.turns exAnswer (List.replicate 7 0 ++ [1]) exStolen).map
    (fun q => (q.st.sock.trace, q.st.sock.listener, q.threads.map Threads.Prog.next)) = some ([.onPing 7 [0x21]], some 8, [some (.call (.pong (some [0x21]))), none]) := by
  decide +kernel

/-- **C74** (blocking), the exception: the same if another thread installs a listener while the callback runs. -/
theorem C74_replaced_by_thread : ∃ p', Threads.Pool.Steps exAnswer exStolen p' ∧ p'.st.sock.trace = [.onPing 7 [0x21]] ∧
    exAnswer.react p'.st.sock.trace = [.send (.pong (some [0x21])) false] ∧ p'.threads.map Threads.Prog.next = [some (.call (.pong (some [0x21]))), none] ∧
    ∀ kept, Owned kept p'.st.sock 7 → kept 7 := by
  have h := exStolen_run
  rcases he : Threads.Pool.turns exAnswer (List.replicate 7 0 ++ [1]) exStolen with _ | p'
  · rw [he] at h; cases h
  · rw [he] at h
    have h := Option.some.inj h
    have h1 : p'.st.sock.trace = [.onPing 7 [0x21]] := congrArg Prod.fst h
    have h2 : p'.st.sock.listener = some 8 := congrArg (fun x => x.2.1) h
    refine ⟨p', Threads.Pool.turns_steps .refl he, h1, rfl, congrArg (fun x => x.2.2) h, fun kept ho => ?_⟩
    rcases ho with ho | ho
    · rw [h2] at ho; cases ho
    · exact ho

/-! ## The hypotheses are met -/

/-- The hypotheses of `C74_threads_kept` are met by these threads if the application keeps 7 and 8. -/
example : exSwap.Installs (fun x => ∀ l, x = some l → l = 7 ∨ l = 8) ∧
    (∀ q ∈ exStolen.threads, Threads.CodeOf (UserOp.Installs fun x => ∀ l, x = some l → l = 7 ∨ l = 8) exAnswer 40 q) ∧ (∀ l, exStolen.st.sock.listener = some l → l = 7 ∨ l = 8) := by
  refine ⟨fun tr op hop => ?_, fun q hq => ?_, fun l h => ?_⟩
  · have hop : op ∈ (if tr = [.onPing 7 [0x21]] then [UserOp.setListener (some 8), .send (.pong (some [0x21])) false] else []) := hop
    split at hop
    · simp only [List.mem_cons, List.not_mem_nil, or_false] at hop
      rcases hop with rfl | rfl
      · intro l h; injection h with h; exact .inr h.symm
      · trivial
    · exact absurd hop List.not_mem_nil
  · have hq : q ∈ [Threads.listenT exAnswer 40 default, Threads.userOpsT exAnswer 40 [.setListener (some 8)]] := hq
    simp only [List.mem_cons, List.not_mem_nil, or_false] at hq
    rcases hq with rfl | rfl
    · exact .listen _
    · refine .helper (.code _ fun op hop => ?_)
      rw [List.mem_singleton] at hop
      subst hop
      intro l h; injection h with h; exact .inr h.symm
  · have h : some 7 = some l := h
    injection h with h
    exact .inl h.symm

/-- The hypotheses of `C74_threads_fixed` are met: a thread listens, another one listens too and catches what it throws; listener 7 answers. -/
example : exAnswer.Installs (fun x => x = some 7) ∧ exSwapped.st.sock.listener = some 7 ∧
    Threads.CodeOf (UserOp.Installs fun x => x = some 7) exAnswer 40 (Threads.Prog.catching (Threads.listenT exAnswer 40 default) fun _ => Threads.userOpsT exAnswer 40 [.setListener (some 7)]) := by
  refine ⟨fun tr op hop => ?_, rfl, .catching (.listen _) fun _ => .helper (.code _ fun op hop => ?_)⟩
  · have hop : op ∈ [UserOp.send (.pong (some [0x21])) false] := hop
    rw [List.mem_singleton] at hop
    subst hop
    trivial
  · rw [List.mem_singleton] at hop
    subst hop
    rfl

/-- As `exSwapped`, with a task that listens and another one that installs listener 9 and sends. -/
def exSwappedA : Async.Pool := ⟨[.run (listenTask default), .run (userTask [.setListener (some 9)]), .run (sendTask exSwap (.text (some [1])))], { st := exSwapped.st }⟩

/-- The callback of listener 7 has installed listener 8, another task listener 9, and the send of the callback is under way; -/
theorem exSwappedA_run : (Async.Pool.exec exSwap (List.replicate 13 0 ++ [1]) exSwappedA).map (fun q => (q.world.st.sock.trace, q.world.st.sock.listener)) =
    some ([.onPing 7 [0x21]], some 9) := by
  decide +kernel

/-- listener 7 is still held by the coroutine that has called it. The hypotheses of `C74_tasks` are met. -/
example : ((Async.Pool.exec exSwap (List.replicate 13 0 ++ [1]) exSwappedA).bind fun q => q.tasks[0]?.bind fun (o : Async.Outcome) => match o with
    | .run t => some (t.stack.map fun c => (c.of, c.holds))
    | _ => none) = some [(none, none), (none, none), (some 7, none), (none, some 7), (none, none)] ∧ ∀ o ∈ exSwappedA.tasks, ∀ t, o = .run t → Async.Starting exSwap t := by
  refine ⟨by decide +kernel, fun o ho t ht => ?_⟩
  have ho : o ∈ [Async.Outcome.run (listenTask default), .run (userTask [.setListener (some 9)]), .run (sendTask exSwap (.text (some [1])))] := ho
  simp only [List.mem_cons, List.not_mem_nil, or_false] at ho
  rcases ho with rfl | rfl | rfl <;> (injection ht with ht; subst ht)
  · exact .listen _
  · exact .user _
  · exact .send _

/-- The hypotheses of `C74_tasks_kept` (the application keeps listeners 7, 8 and 9) are met by that pool. -/
example : exSwap.Installs (fun x => ∀ l, x = some l → 7 ≤ l ∧ l ≤ 9) ∧
    (∀ o ∈ exSwappedA.tasks, ∀ t, o = .run t → Async.StartingOf (fun x => ∀ l, x = some l → 7 ≤ l ∧ l ≤ 9) exSwap t) ∧
    ∀ l, exSwappedA.world.st.sock.listener = some l → 7 ≤ l ∧ l ≤ 9 := by
  refine ⟨fun tr op hop => ?_, fun o ho t ht => ?_, fun l h => ?_⟩
  · have hop : op ∈ (if tr = [.onPing 7 [0x21]] then [UserOp.setListener (some 8), .send (.pong (some [0x21])) false] else []) := hop
    split at hop
    · simp only [List.mem_cons, List.not_mem_nil, or_false] at hop
      rcases hop with rfl | rfl
      · intro l h; injection h with h; omega
      · trivial
    · exact absurd hop List.not_mem_nil
  · have ho : o ∈ [Async.Outcome.run (listenTask default), .run (userTask [.setListener (some 9)]), .run (sendTask exSwap (.text (some [1])))] := ho
    simp only [List.mem_cons, List.not_mem_nil, or_false] at ho
    rcases ho with rfl | rfl | rfl <;> (injection ht with ht; subst ht)
    · exact .listen _
    · refine .user _ fun op hop => ?_
      rw [List.mem_singleton] at hop
      subst hop
      intro l h
      injection h with h
      omega
    · exact .send _
  · have h : some 7 = some l := h
    injection h with h
    omega

/-- The hypotheses of `C74_tasks_fixed` are met by an application in which a task listens and another one sends. -/
example : exAnswer.Installs (fun x => x = some 7) ∧ exSwappedA.world.st.sock.listener = some 7 ∧
    ∀ o ∈ [Async.Outcome.run (listenTask default), .run (sendTask exAnswer (.text (some [1])))], ∀ t, o = .run t → Async.StartingOf (fun x => x = some 7) exAnswer t := by
  refine ⟨fun tr op hop => ?_, rfl, fun o ho t ht => ?_⟩
  · have hop : op ∈ [UserOp.send (.pong (some [0x21])) false] := hop
    rw [List.mem_singleton] at hop
    subst hop
    trivial
  · simp only [List.mem_cons, List.not_mem_nil, or_false] at ho
    rcases ho with rfl | rfl <;> (injection ht with ht; subst ht)
    · exact .listen _
    · exact .send _

end OatWS
