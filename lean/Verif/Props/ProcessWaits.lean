import Verif.Spec.Waits
import Verif.Props.AsyncProcess
import Verif.Props.NetworkLive
import Verif.Proofs.AsyncRaces
/-! # C81: no socket holds up another -/

namespace OatWS.Process
open RFC6455 Async Network

variable {env penv : Nat → Env} {may : Nat → UserOp → Prop} {fuel : Nat} {jobs : List Job} {socks : Nat → St} {peers : Nat → Endpoint} {la lb : List (Nat × Entry)} {n : Net}

/-- **C81.** At every moment of every execution of a process with any sockets (as C79), each thread has ended, or can make its next step, or waits for the connection of the one socket that it uses at this
moment: for input that has not come, or for a connection that does not take bytes. No thread waits for another thread or for another socket. -/
theorem C81_threads (h : Net.Runs env penv may ⟨jobs.map (Job.code env fuel), socks, peers⟩ la lb n) (hf : ∀ k, (socks k).inp.sched.length < fuel ∧ (socks k).sock.out.sched.length < fuel)
    (g : Code Unit) (hg : g ∈ n.threads) : Ended g ∨ Goes env n g ∨ ∃ k, WaitsFor n k g := by
  obtain ⟨i, hi⟩ := List.mem_iff_getElem?.mp hg
  cases g with
  | ret a => exact .inl (.inl rfl)
  | throw e => exact .inl (.inr (.inl ⟨e, rfl⟩))
  | ub k u => exact .inl (.inr (.inr ⟨k, u, rfl⟩))
  | choose c => exact .inr (.inl (.inl ⟨c, rfl⟩))
  | stuck k =>
    obtain ⟨react, v, v', h⟩ := h.alone k id (fun _ => rfl) fun _ h => h
    obtain ⟨q, h1, h2⟩ := h.tracks i _ hi
    rw [h2.stuck rfl] at h1
    obtain ⟨p, e, hp⟩ := Fed.threads h.linked.fed.1
    injection e with e
    subst e
    refine (hp.live (fun t ht => ?_) _ (List.mem_of_getElem? h1)).elim
    obtain ⟨j, hj⟩ := List.mem_iff_getElem?.mp ht
    obtain ⟨J, _, hJ⟩ := mem_of_seen (f := id) (fun _ => rfl) (fun _ h => h) h j t hj
    exact (hJ.code (P := fun _ => True) fun _ _ => trivial).app.live _ _ (hf k).1 (hf k).2
  | act k a c =>
    right
    rcases Threads.exec_or_waits (env k) (n.socks k) a (fun _ => .ret ()) with ⟨a', k', r, st', e, he⟩ | ⟨m, k', e, hs⟩ | ⟨d, k', e, hs⟩
    · injection e with e1 e2
      subst e1
      cases a with
      | read m =>
        by_cases hb : (n.socks k).inp.bytes = []
        · exact .inr ⟨k, .inl ⟨m, c, rfl, .inl hb⟩⟩
        · refine .inl (.inr ⟨k, _, c, r, st', rfl, ?_, he⟩)
          unfold Threads.Ready
          split
          · exact decide_eq_true hb
          · rfl
      | _ => exact .inl (.inr ⟨k, _, c, r, st', rfl, rfl, he⟩)
    · injection e with e1 e2
      subst e1
      exact .inr ⟨k, .inl ⟨m, c, rfl, .inr hs⟩⟩
    · injection e with e1 e2
      subst e1
      exact .inr ⟨k, .inr ⟨d, c, rfl, hs⟩⟩

/-- The hypotheses of the theorem are met (the chat of C79); the first session waits for its client to say more. -/
example : ∃ n la lb, Net.Runs (fun _ => Fixture.env) (fun _ => Fixture.env) exChatMay ⟨exChatJobs.map (Job.code (fun _ => Fixture.env) 100), exChatSocks, exChatPeers⟩ la lb n ∧
    (∀ g ∈ n.threads, Ended g ∨ Goes (fun _ => Fixture.env) n g ∨ ∃ k, WaitsFor n k g) ∧ ∃ g, n.threads[0]? = some g ∧ WaitsFor n 0 g := by
  have hl := exChat_runs
  have hB := exChat_heard
  generalize exChat.1 = la, exChat.2.1 = lb, exChat.2.2 = n at hl hB
  refine ⟨n, la, lb, hl, fun g hg => C81_threads hl (fun k => ⟨Nat.le_of_ble_eq_true rfl, Nat.le_of_ble_eq_true rfl⟩) g hg, ?_⟩
  injection hB with hB hB'
  injection hB with b1 b2 b3 b4 b5 b6 b7 b8
  injection hB' with b9 b10
  cases h : n.threads[0]? with
  | none => rw [h] at b10; cases b10
  | some g =>
    rw [h] at b10
    injection b10 with b10
    obtain ⟨c, x, rfl⟩ := readsNow_sound b10
    exact ⟨_, rfl, .inl ⟨c, x, rfl, .inl b7⟩⟩

end OatWS.Process

namespace OatWS.AsyncProcess
open RFC6455 Async Network

variable {env penv : Nat → Env} {may : Nat → UserOp → Prop} {jobs : List Job} {socks : Nat → World} {peers : Nat → Endpoint} {la lb : List (Nat × Entry)} {n : Net}

theorem writeInline_grows (left : List UInt8) (o : OutStream) : ∃ bs, (writeInline left o).2.written = o.written ++ bs := by
  unfold writeInline
  split
  · exact ⟨[], (List.append_nil _).symm⟩
  · exact ⟨[], (List.append_nil _).symm⟩
  · split
    · dsimp only
      split
      · exact ⟨_, rfl⟩
      · exact ⟨_, rfl⟩
    · exact ⟨[], (List.append_nil _).symm⟩
    · exact ⟨[], (List.append_nil _).symm⟩
    · exact ⟨[], (List.append_nil _).symm⟩

theorem writeStep_grows (left : List UInt8) (l : Local) (w : World) (again : List UInt8 → Co) (cont : Act) :
    ∃ bs, (writeStep left l w again cont).2.2.st.sock.out.written = w.st.sock.out.written ++ bs := by
  obtain ⟨bs, h⟩ := writeInline_grows left w.st.sock.out
  refine ⟨bs, ?_⟩
  unfold writeStep
  revert h
  rcases writeInline left w.st.sock.out with ⟨x, o⟩
  intro h
  cases x <;> exact h

theorem coStep_grows (env : Env) (c : Co) (l : Local) (w : World) : ∃ bs, (coStep env c l w).2.2.st.sock.out.written = w.st.sock.out.written ++ bs := by
  by_cases h : (Threads.Loc.output, true) ∈ c.touches l
  · cases c with
    | sendFrame c =>
      rcases c with ⟨pc⟩
      cases pc with
      | writeMessage => exact writeStep_grows ..
      | _ => exact absurd h (by dsimp only [Co.touches]; simp)
    | writeFrame c =>
      rcases c with ⟨pc⟩
      cases pc with
      | act => exact writeStep_grows ..
      | writeMessageLen => exact writeStep_grows ..
      | writeMask => exact writeStep_grows ..
      | _ => exact absurd h (by dsimp only [Co.touches]; simp)
    | _ =>
      refine absurd h ?_
      dsimp only [Co.touches]
      repeat' split
      all_goals simp
  · refine ⟨[], ?_⟩
    have := same_coStep (x := .output) env c l w h
    rw [List.append_nil]
    exact congrArg OutStream.written this

/-- A task is never without coroutines. -/
def Live (s : State) : Prop := ∀ t, s = .run t → t.coros ≠ []

theorem live_unwind (e : AErr) (rest : List Coro) (l : Local) (ws : Nat → World) : Live (unwindM e rest l ws).1 := by
  induction rest generalizing ws with
  | nil => exact fun t h => (by cases h)
  | cons c rest ih =>
    cases c with
    | user b =>
      dsimp only [unwindM]
      split
      · intro t h
        injection h with h
        subst h
        exact List.cons_ne_nil _ _
      · exact ih ws
    | lib k c => exact ih _

theorem live_move {k : Nat} {c : Co} {rest : List Coro} {l : Local} {ws ws' : Nat → World} {s : State} (h : move env k c rest l ws = some (s, ws')) : Live s := by
  unfold move at h
  rcases he : coStep (env k) c l (ws k) with ⟨a, l', w'⟩
  rw [he] at h
  have hr : ∀ x xs l, Live (.run ⟨x :: xs, l⟩) := fun x xs l t h => by
    injection h with h
    subst h
    exact List.cons_ne_nil _ _
  cases a with
  | goto c2 => dsimp only at h; injection h with h; injection h with h h'; subst h; exact hr _ _ _
  | call cs c2 =>
    dsimp only at h
    injection h with h
    injection h with h h'
    subst h
    intro t h
    injection h with h
    subst h
    exact List.append_ne_nil_of_right_ne_nil _ (List.cons_ne_nil _ _)
  | finish =>
    dsimp only at h
    cases rest with
    | nil => injection h with h; injection h with h h'; subst h; exact fun t h => (by cases h)
    | cons => injection h with h; injection h with h h'; subst h; exact hr _ _ _
  | error e =>
    dsimp only at h
    injection h with h
    have := live_unwind e rest l' (put ws k (destroy c w'))
    rw [h] at this
    exact this
  | blocked => cases h
  | ub u => dsimp only at h; injection h with h; injection h with h h'; subst h; exact fun t h => (by cases h)

theorem Net.Runs.alive (h : Net.Runs env penv may ⟨jobs.map Job.start, socks, peers⟩ la lb n) : ∀ s ∈ n.tasks, Live s := by
  induction h with
  | refl =>
    intro s hs
    obtain ⟨J, _, rfl⟩ := List.mem_map.mp hs
    cases J <;>
    · intro t h
      injection h with h
      subst h
      exact List.cons_ne_nil _ _
  | lib _ _ _ h3 _ ih =>
    intro s hs
    rcases List.mem_or_eq_of_mem_set hs with hs | rfl
    · exact ih s hs
    · exact live_move h3
  | does _ _ _ h3 ih =>
    intro s hs
    rcases List.mem_or_eq_of_mem_set hs with hs | rfl
    · exact ih s hs
    · exact live_move h3
  | ends _ _ ih =>
    intro s hs
    rcases List.mem_or_eq_of_mem_set hs with hs | rfl
    · exact ih s hs
    · split
      · exact fun t h => (by cases h)
      · rename_i hne
        intro t h
        injection h with h
        subst h
        exact hne
  | peer _ _ ih => exact ih

theorem move_none {k : Nat} {c : Co} {rest : List Coro} {l : Local} {ws : Nat → World} (h : move env k c rest l ws = none) : (coStep (env k) c l (ws k)).1 = .blocked := by
  unfold move at h
  rcases he : coStep (env k) c l (ws k) with ⟨a, l', w'⟩
  rw [he] at h
  cases a with
  | blocked => rfl
  | finish => cases rest <;> cases h
  | _ => cases h

/-- **C81** (async). At every moment of every execution of an async process with any sockets (as C80), each task has ended, or can make its next step, or waits for the connection of the one socket that the
coroutine that runs uses: for input that has not come, or for a connection that does not take bytes. No task waits for another task or for another socket. -/
theorem C81_tasks (h : Net.Runs env penv may ⟨jobs.map Job.start, socks, peers⟩ la lb n) (s : State) (hs : s ∈ n.tasks) : Ended s ∨ Goes env n s ∨ ∃ k, WaitsFor n k s := by
  have hl := h.alive s hs
  rcases s with ⟨⟨coros, l⟩⟩ | _ | e | ⟨k, u⟩
  · right
    rcases coros with _ | ⟨c, rest⟩
    · exact absurd rfl (hl _ rfl)
    · rcases c with ⟨k, c⟩ | b
      · cases hm : move env k c rest l n.socks with
        | none =>
          have hb := move_none hm
          rcases coStep_does (env k) c l (n.socks k) with ⟨_, _, h⟩ | ⟨_, _, _, h⟩ | ⟨_, _, h⟩
          · exact absurd hb h
          · rw [hb] at h
            exact h.elim
          · obtain ⟨e1, e2⟩ := reads_of_stack (t := ⟨[c], l⟩) rfl
            refine .inr ⟨k, c, rest, l, rfl, ?_⟩
            rw [e1, e2]
            rcases h with ⟨h1, h2⟩ | h
            · exact .inl ⟨h1, .inr h2⟩
            · exact .inr h
        | some x =>
          obtain ⟨s', ws⟩ := x
          by_cases hr : Task.ready ⟨[c], l⟩ (n.socks k) = true
          · obtain ⟨bs, hbs⟩ := coStep_grows (env k) c l (n.socks k)
            refine .inl (.inr ⟨k, c, rest, l, s', ws, bs, rfl, hr, hm, ?_⟩)
            rw [(move_st hm).1]
            exact hbs
          · refine .inr ⟨k, c, rest, l, rfl, .inl ?_⟩
            unfold Task.ready at hr
            split at hr
            · rename_i h1 _
              refine ⟨h1, .inl ?_⟩
              by_cases hb : (n.socks k).st.inp.bytes = []
              · exact hb
              · exact absurd (decide_eq_true hb) hr
            · exact absurd rfl hr
      · exact .inl (.inl ⟨b, rest, l, rfl⟩)
  · exact .inl (.inl rfl)
  · exact .inl (.inr (.inl ⟨e, rfl⟩))
  · exact .inl (.inr (.inr ⟨k, u, rfl⟩))

/-- The hypotheses of the theorem are met (the chat of C80); the first task waits for its client to say more. -/
example : ∃ n la lb, Net.Runs (fun _ => Fixture.env) (fun _ => Fixture.env) Process.exChatMay ⟨exRoomJobs.map Job.start, exRoomSocks, Process.exChatPeers⟩ la lb n ∧
    (∀ s ∈ n.tasks, Ended s ∨ Goes (fun _ => Fixture.env) n s ∨ ∃ k, WaitsFor n k s) ∧ ∃ s, n.tasks[0]? = some s ∧ WaitsFor n 0 s := by
  have hl := exRoom_runs
  have hB := exRoom_heard
  generalize exRoom.1 = la, exRoom.2.1 = lb, exRoom.2.2 = n at hl hB
  refine ⟨n, la, lb, hl, fun s hs => C81_tasks hl s hs, ?_⟩
  injection hB with hB hB'
  injection hB with b1 b2 b3 b4 b5 b6 b7 b8
  injection hB' with b9 b10
  obtain ⟨c, rest, l, hx, hr⟩ := waitsOnNow_sound b10
  exact ⟨_, hx, c, rest, l, rfl, .inl ⟨hr, .inl b7⟩⟩

end OatWS.AsyncProcess
