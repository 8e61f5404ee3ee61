import Verif.Proofs.ProcessLive
import Verif.Props.Process
import Verif.Props.AsyncProcess
import Verif.Props.ProcessWaits
/-! # C85: a process with several sockets and its peers come to rest -/

namespace OatWS.Process
open Threads Async Network

/-- **C85** (nothing goes on for ever). A process whose threads use any number of sockets, and its peers, of which finitely many have something to do: there is no infinite execution, whatever user code does in
callbacks and in between (the connections answer finitely often). -/
theorem C85_finite (env penv : Nat → Env) (may : Nat → UserOp → Prop) (f : Nat → Net) (hf : (f 0).Finite penv) : ¬ ∀ i, Net.Step env penv may (f i) (f (i + 1)) := by
  intro h
  have go : ∀ n, Acc (fun n' n => Net.Step env penv may n n') n → ∀ i, n = f i → False := by
    intro n hn
    induction hn with
    | intro n _ ih =>
      rintro i rfl
      exact ih _ (h i) (i + 1) rfl
  exact go _ (step_acc env penv may (f 0) hf) 0 rfl

/-- **C85** (it comes to rest). However an execution has gone so far, it goes on to one after which no thread of the process and no thread or task of a peer can make a step. -/
theorem C85_comes_to_rest (env penv : Nat → Env) (may : Nat → UserOp → Prop) (n0 n : Net) (la lb : List (Nat × Entry)) (hn : n0.Finite penv) (h : Net.Runs env penv may n0 la lb n) :
    ∃ la' lb' n', Net.Runs env penv may n0 (la ++ la') (lb ++ lb') n' ∧ n'.AtRest env ∧ ∀ k, (n'.peers k).AtRest (penv k) := by
  have hacc := step_acc env penv may n (h.finite hn)
  induction hacc generalizing la lb with
  | intro n _ ih =>
    by_cases hs : ∃ n', Net.Step env penv may n n'
    · obtain ⟨n', hs⟩ := hs
      obtain ⟨l1, l2, h1⟩ := h.step hs
      obtain ⟨l3, l4, n2, h2, h3⟩ := ih n' hs _ _ h1
      rw [List.append_assoc, List.append_assoc] at h2
      exact ⟨_, _, n2, h2, h3⟩
    · exact ⟨[], [], n, by rw [List.append_nil, List.append_nil]; exact h, stops_iff.mp fun n' hs' => hs ⟨n', hs'⟩⟩

/-- **C85** (the end). An execution cannot be continued exactly if the process and all peers are at rest (so that C83 says what has been heard). -/
theorem C85_ends_at_rest (env penv : Nat → Env) (may : Nat → UserOp → Prop) (n : Net) :
    (∀ n', ¬ Net.Step env penv may n n') ↔ n.AtRest env ∧ ∀ k, (n.peers k).AtRest (penv k) :=
  stops_iff

/-- **C85** (the rest is not that of the model's bounds). Threads of a process that begin with bounds on their loops above what the connections answer: from every moment it goes on to one at which each thread has ended, or waits for the connection of a socket that has
nothing to read or does not answer. No thread has stopped because the bound on a loop of the model was reached. -/
theorem C85_rest_waits {env penv : Nat → Env} {may : Nat → UserOp → Prop} {fuel : Nat} {jobs : List Job} {socks : Nat → St} {peers : Nat → Endpoint} {la lb : List (Nat × Entry)} {n : Net}
    (hn : (⟨jobs.map (Job.code env fuel), socks, peers⟩ : Net).Finite penv) (h : Net.Runs env penv may ⟨jobs.map (Job.code env fuel), socks, peers⟩ la lb n)
    (hf : ∀ k, (socks k).inp.sched.length < fuel ∧ (socks k).sock.out.sched.length < fuel) :
    ∃ la' lb' n', Net.Runs env penv may ⟨jobs.map (Job.code env fuel), socks, peers⟩ (la ++ la') (lb ++ lb') n' ∧ (∀ g ∈ n'.threads, Ended g ∨ ∃ k, WaitsFor n' k g) ∧ ∀ k, (n'.peers k).AtRest (penv k) := by
  obtain ⟨la', lb', n', h1, h2, h3⟩ := C85_comes_to_rest env penv may _ n la lb hn h
  refine ⟨la', lb', n', h1, fun g hg => ?_, h3⟩
  rcases C81_threads h1 hf g hg with h | h | h
  · exact .inl h
  · exact absurd h (h2 g hg)
  · exact .inr h

/-! ## A case -/

/-- The clients of `exChatPeers`; the other sockets have peers that do nothing. -/
def exFewPeers (k : Nat) : Endpoint := if k < 2 then exChatPeers k else .threads ⟨[], exChatSocks k⟩

theorem exFew_finite : (⟨exChatJobs.map (Job.code (fun _ => Fixture.env) 100), exChatSocks, exFewPeers⟩ : Net).Finite fun _ => Fixture.env := by
  refine ⟨2, fun k hk x e h => ?_⟩
  have : exFewPeers k = .threads ⟨[], exChatSocks k⟩ := by unfold exFewPeers; rw [if_neg (by omega)]
  dsimp only at h
  rw [this] at h
  cases h with
  | thread h1 _ _ => cases h1

def exFew := Net.play (fun _ => Fixture.env) (fun _ => Fixture.env) exChatTurns ([], [], ⟨exChatJobs.map (Job.code (fun _ => Fixture.env) 100), exChatSocks, exFewPeers⟩)

theorem exFew_runs : Net.Runs (fun _ => Fixture.env) (fun _ => Fixture.env) exChatMay ⟨exChatJobs.map (Job.code (fun _ => Fixture.env) 100), exChatSocks, exFewPeers⟩ exFew.1 exFew.2.1 exFew.2.2 := by
  unfold exFew
  refine Net.play_runs _ (fun i cs h => ?_) .refl
  simp only [exChatTurns, List.mem_append, List.mem_cons, List.mem_replicate, List.not_mem_nil, reduceCtorEq, and_false, or_false, Turn.chooses.injEq] at h
  rcases h with (((⟨_, rfl⟩ | ⟨_, rfl⟩) | ⟨_, rfl⟩) | ⟨_, rfl⟩) | ⟨_, rfl⟩
  · nofun
  · nofun
  · nofun
  · nofun
  · intro x hx
    simp only [List.mem_cons, List.not_mem_nil, or_false] at hx
    rcases hx with rfl | rfl <;> exact ⟨_, rfl, by decide⟩

/-- What the first session has said to the second client so far. -/
theorem exFew_said : (callsOf (of 1 exFew.1), (exFew.2.2.peers 1).st.sock.trace) = ([.text (some [104, 105])], [.readMessage 2 1 [104], .readMessage 2 1 [105], .readMessage 2 1 []]) := by decide +kernel

/-- This execution goes on to rest; and none from its beginning goes on for ever. -/
example : ∃ la' lb' n', Net.Runs (fun _ => Fixture.env) (fun _ => Fixture.env) exChatMay ⟨exChatJobs.map (Job.code (fun _ => Fixture.env) 100), exChatSocks, exFewPeers⟩ (exFew.1 ++ la') (exFew.2.1 ++ lb') n' ∧
    n'.AtRest (fun _ => Fixture.env) ∧ ∀ k, (n'.peers k).AtRest Fixture.env :=
  C85_comes_to_rest (fun _ => Fixture.env) (fun _ => Fixture.env) exChatMay _ _ _ _ exFew_finite exFew_runs

example (f : Nat → Net) (hf : f 0 = ⟨exChatJobs.map (Job.code (fun _ => Fixture.env) 100), exChatSocks, exFewPeers⟩) :
    ¬ ∀ i, Net.Step (fun _ => Fixture.env) (fun _ => Fixture.env) exChatMay (f i) (f (i + 1)) :=
  C85_finite _ _ _ f (by rw [hf]; exact exFew_finite)

example : ∃ la' lb' n', Net.Runs (fun _ => Fixture.env) (fun _ => Fixture.env) exChatMay ⟨exChatJobs.map (Job.code (fun _ => Fixture.env) 100), exChatSocks, exFewPeers⟩ (exFew.1 ++ la') (exFew.2.1 ++ lb') n' ∧
    (∀ g ∈ n'.threads, Ended g ∨ ∃ k, WaitsFor n' k g) ∧ ∀ k, (n'.peers k).AtRest Fixture.env :=
  C85_rest_waits exFew_finite exFew_runs fun k => ⟨Nat.le_of_ble_eq_true rfl, Nat.le_of_ble_eq_true rfl⟩

/-- There is such an end. -/
example : ∃ n : Net, n.threads.length = 2 ∧ ∀ n', ¬ Net.Step (fun _ => Fixture.env) (fun _ => Fixture.env) exChatMay n n' := by
  obtain ⟨la, lb, n, h, hr⟩ := C85_comes_to_rest (fun _ => Fixture.env) (fun _ => Fixture.env) exChatMay _ _ _ _ exFew_finite exFew_runs
  refine ⟨n, ?_, (C85_ends_at_rest _ _ _ n).mpr hr⟩
  clear hr
  generalize exFew.1 ++ la = x, exFew.2.1 ++ lb = y at h
  induction h with
  | refl => rfl
  | own _ _ _ _ ih => rw [List.length_set]; exact ih
  | chooses _ _ _ ih => rw [List.length_set]; exact ih
  | peer _ _ ih => exact ih

end OatWS.Process

namespace OatWS.AsyncProcess
open Async Network

/-- **C85** (nothing goes on for ever; async process). A process whose tasks use any number of async sockets, and its peers, of which finitely many have something to do: in an infinite execution, user code does
something with the sockets infinitely often. The library on its own does not go on for ever (the connections answer finitely often). -/
theorem C85_tasks_finite (env penv : Nat → Env) (may : Nat → UserOp → Prop) (f : Nat → Net) (acts : Nat → Bool) (hf : (f 0).Finite penv)
    (h : ∀ i, Net.Step env penv may (f i) (acts i) (f (i + 1))) (m : Nat) : ∃ i, m ≤ i ∧ acts i = true := by
  have hfin : ∀ i, (f i).Finite penv := by
    intro i
    induction i with
    | zero => exact hf
    | succ i ih => exact ih.step (h i)
  have go : ∀ n, Acc (fun n' n => Net.Step env penv may n false n') n → ∀ i, m ≤ i → n = f i → ∃ i, m ≤ i ∧ acts i = true := by
    intro n hn
    induction hn with
    | intro n _ ih =>
      rintro i hi rfl
      cases ha : acts i with
      | true => exact ⟨i, hi, ha⟩
      | false =>
        have hs := h i
        rw [ha] at hs
        exact ih _ hs (i + 1) (by omega) rfl
  exact go _ (step_acc env penv may (f m) (hfin m)) m (Nat.le_refl _) rfl

/-- **C85** (it comes to rest; async process). However an execution has gone so far, it goes on to one after which no task of the process and no thread or task of a peer can make a step. -/
theorem C85_tasks_comes_to_rest (env penv : Nat → Env) (may : Nat → UserOp → Prop) (n0 n : Net) (la lb : List (Nat × Entry)) (hn : n0.Finite penv) (h : Net.Runs env penv may n0 la lb n) :
    ∃ la' lb' n', Net.Runs env penv may n0 (la ++ la') (lb ++ lb') n' ∧ n'.AtRest env ∧ ∀ k, (n'.peers k).AtRest (penv k) := by
  have hacc := step_acc env penv may n (h.finite hn)
  induction hacc generalizing la lb with
  | intro n _ ih =>
    by_cases hs : ∃ n', Net.Step env penv may n false n'
    · obtain ⟨n', hs⟩ := hs
      obtain ⟨l1, l2, h1⟩ := h.step hs
      obtain ⟨l3, l4, n2, h2, h3⟩ := ih n' hs _ _ h1
      rw [List.append_assoc, List.append_assoc] at h2
      exact ⟨_, _, n2, h2, h3⟩
    · exact ⟨[], [], n, by rw [List.append_nil, List.append_nil]; exact h, rest_of_stops fun n' hs' => hs ⟨n', hs'⟩⟩

/-- **C85** (the end; async process). An execution cannot be continued exactly if the process and all peers are at rest (so that C83 says what has been heard). -/
theorem C85_tasks_ends_at_rest (env penv : Nat → Env) (may : Nat → UserOp → Prop) (n : Net) :
    (∀ acts n', ¬ Net.Step env penv may n acts n') ↔ n.AtRest env ∧ ∀ k, (n.peers k).AtRest (penv k) :=
  ⟨fun h => rest_of_stops (h false), fun h b n' => stops_of_rest h.1 h.2 b n'⟩

/-! ## A case -/

theorem exFew_finite : (⟨exRoomJobs.map Job.start, exRoomSocks, Process.exFewPeers⟩ : Net).Finite fun _ => Fixture.env := Process.exFew_finite

def exFew := Net.play (fun _ => Fixture.env) (fun _ => Fixture.env) exRoomTurns ([], [], ⟨exRoomJobs.map Job.start, exRoomSocks, Process.exFewPeers⟩)

theorem exFew_runs : Net.Runs (fun _ => Fixture.env) (fun _ => Fixture.env) Process.exChatMay ⟨exRoomJobs.map Job.start, exRoomSocks, Process.exFewPeers⟩ exFew.1 exFew.2.1 exFew.2.2 := by
  unfold exFew
  refine Net.play_runs _ (fun i k op h => ?_) .refl
  simp only [exRoomTurns, List.mem_append, List.mem_cons, List.mem_replicate, List.not_mem_nil, reduceCtorEq, and_false, or_false, false_or, Turn.does.injEq] at h
  rcases h with ⟨_, _, rfl⟩ | ⟨_, _, rfl⟩ <;> exact ⟨_, rfl, (by decide)⟩

/-- What the first session has said to the second client so far. -/
theorem exFew_said : (callsOf (Process.of 1 exFew.1), (exFew.2.2.peers 1).st.sock.trace) = ([.text (some [104, 105])], [.readMessage 2 1 [104], .readMessage 2 1 [105], .readMessage 2 1 []]) := by decide +kernel

example : ∃ la' lb' n', Net.Runs (fun _ => Fixture.env) (fun _ => Fixture.env) Process.exChatMay ⟨exRoomJobs.map Job.start, exRoomSocks, Process.exFewPeers⟩ (exFew.1 ++ la') (exFew.2.1 ++ lb') n' ∧
    n'.AtRest (fun _ => Fixture.env) ∧ ∀ k, (n'.peers k).AtRest Fixture.env :=
  C85_tasks_comes_to_rest (fun _ => Fixture.env) (fun _ => Fixture.env) Process.exChatMay _ _ _ _ exFew_finite exFew_runs

/-- If it went on for ever, user code would do something again and again. -/
example (f : Nat → Net) (acts : Nat → Bool) (hf : f 0 = ⟨exRoomJobs.map Job.start, exRoomSocks, Process.exFewPeers⟩)
    (h : ∀ i, Net.Step (fun _ => Fixture.env) (fun _ => Fixture.env) Process.exChatMay (f i) (acts i) (f (i + 1))) : ∃ i, 1000 ≤ i ∧ acts i = true :=
  C85_tasks_finite _ _ _ f acts (by rw [hf]; exact exFew_finite) h 1000

/-- There is an end. -/
example : ∃ n : Net, n.tasks.length = 3 ∧ ∀ acts n', ¬ Net.Step (fun _ => Fixture.env) (fun _ => Fixture.env) Process.exChatMay n acts n' := by
  obtain ⟨la, lb, n, h, hr⟩ := C85_tasks_comes_to_rest (fun _ => Fixture.env) (fun _ => Fixture.env) Process.exChatMay _ _ _ _ exFew_finite exFew_runs
  refine ⟨n, ?_, (C85_tasks_ends_at_rest _ _ _ n).mpr hr⟩
  clear hr
  generalize exFew.1 ++ la = x, exFew.2.1 ++ lb = y at h
  induction h with
  | refl => rfl
  | lib _ _ _ _ _ ih => rw [List.length_set]; exact ih
  | does _ _ _ _ ih => rw [List.length_set]; exact ih
  | ends _ _ ih => rw [List.length_set]; exact ih
  | peer _ _ ih => exact ih

/-- User code can keep a process going for ever: here the task of the application installs the same listener again and again. -/
example : ∃ (f : Nat → Net) (acts : Nat → Bool), (f 0).Finite (fun _ => Fixture.env) ∧ ∀ i, Net.Step (fun _ => Fixture.env) (fun _ => Fixture.env) (fun _ op => ∃ l, op = .setListener l) (f i) (acts i) (f (i + 1)) := by
  let n : Net := ⟨[Job.start .app], exRoomSocks, fun k => .threads ⟨[], Process.exChatSocks k⟩⟩
  refine ⟨fun _ => n, fun _ => true, ⟨0, fun k _ x e h => ?_⟩, fun _ => ?_⟩
  · cases h with
    | thread h1 _ _ => cases h1
  · have hm : move (fun _ => Fixture.env) 0 (.user { ops := [.setListener (some 7)] }) [] {} exRoomSocks = some (.run { coros := [.user false] }, put exRoomSocks 0 (exRoomSocks 0)) := rfl
    have h := Net.Step.does (env := fun _ => Fixture.env) (penv := fun _ => Fixture.env) (may := fun _ op => ∃ l, op = .setListener l) (n := n) (i := 0) rfl ⟨_, rfl⟩ hm
    rw [put_self] at h
    exact h

end OatWS.AsyncProcess
