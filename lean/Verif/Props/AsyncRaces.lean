import Verif.Proofs.AsyncTeams
import Verif.Props.AsyncSendsHeard
import Verif.Props.ThreadRaces
/-! # C75: data races of tasks on several workers -/

namespace OatWS.Async
open RFC6455
open Threads (Loc)

/-- **C75** (reads). A step depends on nothing but what it accesses: with something else at any other place it does the same, and leaves that place alone. -/
theorem C75_reads (env : Env) (t : Task) (x : Loc) (h : ∀ b, (x, b) ∉ t.touches) (w w0 : World) :
    step env t (w.with x w0) = ((step env t w).1, (step env t w).2.with x w0) := blind_step env t h w

/-- **C75** (changes). What a step does not access for changing is as before. -/
theorem C75_writes (env : Env) (t : Task) (x : Loc) (h : (x, true) ∉ t.touches) (w : World) : SameAt x w (step env t w).2 := same_step env t h w

theorem Race.symm_cases {p : Pool} {x : Loc} (h : Race p x) : ∃ (i j : Nat) (t t' : Task) (b : Bool), i ≠ j ∧ p.tasks[i]? = some (.run t) ∧ p.tasks[j]? = some (.run t') ∧
    (x, true) ∈ t.touches ∧ (x, b) ∈ t'.touches := by
  obtain ⟨i, j, t, t', b, b', hne, h1, h2, h3, h4, hb⟩ := h
  cases b with
  | true => exact ⟨i, j, t, t', b', hne, h1, h2, h3, h4⟩
  | false =>
    cases b' with
    | true => exact ⟨j, i, t', t, false, hne.symm, h2, h1, h4, h3⟩
    | false => cases hb

/-- A race of such a team involves one of the other tasks, and a change by one of them or by the listening task. -/
theorem Roles.race {O O' : UserOp → Prop} {p : Pool} {x : Loc} (h : Roles O O' p) (hr : Race p x) :
    ∃ (t t' : Task) (b : Bool), (∀ c ∈ t'.stack, c.ok fun u => ∀ op ∈ u.ops, O op) ∧ (x, b) ∈ t'.touches ∧
      (b = true ∨ ((∀ c ∈ t.stack, c.opsIn O') ∧ (x, true) ∈ t.touches)) := by
  obtain ⟨i, j, t, t', b, hne, h1, h2, h3, h4⟩ := hr.symm_cases
  cases i with
  | succ i => exact ⟨t, t, true, h.others i t h1, h3, .inl rfl⟩
  | zero =>
    cases j with
    | zero => exact absurd rfl hne
    | succ j => exact ⟨t, t', b, h.others j t' h2, h4, .inr ⟨h.first t h1, h3⟩⟩

/-- **C75** (receiving). One task listens, others run any user code: there is never a race on the input of the connection, nor on the state of fragmented
messages, whatever callbacks and other tasks do. -/
theorem C75_receiving (env : Env) (p p' : Pool) (ht : Team env UserOp.any UserOp.any p) (hs : Pool.Steps env p p') : ¬ Race p' .input ∧ ¬ Race p' .lastOpcode := by
  have h := ht.roles.steps ht.callbacks hs
  constructor
  all_goals
    intro hr
    obtain ⟨t, t', b, h1, h2, -⟩ := h.race hr
    rcases touch_ok h1 h2 with ⟨e, -⟩ | ⟨e, -⟩ | ⟨e, -⟩ | ⟨e, -⟩ <;> cases e

/-- **C75** (the listener). If no other task changes the listener, there is no race on it; callbacks may change it. -/
theorem C75_listener (env : Env) (p p' : Pool) (ht : Team env UserOp.keepsListener UserOp.any p) (hs : Pool.Steps env p p') : ¬ Race p' .listener := by
  have h := ht.roles.steps ht.callbacks hs
  intro hr
  obtain ⟨t, t', b, h1, h2, -⟩ := h.race hr
  rcases touch_ok h1 h2 with ⟨-, -, u, l, ops, hu, e⟩ | ⟨e, -⟩ | ⟨e, -⟩ | ⟨e, -⟩
  · exact hu (.setListener l) (by rw [e]; exact .head _) l rfl
  all_goals cases e

/-- **C75** (the configuration). If neither other tasks nor callbacks change the configuration, there is no race on it. -/
theorem C75_config (env : Env) (p p' : Pool) (ht : Team env UserOp.keepsConfig UserOp.keepsConfig p) (hs : Pool.Steps env p p') : ¬ Race p' .config := by
  have h := ht.roles.steps ht.callbacks hs
  intro hr
  obtain ⟨t, t', b, h1, h2, h3⟩ := h.race hr
  rcases h3 with rfl | ⟨h3, h4⟩
  · rcases touch_ok h1 h2 with ⟨e, -⟩ | ⟨-, -, u, c, ops, hu, e⟩ | ⟨-, e⟩ | ⟨e, -⟩
    · cases e
    · exact hu (.setConfig c) (by rw [e]; exact .head _) c rfl
    · cases e
    · cases e
  · obtain ⟨c, hc⟩ := (touch_opsIn h3 h4).2.2 rfl rfl
    exact hc c rfl

/-- **C75** (whether to listen). Nothing in the asynchronous socket accesses the flag of the blocking one: there is no `stopListening`. -/
theorem C75_listening (env : Env) (p p' : Pool) (ht : Team env UserOp.any UserOp.any p) (hs : Pool.Steps env p p') : ¬ Race p' .listening := by
  have h := ht.roles.steps ht.callbacks hs
  intro hr
  obtain ⟨t, t', b, h1, h2, -⟩ := h.race hr
  rcases touch_ok h1 h2 with ⟨e, -⟩ | ⟨e, -⟩ | ⟨e, -⟩ | ⟨e, -⟩ <;> cases e

/-- Who accesses the output is sending. -/
theorem touch_output {t : Task} {b : Bool} (h : (Loc.output, b) ∈ t.touches) : ¬ Quiet t.stack := by
  intro hq
  unfold Task.touches at h
  split at h
  · cases h
  · rename_i c rest hs
    have hc := hq c (by rw [hs]; exact .head _)
    cases c with
    | sendFrame c => exact hc.1 c rfl
    | writeFrame c => exact hc.2 c rfl
    | _ =>
      simp only [Co.touches] at h
      repeat' split at h
      all_goals simp at h

/-- **C75** (the output). Any tasks (several may listen); if no send is called while another task's send is in progress, there is no race on the output of
the connection. -/
theorem C75_output (env : Env) (p : Pool) (hq : ∀ t ∈ p.tasks, Outcome.quiet t) (log : List Entry) (p' : Pool) (h : Pool.Logged env p log p') (hser : Serialised log) :
    ¬ Race p' .output := by
  have hI := pool_inv env p hq log p' h
  have key : ∀ (i : Nat) (t : Task) (b : Bool), p'.tasks[i]? = some (.run t) → (Loc.output, b) ∈ t.touches → Sending i log := by
    intro i t b ht hb
    rcases (hI.tasks i _ ht).head with ⟨h1, -⟩ | ⟨s, r, e1, e2, -⟩
    · exact absurd h1 (touch_output hb)
    · exact ⟨s, r, e1, e2⟩
  rintro ⟨i, j, t, t', b, b', hne, h1, h2, h3, h4, -⟩
  exact hne (Threads.one_sending hser i j (key i t b h1 h3) (key j t' b' h2 h4))

theorem Team.weaken {env : Env} {O O' P P' : UserOp → Prop} {p : Pool} (h : Team env O O' p) (h1 : ∀ op, O op → P op) (h2 : ∀ op, O' op → P' op) : Team env P P' p := by
  obtain ⟨⟨hd, others, e, ho⟩, hc⟩ := h
  refine ⟨⟨hd, others, e, fun q hq => ?_⟩, fun tr op hop => h2 op (hc tr op hop)⟩
  obtain ⟨ops, e1, e2⟩ := ho q hq
  exact ⟨ops, e1, fun op hop => h1 op (e2 op hop)⟩

theorem Team.quiet {env : Env} {O O' : UserOp → Prop} {p : Pool} (h : Team env O O' p) : ∀ t ∈ p.tasks, Outcome.quiet t := by
  obtain ⟨⟨hd, others, e, ho⟩, -⟩ := h
  intro t ht
  rw [e] at ht
  rcases List.mem_cons.mp ht with rfl | ht
  · intro co hco
    rw [List.mem_singleton.mp hco]
    exact quietCo_listen
  · obtain ⟨ops, rfl, -⟩ := ho t ht
    intro co hco
    rw [List.mem_singleton.mp hco]
    exact quietCo_user _

/-- **C75.** One task listens, others only send; callbacks may send and change the listener, but not the configuration; no send is called while
another task's send is in progress. Then no execution has a data race on anything — also if reads and writes fail. -/
theorem C75_no_race (env : Env) (p : Pool) (ht : Team env UserOp.sends UserOp.keepsConfig p) (log : List Entry) (p' : Pool) (h : Pool.Logged env p log p')
    (hser : Serialised log) (x : Loc) : ¬ Race p' x := by
  have hs : Pool.Steps env p p' := by
    clear hser
    induction h with
    | refl => exact .refl
    | tail _ h1 h2 h3 _ ih => exact .tail ih (.mk h1 h2 h3)
  have hany : ∀ op, UserOp.keepsConfig op → UserOp.any op := fun _ _ => trivial
  cases x with
  | config => exact C75_config env p p' (ht.weaken (fun _ h => h.2.1) fun _ h => h) hs
  | listener => exact C75_listener env p p' (ht.weaken (fun _ h => h.1) hany) hs
  | lastOpcode => exact (C75_receiving env p p' (ht.weaken (fun _ _ => trivial) hany) hs).2
  | listening => exact C75_listening env p p' (ht.weaken (fun _ _ => trivial) hany) hs
  | input => exact (C75_receiving env p p' (ht.weaken (fun _ _ => trivial) hany) hs).1
  | output => exact C75_output env p ht.quiet log p' h hser

/-! ## None of the conditions can be left out -/

/-- What task `i` is about to access. -/
def Pool.next (p : Pool) (i : Nat) : List (Loc × Bool) :=
  match p.tasks[i]? with
  | some (.run t) => t.touches
  | _ => []

theorem next_mem {p : Pool} {i : Nat} {a : Loc × Bool} (h : a ∈ p.next i) : ∃ t, p.tasks[i]? = some (Outcome.run t) ∧ a ∈ t.touches := by
  unfold Pool.next at h
  split at h
  · rename_i t ht; exact ⟨t, ht, h⟩
  · cases h

/-- After the given steps the first two tasks are about to access `x`, the second to change it. -/
def collides (env : Env) (is : List Nat) (p : Pool) (x : Loc) (b : Bool) : Bool :=
  match Pool.exec env is p with
  | some p' => decide ((x, b) ∈ p'.next 0 ∧ (x, true) ∈ p'.next 1)
  | none => false

theorem race_after {env : Env} {is : List Nat} {p : Pool} {x : Loc} {b : Bool} (h : collides env is p x b = true) : ∃ p', Pool.Steps env p p' ∧ Race p' x := by
  unfold collides at h
  split at h
  · rename_i p' he
    obtain ⟨h1, h2⟩ := of_decide_eq_true h
    obtain ⟨t, e1, a1⟩ := next_mem h1
    obtain ⟨t', e2, a2⟩ := next_mem h2
    exact ⟨p', Pool.exec_steps he, 0, 1, t, t', b, true, by decide, e1, e2, a1, a2, by simp⟩
  · cases h

/-- A task listens (and answers a ping) while another one runs the given code. -/
def exRacing (ops : List UserOp) : Pool := ⟨[.run (listenTask default), .run (userTask ops)],
  { st := { sock := { Sock.new { readBufferSize := 2 } ⟨[], Fixture.slow 9⟩ with listener := some 7 }
            inp := ⟨[0x89, 0x01, 0x21], Fixture.slow 4⟩ } }⟩

/-- **C75** (`setListener`). -/
theorem C75_setListener_races : ∃ p', Pool.Steps exEnv (exRacing [.setListener none]) p' ∧ Race p' .listener :=
  race_after (b := false) (is := List.replicate 7 0) (by decide +kernel)

/-- **C75** (`getConfig`, through which the configuration is changed). -/
theorem C75_setConfig_races : ∃ p', Pool.Steps exEnv (exRacing [.setConfig {}]) p' ∧ Race p' .config :=
  race_after (b := false) (is := List.replicate 12 0) (by decide +kernel)

/-- A listener whose callbacks change the configuration, while another task sends. -/
def exReconfigure : Env := { Fixture.env with react := fun _ => [.setConfig {}] }

def exReconfiguring : Pool := ⟨[.run (userTask [.send (.text (some [7])) true]), .run (listenTask default)],
  { st := { sock := { Sock.new { readBufferSize := 2 } ⟨[], Fixture.slow 9⟩ with listener := some 7 }
            inp := ⟨[0x89, 0x01, 0x21], Fixture.slow 4⟩ } }⟩

/-- **C75** (a callback that changes the configuration). It races with a send of another task, which looks at it. -/
theorem C75_callback_setConfig_races : ∃ p', Pool.Steps exReconfigure exReconfiguring p' ∧ Race p' .config :=
  race_after (b := false) (is := List.replicate 14 1 ++ [0]) (by decide +kernel)

/-- **C75** (overlapping sends). -/
theorem C75_sends_race : ∃ p', Pool.Steps exEnv (exRacing [.send (.text (some [7])) true]) p' ∧ Race p' .output :=
  race_after (b := true) (is := List.replicate 16 0 ++ [1, 1]) (by decide +kernel)

/-- Two tasks listen to one socket. -/
def exTwoListen : Pool := ⟨[.run (listenTask default), .run (listenTask default)], (exRacing []).world⟩

/-- **C75** (two listening tasks). -/
theorem C75_two_listen_race : ∃ p', Pool.Steps exEnv exTwoListen p' ∧ Race p' .input :=
  race_after (b := true) (is := [0, 1]) (by decide +kernel)

theorem exPool_team : Team exEnv UserOp.sends UserOp.keepsConfig exPool := by
  refine ⟨⟨default, exOthers, rfl, fun o ho => ?_⟩, fun tr op hop => ?_⟩
  · rw [exOthers, List.mem_singleton] at ho
    subst ho
    refine ⟨_, rfl, fun op hop => ?_⟩
    rw [List.mem_singleton] at hop
    subst hop
    exact ⟨fun _ h => (by cases h), fun _ h => (by cases h), fun h => (by cases h)⟩
  · intro c hc
    subst hc
    revert hop
    unfold exEnv
    dsimp only
    split <;> simp

/-- The hypotheses of `C75_no_race` (and, with it, of the others) are met: a task listens and answers a ping, another one sends; the answer follows when the send is over. -/
example : ∃ log p', Team exEnv UserOp.sends UserOp.keepsConfig exPool ∧ Pool.Logged exEnv exPool log p' ∧ Serialised log ∧
    p'.world.st.sock.out.written = [0x81, 2, 7, 8, 0x8a, 1, 0x21] := by
  have h := exSerial
  rcases he : Pool.execLog exEnv exSchedule exPool with _ | ⟨log, p'⟩
  · rw [he] at h; cases h
  · rw [he] at h
    injection h with h
    injection h with h1 h2 h3 h4 h5 h6
    exact ⟨log, p', exPool_team, execLog_logged he, serialCheck_sound h1, h4⟩

/-- The hypotheses of `C75_reads` and `C75_writes`: a task that is about to read accesses the input, and nothing else. -/
example (l : Local) : (⟨[.readFrame {}], l⟩ : Task).touches = [(.input, true)] ∧ (∀ b, (Loc.config, b) ∉ (⟨[.readFrame {}], l⟩ : Task).touches) :=
  ⟨rfl, fun _ h => absurd (List.mem_singleton.mp h) (by simp)⟩

end OatWS.Async
