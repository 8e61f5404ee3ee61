import Verif.Proofs.AsyncProcessStep
/-! # A task of the process, and what one socket sees of it -/

namespace OatWS.AsyncProcess
open Async
open Process (withReact)

theorem put_same {α : Type} (f : Nat → α) (k : Nat) (x : α) : put f k x k = x := if_pos rfl

theorem put_else {α : Type} (f : Nat → α) {k j : Nat} (x : α) (h : j ≠ k) : put f k x j = f j := if_neg h

/-- The coroutines below a user coroutine, and what socket `q` sees of them. -/
inductive Under (q : Nat) : Option Nat → List Coro → Local → List Co → Local → Prop
  | here {low l} : low ≠ [] → (∀ c ∈ low, isIn c = true) → Under q (some q) (low.map (.lib q)) l low l
  | there {j low l lv} : j ≠ q → low ≠ [] → (∀ c ∈ low, isIn c = true) → Under q (some j) (low.map (.lib j)) l [] lv
  | app {l lv} : Under q none [] l [] lv

/-- Where a task is and where it is as socket `q` sees it. `home`: the socket on which it listens; `f`: what its user code will do with socket `q`. -/
inductive Rel (q : Nat) (home : Option Nat) (f : List UserOp) : State → Outcome → Prop
  | below {low l} : home = some q → low ≠ [] → (∀ c ∈ low, isIn c = true) → Rel q home f (.run ⟨low.map (.lib q), l⟩) (.run ⟨low, l⟩)
  | away {j low l u lv} : home = some j → j ≠ q → low ≠ [] → (∀ c ∈ low, isIn c = true) → u.ops = f → Rel q home f (.run ⟨low.map (.lib j), l⟩) (.run ⟨[.user u], lv⟩)
  | user {b u low l lowv lv} : Under q home low l lowv lv → u.ops = f → Rel q home f (.run ⟨.user b :: low, l⟩) (.run ⟨.user u :: lowv, lv⟩)
  | sendsHere {up b u low l lowv lv} : Under q home low l lowv lv → up ≠ [] → (∀ c ∈ up, isOut c = true) → u.ops = f → u.catching = b →
      Rel q home f (.run ⟨up.map (.lib q) ++ .user b :: low, l⟩) (.run ⟨up ++ .user u :: lowv, lv⟩)
  | sendsThere {j up b u low l lowv lv} : Under q home low l lowv lv → j ≠ q → up ≠ [] → (∀ c ∈ up, isOut c = true) → u.ops = f →
      Rel q home f (.run ⟨up.map (.lib j) ++ .user b :: low, l⟩) (.run ⟨.user u :: lowv, lv⟩)
  | finished : Rel q home f .finished .finished
  | failed {e e'} : Rel q home f (.failed e) (.failed e')
  | ub {u} : Rel q home f (.ub q u) (.ub u)
  | ubElse {j u o} : j ≠ q → Rel q home f (.ub j u) o

/-- Socket `q` sees a step (number `m`) that is recorded as `es`: nothing, or a step. -/
inductive Moves (env : Env) (w w' : World) (m : Nat) (es : List Entry) (o : Outcome) : Outcome → Prop
  | stay : w' = w → es = [] → Moves env w w' m es o o
  | step {t o' bs} : o = .run t → t.ready w = true → step env t w = (o', w') → o' ≠ .blocked → w'.st.sock.out.written = w.st.sock.out.written ++ bs → bs = es.flatMap Entry.wrote →
      said [entryOf env m t w w' bs] = said es → Moves env w w' m es o o'

theorem destroy_out {c : Co} (h : isOut c = true) (w : World) : destroy c w = w := by
  cases c <;> first | rfl | cases h

/-- All are destroyed. -/
def destroyAll (low : List Co) (w : World) : World := low.foldl (fun w c => destroy c w) w

theorem unwind_in {low : List Co} (h : ∀ c ∈ low, isIn c = true) (e : AErr) (l : Local) (w : World) : unwind e low l w = (.failed e, destroyAll low w) := by
  induction low generalizing w with
  | nil => rfl
  | cons c low ih =>
    have hc := h c (List.mem_cons_self ..)
    have := ih (fun c hc => h c (List.mem_cons_of_mem _ hc)) (destroy c w)
    cases c <;> first | exact this | cases hc

theorem put_put {α : Type} (f : Nat → α) (k : Nat) (x y : α) : put (put f k x) k y = put f k y := by
  funext j
  unfold put
  split <;> rfl

theorem put_self {α : Type} (f : Nat → α) (k : Nat) : put f k (f k) = f := by
  funext j
  unfold put
  split
  · rename_i h; rw [h]
  · rfl

theorem unwindM_in {low : List Co} (j : Nat) (e : AErr) (l : Local) (ws : Nat → World) :
    unwindM e (low.map (.lib j)) l ws = (.failed e, put ws j (destroyAll low (ws j))) := by
  induction low generalizing ws with
  | nil =>
    show (State.failed e, ws) = (.failed e, put ws j (ws j))
    rw [put_self]
  | cons c low ih =>
    show unwindM e (low.map (.lib j)) l (put ws j (destroy c (ws j))) = _
    rw [ih, put_put, put_same]
    rfl

theorem unwindM_out {up : List Co} (h : ∀ c ∈ up, isOut c = true) (j : Nat) (e : AErr) (rest : List Coro) (l : Local) (ws : Nat → World) :
    unwindM e (up.map (.lib j) ++ rest) l ws = unwindM e rest l ws := by
  induction up generalizing ws with
  | nil => rfl
  | cons c up ih =>
    show unwindM e (up.map (.lib j) ++ rest) l (put ws j (destroy c (ws j))) = _
    rw [destroy_out (h c (List.mem_cons_self ..)), put_self]
    exact ih (fun c hc => h c (List.mem_cons_of_mem _ hc)) ws

theorem unwind_out {up : List Co} (h : ∀ c ∈ up, isOut c = true) (e : AErr) (rest : List Co) (l : Local) (w : World) :
    unwind e (up ++ rest) l w = unwind e rest l w := by
  induction up generalizing w with
  | nil => rfl
  | cons c up ih =>
    have hc := h c (List.mem_cons_self ..)
    have := ih (fun c hc => h c (List.mem_cons_of_mem _ hc)) w
    cases c <;> first | exact this | cases hc

theorem Under.unwind {q home low l lowv lv} (h : Under q home low l lowv lv) (ws : Nat → World) :
    ∃ ws', (∀ e, unwindM e low l ws = (.failed e, ws')) ∧ ∀ e, Async.unwind e lowv lv (ws q) = (.failed e, ws' q) := by
  cases h with
  | here h1 h2 => exact ⟨_, fun e => unwindM_in q e l ws, fun e => by rw [unwind_in h2, put_same]⟩
  | @there j low _ _ h0 h1 h2 => exact ⟨_, fun e => unwindM_in j e l ws, fun e => by rw [put_else _ _ (Ne.symm h0)]; rfl⟩
  | app => exact ⟨ws, fun e => rfl, fun e => rfl⟩

theorem said_user {env : Env} {m : Nat} {u : UserCo} {rest : List Co} {lv : Local} {w w' : World} (hc : ∀ call x ops, u.ops ≠ .send call x :: ops) (hr : w'.st.sock.rngPos = w.st.sock.rngPos) :
    said [entryOf env m ⟨.user u :: rest, lv⟩ w w' []] = [] := by
  have : idle (entryOf env m ⟨.user u :: rest, lv⟩ w w' []) = true := by
    have h1 : Task.calls ⟨.user u :: rest, lv⟩ = none := by
      unfold Task.calls
      dsimp only
      split
      · rename_i call x ops e
        exact absurd e (hc _ _ _)
      · rfl
    have h2 : drewAt w.st.sock w'.st.sock = none := if_pos hr
    unfold idle entryOf
    rw [h1, h2]
    rfl
  unfold said
  rw [List.filter_cons_of_neg (by rw [this]; nofun)]
  rfl

theorem destroyAll_written (low : List Co) (w : World) : (destroyAll low w).st = w.st := by
  induction low generalizing w with
  | nil => rfl
  | cons c low ih =>
    refine (ih (destroy c w)).trans ?_
    cases c <;> rfl

theorem unwind_st' (e : AErr) (low : List Co) (l : Local) (w : World) : (Async.unwind e low l w).2.st = w.st := by
  induction low generalizing w with
  | nil => rfl
  | cons c low ih =>
    cases c with
    | user u =>
      dsimp only [Async.unwind]
      split
      · rfl
      · exact ih w
    | readPayload c => exact (ih _).trans rfl
    | _ => exact ih w

/-- User code sees an exception that has nothing to do with socket `q`. -/
theorem moves_throw {env : Env} {q home low l lowv lv u} (h : Under q home low l lowv lv) (hu : u.ops = [.throw]) (ws : Nat → World) (m : Nat) :
    ∃ ws', (∀ e, unwindM e low l ws = (.failed e, ws')) ∧ Moves env (ws q) (ws' q) m [] (.run ⟨.user u :: lowv, lv⟩) (.failed (.thrown .user)) := by
  obtain ⟨ws', h1, h2⟩ := h.unwind ws
  refine ⟨ws', h1, ?_⟩
  have hst : (ws' q).st = (ws q).st := by
    have := unwind_st' .io lowv lv (ws q)
    rw [h2] at this
    exact this
  have hs : step env ⟨.user u :: lowv, lv⟩ (ws q) = (.failed (.thrown .user), ws' q) := by
    rw [step]
    dsimp only [coStep, userStep]
    rw [hu]
    exact h2 _
  refine .step (bs := []) rfl rfl hs nofun (by rw [hst, List.append_nil]) rfl ?_
  rw [said_user (by rw [hu]; nofun) (by rw [hst])]
  rfl

/-- The coroutine ends. -/
theorem moves_finish {env : Env} {w : World} {u : UserCo} {lowv : List Co} {lv : Local} (hu : u.ops = []) (m : Nat) :
    Moves env w w m [] (.run ⟨.user u :: lowv, lv⟩) (if lowv = [] then .finished else .run ⟨lowv, lv⟩) := by
  have hs : step env ⟨.user u :: lowv, lv⟩ w = (if lowv = [] then .finished else .run ⟨lowv, lv⟩, w) := by
    rw [step]
    dsimp only [coStep, userStep]
    rw [hu]
    dsimp only
    cases lowv <;> rfl
  refine .step (bs := []) rfl rfl hs (by split <;> nofun) (List.append_nil _).symm rfl ?_
  rw [said_user (by rw [hu]; nofun) rfl]
  rfl

/-- As socket `q` sees a step from `s` to `s'`. `f0`, `f`: what user code of the task will do with the socket, before and after the step. -/
def Sim (env : Env) (q : Nat) (home : Option Nat) (f0 : List UserOp) (s : State) (w : World) (es : Nat → List Entry) (f : List UserOp) (s' : State) (w' : World) : Prop :=
  ∀ m o, Rel q home f0 s o → ∃ o', Rel q home f s' o' ∧ Moves env w w' m (es m) o o'

end OatWS.AsyncProcess
