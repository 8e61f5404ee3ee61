import Verif.Proofs.AsyncProcessHere
/-! # Each step of a task, as one socket sees it: steps of user code -/

namespace OatWS.AsyncProcess
open Async
open Process (withReact)

theorem sendAsync_out (env : Env) (c : SendCall) : isOut (sendAsync env c) = true := by
  cases c <;> rfl

theorem only_out (env : Env) (c : SendCall) : ∀ x ∈ [sendAsync env c], isOut x = true := fun x hx => by
  rw [List.mem_singleton.mp hx]
  exact sendAsync_out env c

theorem Rel.at_user {q home f b rest l o} (h : Rel q home f (.run ⟨.user b :: rest, l⟩) o) : ∃ u lowv lv, Under q home rest l lowv lv ∧ u.ops = f ∧ o = .run ⟨.user u :: lowv, lv⟩ := by
  generalize hs0 : State.run ⟨.user b :: rest, l⟩ = s0 at h
  cases h with
  | @below low l' _ h2 _ =>
    injection hs0 with hs0
    injection hs0 with hs0 _
    cases low <;> cases hs0
  | @away j low l' u lv h1 h2 h3 h4 h5 =>
    injection hs0 with hs0
    injection hs0 with hs0 _
    cases low <;> cases hs0
  | user h1 h2 =>
    injection hs0 with hs0
    injection hs0 with hs0 e1
    subst e1
    injection hs0 with _ e2
    subst e2
    exact ⟨_, _, _, h1, h2, rfl⟩
  | @sendsHere up b u low l' lowv lv hun h1 h2 h5 h6 =>
    injection hs0 with hs0
    injection hs0 with hs0 _
    cases up with
    | nil => exact absurd rfl h1
    | cons => cases hs0
  | @sendsThere j up b u low l' lowv lv hun h0 h1 h2 h5 =>
    injection hs0 with hs0
    injection hs0 with hs0 _
    cases up with
    | nil => exact absurd rfl h1
    | cons => cases hs0
  | finished => cases hs0
  | failed => cases hs0
  | ub => cases hs0
  | ubElse => cases hs0

/-- User code does something with another socket. -/
theorem does_else {env : Nat → Env} {q k : Nat} {op : UserOp} {b : Bool} {rest : List Coro} {l : Local} {ws ws' : Nat → World} {s : State} (hk : k ≠ q)
    (h : move env k (.user { ops := [op] }) rest l ws = some (s, ws')) (env' : Env) (home : Option Nat) (f : List UserOp) :
    Sim env' q home (elseFuture f s) (.run ⟨.user b :: rest, l⟩) (ws q) (fun _ => []) f s (ws' q) := by
  intro m o hR
  have hq : q ≠ k := Ne.symm hk
  obtain ⟨u, lowv, lv, hun, hu, rfl⟩ := hR.at_user
  unfold move at h
  cases op with
  | stopListening =>
    dsimp only [coStep, userStep] at h
    injection h with h; injection h with h h'
    subst h h'
    exact ⟨_, .user hun hu, .stay (put_else _ _ hq) rfl⟩
  | setListener x =>
    dsimp only [coStep, userStep] at h
    injection h with h; injection h with h h'
    subst h h'
    exact ⟨_, .user hun hu, .stay (put_else _ _ hq) rfl⟩
  | setConfig x =>
    dsimp only [coStep, userStep] at h
    injection h with h; injection h with h h'
    subst h h'
    exact ⟨_, .user hun hu, .stay (put_else _ _ hq) rfl⟩
  | send call catches =>
    dsimp only [coStep, userStep] at h
    injection h with h; injection h with h h'
    subst h h'
    rw [map_place_out (cs := [sendAsync (env k) call]) (only_out _ call)]
    exact ⟨_, .sendsThere (up := [sendAsync (env k) call]) (b := catches) hun hk (by nofun) (only_out _ call) hu, .stay (put_else _ _ hq) rfl⟩
  | throw =>
    dsimp only [coStep, userStep, destroy] at h
    rw [put_self] at h
    obtain ⟨ws2, g1, _⟩ := hun.unwind ws
    rw [g1] at h
    injection h with h; injection h with h h'
    subst h h'
    obtain ⟨ws3, g3, g4⟩ := moves_throw (env := env') hun hu ws m
    have := (g1 .io).symm.trans (g3 .io)
    injection this with _ this
    subst this
    exact ⟨_, .failed, g4⟩

theorem entry_user (env : Env) (r : List Event → List UserOp) (m : Nat) (u : UserCo) (op : UserOp) (f : List UserOp) (hu : u.ops = op :: f) (rest : List Co) (l lv : Local) (w w' : World) (bs : List UInt8) :
    entryOf (withReact env r) m ⟨.user u :: rest, lv⟩ w w' bs = entryOf env m ⟨[.user { ops := [op] }], l⟩ w w' bs := by
  unfold entryOf Task.calls
  dsimp only
  rw [hu]
  cases op <;> rfl

/-- User code does something with this socket. -/
theorem does_here {env : Nat → Env} {q : Nat} {op : UserOp} {b : Bool} {rest : List Coro} {l : Local} {ws ws' : Nat → World} {s : State}
    (h : move env q (.user { ops := [op] }) rest l ws = some (s, ws')) (r : List Event → List UserOp) (home : Option Nat) (f : List UserOp) :
    Sim (withReact (env q) r) q home (op :: f) (.run ⟨.user b :: rest, l⟩) (ws q) (fun m => [entryOf (env q) m ⟨[.user { ops := [op] }], l⟩ (ws q) (ws' q) []]) f s (ws' q) := by
  intro m o hR
  obtain ⟨u, lowv, lv, hun, hu, rfl⟩ := hR.at_user
  have hst := (move_st h).1
  have hwr : (ws' q).st.sock.out.written = (ws q).st.sock.out.written ++ [] := by
    rw [hst, List.append_nil]
    dsimp only [coStep, userStep]
    cases op <;> rfl
  have key : ∀ o' : Outcome, Rel q home f s o' → o' ≠ .blocked → step (withReact (env q) r) ⟨.user u :: lowv, lv⟩ (ws q) = (o', ws' q) →
      ∃ o', Rel q home f s o' ∧ Moves (withReact (env q) r) (ws q) (ws' q) m [entryOf (env q) m ⟨[.user { ops := [op] }], l⟩ (ws q) (ws' q) []] (.run ⟨.user u :: lowv, lv⟩) o' :=
    fun o' k1 k2 k3 => ⟨o', k1, .step rfl rfl k3 k2 hwr (by simp [entryOf]) (by rw [entry_user (env q) r m u op f hu lowv l lv])⟩
  have hstep : step (withReact (env q) r) ⟨.user u :: lowv, lv⟩ (ws q) = after (.user u) lowv (userStep (withReact (env q) r) u lv (ws q)) := rfl
  unfold userStep at hstep
  rw [hu] at hstep
  rw [hstep] at key
  unfold move at h
  cases op with
  | stopListening =>
    dsimp only [coStep, userStep] at h
    injection h with h; injection h with h h'
    subst h h'
    exact key _ (.user (u := { u with ops := f, catching := false }) hun rfl) nofun (by rw [put_same]; rfl)
  | setListener x =>
    dsimp only [coStep, userStep] at h
    injection h with h; injection h with h h'
    subst h h'
    exact key _ (.user (u := { u with ops := f, catching := false }) hun rfl) nofun (by rw [put_same]; rfl)
  | setConfig x =>
    dsimp only [coStep, userStep] at h
    injection h with h; injection h with h h'
    subst h h'
    exact key _ (.user (u := { u with ops := f, catching := false }) hun rfl) nofun (by rw [put_same]; rfl)
  | send call catches =>
    dsimp only [coStep, userStep] at h
    injection h with h; injection h with h h'
    subst h h'
    rw [map_place_out (cs := [sendAsync (env q) call]) (only_out _ call)] at key ⊢
    exact key _ (.sendsHere (up := [sendAsync (env q) call]) (b := catches) (u := { u with ops := f, catching := catches }) hun (by nofun) (only_out _ call) rfl rfl) nofun
      (by rw [put_same]; rfl)
  | throw =>
    dsimp only [coStep, userStep, destroy] at h
    rw [put_self] at h
    obtain ⟨ws2, g1, g2⟩ := hun.unwind ws
    rw [g1] at h
    injection h with h; injection h with h h'
    subst h h'
    exact key _ .failed nofun (g2 _)

/-- What user code does with socket `q` if it is over. -/
def endFuture (q : Nat) (home : Option Nat) (rest : List Coro) (f : List UserOp) : List UserOp := if home = some q ∨ rest = [] then [] else f

/-- A coroutine of the user ends. -/
theorem ends_view {q : Nat} {b : Bool} {rest : List Coro} {l : Local} (env' : Env) (w : World) (home : Option Nat) (f : List UserOp) :
    Sim env' q home (endFuture q home rest f) (.run ⟨.user b :: rest, l⟩) w (fun _ => []) f (if rest = [] then .finished else .run ⟨rest, l⟩) w := by
  intro m o hR
  obtain ⟨u, lowv, lv, hun, hu, rfl⟩ := hR.at_user
  cases hun with
  | here h1 h2 =>
    rw [endFuture, if_pos (.inl rfl)] at hu
    have hne : lowv.map (Coro.lib q) ≠ [] := fun e => h1 (List.map_eq_nil_iff.mp e)
    rw [if_neg hne]
    refine ⟨_, .below rfl h1 h2, ?_⟩
    have := moves_finish (env := env') (w := w) (lowv := lowv) (lv := l) hu m
    rw [if_neg h1] at this
    exact this
  | @there j low _ _ h0 h1 h2 =>
    have hne : low.map (Coro.lib j) ≠ [] := fun e => h1 (List.map_eq_nil_iff.mp e)
    rw [endFuture, if_neg (fun e => e.elim (fun e => h0 (Option.some.inj e)) hne)] at hu
    rw [if_neg hne]
    exact ⟨_, .away rfl h0 h1 h2 hu, .stay rfl rfl⟩
  | app =>
    rw [endFuture, if_pos (.inr rfl)] at hu
    rw [if_pos rfl]
    exact ⟨_, .finished, moves_finish hu m⟩

end OatWS.AsyncProcess
