import Verif.Spec.ProcessLive
import Verif.Props.NetworkLive
import Verif.Proofs.AsyncProcessHere
/-! A process with several sockets and its peers do not go on for ever. -/

namespace OatWS

/-- One element goes down. -/
inductive OneOf {α : Type} (r : α → α → Prop) : List α → List α → Prop
  | head {q q' ts} : r q' q → OneOf r (q' :: ts) (q :: ts)
  | tail {q ts ts'} : OneOf r ts' ts → OneOf r (q :: ts') (q :: ts)

theorem oneOf_acc {α : Type} {r : α → α → Prop} (hr : ∀ x, Acc r x) (ts : List α) : Acc (OneOf r) ts := by
  induction ts with
  | nil => exact ⟨_, fun q h => by cases h⟩
  | cons q ts ih =>
    have hq := hr q
    induction hq generalizing ts with
    | intro q _ ihq =>
      induction ih with
      | intro ts hts iht =>
        refine ⟨_, fun x hx => ?_⟩
        cases hx with
        | head h => exact ihq _ h ts ⟨_, hts⟩
        | tail h => exact iht _ h

theorem oneOf_set {α : Type} {r : α → α → Prop} {ts : List α} {i : Nat} {q q' : α} (h : ts[i]? = some q) (hr : r q' q) : OneOf r (ts.set i q') ts := by
  induction ts generalizing i with
  | nil => cases h
  | cons x ts ih =>
    cases i with
    | zero =>
      injection h with h
      subst h
      exact .head hr
    | succ i => exact .tail (ih h)

theorem oneOf_map {α β : Type} {r : β → β → Prop} {f g : α → β} {k : α} {l : List α} (hl : l.Nodup) (hk : k ∈ l) (hr : r (g k) (f k)) (he : ∀ j, j ≠ k → g j = f j) : OneOf r (l.map g) (l.map f) := by
  induction l with
  | nil => cases hk
  | cons x l ih =>
    rw [List.nodup_cons] at hl
    rcases List.mem_cons.mp hk with rfl | hk
    · have : l.map g = l.map f := List.map_congr_left fun j hj => he j fun e => hl.1 (e ▸ hj)
      rw [List.map_cons, List.map_cons, this]
      exact .head hr
    · rw [List.map_cons, List.map_cons, he x fun e => hl.1 (e ▸ hk)]
      exact .tail (ih hl.2 hk)

namespace Process
open Threads Network

/-- Code after one of its steps. -/
inductive Next {α : Type} : Code α → Code α → Prop
  | act {k a c} (r) : Next (c r) (.act k a c)
  | choose {c} (cs) : Next (c cs) (.choose c)

theorem next_acc {α : Type} (g : Code α) : Acc Next g := by
  induction g with
  | act k a c ih => exact ⟨_, fun q h => by cases h with | act r => exact ih r⟩
  | choose c ih => exact ⟨_, fun q h => by cases h with | choose cs => exact ih cs⟩
  | _ => exact ⟨_, fun q h => by cases h⟩

/-- What the first `N` peers can still do. -/
def leftOf (N : Nat) (peers : Nat → Endpoint) : List Left := (List.range N).map fun k => (peers k).left

theorem step_acc (env penv : Nat → Env) (may : Nat → UserOp → Prop) (n : Net) (hn : n.Finite penv) : Acc (fun n' n => Net.Step env penv may n n') n := by
  have key : ∀ ts, Acc (OneOf (Next (α := Unit))) ts → ∀ N ls, Acc (OneOf Left.Down) ls → ∀ n : Net, n.threads = ts → (∀ k, N ≤ k → (n.peers k).AtRest (penv k)) → leftOf N n.peers = ls →
      Acc (fun n' n => Net.Step env penv may n n') n := by
    intro ts hts
    induction hts with
    | intro ts _ iht =>
      intro N ls hls
      induction hls with
      | intro ls _ ihl =>
        rintro n rfl hrest rfl
        refine ⟨_, fun n' h => ?_⟩
        cases h with
        | @own i k a c r st' hi hr he =>
          refine iht _ (oneOf_set hi (.act r)) (max N (k + 1)) _ (oneOf_acc Left.acc _) _ rfl ?_ rfl
          intro j hj
          dsimp only [upd]
          rw [if_neg (by omega)]
          exact hrest j (by omega)
        | @chooses i c cs hi hcs => exact iht _ (oneOf_set hi (.choose cs)) N _ (oneOf_acc Left.acc _) _ rfl hrest rfl
        | @peer k e b hb =>
          have hk : k < N := Nat.lt_of_not_le fun h => hrest k h _ _ hb
          refine ihl (leftOf N (upd n.peers k b)) ?_ _ rfl ?_ rfl
          · refine oneOf_map List.nodup_range (List.mem_range.mpr hk) ?_ fun j hj => ?_
            · rw [upd, if_pos rfl]
              exact hb.down
            · rw [upd, if_neg hj]
          · intro j hj
            dsimp only [upd]
            rw [if_neg (by omega)]
            exact hrest j hj
  obtain ⟨N, hN⟩ := hn
  exact key _ (oneOf_acc next_acc _) N _ (oneOf_acc Left.acc _) n rfl hN rfl

theorem Net.Finite.step {env penv : Nat → Env} {may : Nat → UserOp → Prop} {n n' : Net} (hn : n.Finite penv) (h : Net.Step env penv may n n') : n'.Finite penv := by
  obtain ⟨N, hN⟩ := hn
  cases h with
  | @own i k a c r st' hi hr he =>
    refine ⟨max N (k + 1), fun j hj => ?_⟩
    dsimp only [upd]
    rw [if_neg (by omega)]
    exact hN j (by omega)
  | chooses => exact ⟨N, hN⟩
  | @peer k e b hb =>
    have hk : k < N := Nat.lt_of_not_le fun h => hN k h _ _ hb
    refine ⟨N, fun j hj => ?_⟩
    dsimp only [upd]
    rw [if_neg (by omega)]
    exact hN j hj

theorem Net.Runs.step {env penv : Nat → Env} {may : Nat → UserOp → Prop} {n0 n n' : Net} {la lb} (h : Net.Runs env penv may n0 la lb n) (hs : Net.Step env penv may n n') :
    ∃ la' lb', Net.Runs env penv may n0 (la ++ la') (lb ++ lb') n' := by
  cases hs with
  | own h1 h2 h3 => exact ⟨[_], [], by rw [List.append_nil lb]; exact .own h h1 h2 h3⟩
  | chooses h1 h2 => exact ⟨[], [], by rw [List.append_nil, List.append_nil]; exact .chooses h h1 h2⟩
  | peer h1 => exact ⟨[], [_], by rw [List.append_nil la]; exact .peer h h1⟩

theorem Net.Runs.finite {env penv : Nat → Env} {may : Nat → UserOp → Prop} {n0 n : Net} {la lb} (h : Net.Runs env penv may n0 la lb n) (hn : n0.Finite penv) : n.Finite penv := by
  induction h with
  | refl => exact hn
  | own _ h1 h2 h3 ih => exact ih.step (env := env) (may := may) (.own h1 h2 h3)
  | chooses _ h1 h2 ih => exact ih.step (env := env) (may := may) (.chooses h1 h2)
  | peer _ h1 ih => exact ih.step (env := env) (may := may) (.peer h1)

theorem stops_iff {env penv : Nat → Env} {may : Nat → UserOp → Prop} {n : Net} : (∀ n', ¬ Net.Step env penv may n n') ↔ n.AtRest env ∧ ∀ k, (n.peers k).AtRest (penv k) := by
  constructor
  · refine fun h => ⟨fun g hg hgo => ?_, fun k e b hb => h _ (.peer hb)⟩
    obtain ⟨i, hi⟩ := List.mem_iff_getElem?.mp hg
    rcases hgo with ⟨c, rfl⟩ | ⟨k, a, c, r, st', rfl, h1, h2⟩
    · exact h _ (.chooses (cs := []) hi fun _ hx => absurd hx List.not_mem_nil)
    · exact h _ (.own hi h1 h2)
  · rintro ⟨h1, h2⟩ n' h
    cases h with
    | own hi hr he => exact h1 _ (List.mem_of_getElem? hi) (.inr ⟨_, _, _, _, _, rfl, hr, he⟩)
    | chooses hi _ => exact h1 _ (List.mem_of_getElem? hi) (.inl ⟨_, rfl⟩)
    | peer hb => exact h2 _ _ _ hb

end Process

namespace AsyncProcess
open Async Network
open Process (leftOf)

/-- The coroutine, without the number of its socket. -/
def bare : Coro → Co
  | .lib _ c => c
  | .user b => .user { ops := [], catching := b }

theorem bare_place (k : Nat) (c : Co) : (bare (place k c)).recvWeight = c.recvWeight ∧ (bare (place k c)).sendWeight ≤ c.sendWeight ∧ (bare (place k c)).stops = c.stops := by
  cases c with
  | user u =>
    refine ⟨rfl, ?_, rfl⟩
    show 2 * 0 + 1 ≤ 2 * u.ops.length + 1
    omega
  | _ => exact ⟨rfl, Nat.le_refl _, rfl⟩

theorem bare_places (k : Nat) (cs : List Co) : (weights ((cs.map (place k)).map bare)).1 = (weights cs).1 ∧ (weights ((cs.map (place k)).map bare)).2 ≤ (weights cs).2 := by
  induction cs with
  | nil => exact ⟨rfl, Nat.le_refl _⟩
  | cons c cs ih =>
    obtain ⟨h1, h2, _⟩ := bare_place k c
    show (bare (place k c)).recvWeight + _ = _ ∧ (bare (place k c)).sendWeight + _ ≤ _
    exact ⟨by rw [h1, ih.1]; rfl, Nat.add_le_add h2 ih.2⟩

/-- The task can do less without a connection than one with the coroutines `cs`. -/
def State.Under (s : State) (cs : List Coro) : Prop :=
  match s with
  | .run t => Rank.Less (rank (t.coros.map bare)) (rank (cs.map bare))
  | _ => True

theorem less_of_le {x y z : Rank} (h : x.1 = y.1 ∧ x.2 ≤ y.2) (h' : Rank.Less y z) : Rank.Less x z := by
  unfold Rank.Less at *
  omega

theorem unwindM_under (e : AErr) (rest : List Coro) (l : Local) (ws : Nat → World) (c0 : Coro) (below : List Coro) (hs : (bare c0).stops = false)
    (hle : (weights (rest.map bare)).1 ≤ (weights (below.map bare)).1 ∧ (weights (rest.map bare)).2 ≤ (weights (below.map bare)).2) : (unwindM e rest l ws).1.Under (c0 :: below) := by
  induction rest generalizing ws with
  | nil => exact trivial
  | cons c rest ih =>
    have hle' : (weights (rest.map bare)).1 ≤ (weights (below.map bare)).1 ∧ (weights (rest.map bare)).2 ≤ (weights (below.map bare)).2 := by
      have h : (bare c).recvWeight + (weights (rest.map bare)).1 ≤ (weights (below.map bare)).1 ∧ (bare c).sendWeight + (weights (rest.map bare)).2 ≤ (weights (below.map bare)).2 := hle
      omega
    cases c with
    | user u =>
      dsimp only [unwindM]
      split
      · exact rank_less hs rfl (weights_tail (bare c0) hle)
      · exact ih ws hle'
    | lib j c =>
      dsimp only [unwindM]
      exact ih _ hle'

theorem left_eq {w w' : World} (h : w.st = w'.st) : w.left = w'.left := left_of_st h

/-- What a step in the library does. -/
theorem move_does {env : Nat → Env} {k : Nat} {c : Co} {rest : List Coro} {l : Local} {ws ws' : Nat → World} {s : State} (h : move env k c rest l ws = some (s, ws')) :
    (∀ j, j ≠ k → (ws' j).left = (ws j).left) ∧ ((ws' k).left < (ws k).left ∨ ((ws' k).left = (ws k).left ∧ s.Under (.lib k c :: rest))) := by
  obtain ⟨h1, h2⟩ := move_st h
  refine ⟨fun j hj => left_eq (h2 j hj), ?_⟩
  have hl : (ws' k).left = (coStep (env k) c l (ws k)).2.2.left := left_eq h1
  rw [hl]
  have hd := coStep_does (env k) c l (ws k)
  unfold move at h
  revert h hd
  generalize coStep (env k) c l (ws k) = x
  rcases x with ⟨a, l', w'⟩
  intro h hd
  rcases hd with ⟨_, hd, _⟩ | ⟨hs, g1, g2, hd⟩ | ⟨hd, _⟩
  · exact .inl hd
  · refine .inr ⟨by unfold World.left; rw [g1, g2], ?_⟩
    have hs' : (bare (.lib k c)).stops = false := hs
    cases a with
    | goto c' =>
      injection h with h; injection h with h _; subst h
      obtain ⟨b1, b2, b3⟩ := bare_place k c'
      rcases hd with hd | hd
      · exact rank_stops hs' rfl (b3.trans hd)
      · refine rank_less hs' rfl ?_
        refine weights_under (rest.map bare) (cs := [bare (place k c')]) (less_of_le ?_ hd)
        exact ⟨congrArg (· + 0) b1, Nat.add_le_add_right b2 0⟩
    | call cs c' =>
      injection h with h; injection h with h _; subst h
      rcases hd with ⟨d, ds, rfl, hd⟩ | hd
      · exact rank_stops hs' rfl ((bare_place k d).2.2.trans hd)
      · refine rank_less hs' rfl ?_
        have := weights_under (rest.map bare) (less_of_le (bare_places k (cs ++ [c'])) hd)
        rw [List.map_append, List.map_append, List.append_assoc] at this
        rw [List.map_append]
        exact this
    | finish =>
      cases rest with
      | nil => injection h with h; injection h with h _; subst h; exact trivial
      | cons d ds =>
        injection h with h; injection h with h _; subst h
        exact rank_less hs' rfl (weights_tail c ⟨Nat.le_refl _, Nat.le_refl _⟩)
    | error e =>
      injection h with h
      have : s = (unwindM e rest l' (put ws k (destroy c w'))).1 := by rw [h]
      rw [this]
      exact unwindM_under e rest l' _ (.lib k c) rest hs' ⟨Nat.le_refl _, Nat.le_refl _⟩
    | blocked => exact hd.elim
    | ub u => injection h with h; injection h with h _; subst h; exact trivial
  · have hd : a = .blocked := hd
    subst hd
    cases h

/-- A task after a step without a connection. -/
def Below (s' s : State) : Prop := ∃ t, s = .run t ∧ s'.Under t.coros

theorem below_acc (s : State) : Acc Below s := by
  have key : ∀ x, Acc Rank.Less x → ∀ t : Stack, rank (t.coros.map bare) = x → Acc Below (.run t) := by
    intro x hx
    induction hx with
    | intro x _ ih =>
      rintro t rfl
      refine ⟨_, ?_⟩
      rintro s' ⟨t', e, h⟩
      injection e with e
      subst e
      cases s' with
      | run t' => exact ih _ h t' rfl
      | finished => exact ⟨_, fun _ ⟨_, e, _⟩ => (by cases e)⟩
      | failed => exact ⟨_, fun _ ⟨_, e, _⟩ => (by cases e)⟩
      | ub => exact ⟨_, fun _ ⟨_, e, _⟩ => (by cases e)⟩
  cases s with
  | run t => exact key _ (Rank.acc _) t rfl
  | _ => exact ⟨_, fun _ ⟨_, e, _⟩ => (by cases e)⟩

/-- All coroutines of the task are of the first `N` sockets. -/
def Upto (N : Nat) (s : State) : Prop := ∀ t, s = .run t → ∀ k c, .lib k c ∈ t.coros → k < N

theorem upto_mono {N M : Nat} (h : N ≤ M) {s : State} (hs : Upto N s) : Upto M s := fun t e k c hc => Nat.lt_of_lt_of_le (hs t e k c hc) h

theorem upto_some (s : State) : ∃ N, Upto N s := by
  cases s with
  | run t =>
    rcases t with ⟨cs, l⟩
    have : ∃ N, ∀ k c, Coro.lib k c ∈ cs → k < N := by
      induction cs with
      | nil => exact ⟨0, fun _ _ h => absurd h List.not_mem_nil⟩
      | cons d cs ih =>
        obtain ⟨N, ih⟩ := ih
        cases d with
        | lib k c =>
          refine ⟨max N (k + 1), fun j c' h => ?_⟩
          rcases List.mem_cons.mp h with e | h
          · injection e with e; omega
          · have := ih j c' h; omega
        | user b =>
          refine ⟨N, fun j c' h => ?_⟩
          rcases List.mem_cons.mp h with e | h
          · cases e
          · exact ih j c' h
    obtain ⟨N, h⟩ := this
    exact ⟨N, fun t e k c hc => by injection e with e; subst e; exact h k c hc⟩
  | _ => exact ⟨0, fun t e => by cases e⟩

theorem upto_all (ss : List State) : ∃ N, ∀ s ∈ ss, Upto N s := by
  induction ss with
  | nil => exact ⟨0, fun _ h => absurd h List.not_mem_nil⟩
  | cons s ss ih =>
    obtain ⟨N, hN⟩ := ih
    obtain ⟨M, hM⟩ := upto_some s
    refine ⟨max N M, fun s' h => ?_⟩
    rcases List.mem_cons.mp h with rfl | h
    · exact upto_mono (by omega) hM
    · exact upto_mono (by omega) (hN s' h)

theorem place_lib {k j : Nat} {c d : Co} (h : place k c = .lib j d) : j = k := by
  cases c <;> first | (injection h with h; exact h.symm) | cases h

theorem upto_unwindM {N : Nat} (e : AErr) (rest : List Coro) (l : Local) (ws : Nat → World) (h : ∀ k c, .lib k c ∈ rest → k < N) : Upto N (unwindM e rest l ws).1 := by
  induction rest generalizing ws with
  | nil => exact fun t e => by cases e
  | cons d rest ih =>
    have ih := fun ws => ih ws fun k c hc => h k c (List.mem_cons_of_mem _ hc)
    cases d with
    | user u =>
      dsimp only [unwindM]
      split
      · intro t e k c hc
        injection e with e
        subst e
        rcases List.mem_cons.mp hc with e | hc
        · cases e
        · exact h k c (List.mem_cons_of_mem _ hc)
      · exact ih ws
    | lib j c => exact ih _

theorem upto_move {N : Nat} {env : Nat → Env} {k : Nat} {c : Co} {rest : List Coro} {l : Local} {ws ws' : Nat → World} {s : State} (h : move env k c rest l ws = some (s, ws')) (hk : k < N)
    (hr : ∀ k c, .lib k c ∈ rest → k < N) : Upto N s := by
  unfold move at h
  revert h
  generalize coStep (env k) c l (ws k) = x
  rcases x with ⟨a, l', w'⟩
  intro h
  cases a with
  | goto c' =>
    injection h with h; injection h with h _; subst h
    intro t e j d hd
    injection e with e; subst e
    rcases List.mem_cons.mp hd with e | hd
    · rw [place_lib e.symm]; exact hk
    · exact hr j d hd
  | call cs c' =>
    injection h with h; injection h with h _; subst h
    intro t e j d hd
    injection e with e; subst e
    rcases List.mem_append.mp hd with hd | hd
    · obtain ⟨x, _, e⟩ := List.mem_map.mp hd
      rw [place_lib e]; exact hk
    · rcases List.mem_cons.mp hd with e | hd
      · rw [place_lib e.symm]; exact hk
      · exact hr j d hd
  | finish =>
    cases rest with
    | nil => injection h with h; injection h with h _; subst h; exact fun t e => by cases e
    | cons d ds =>
      injection h with h; injection h with h _; subst h
      intro t e j d hd
      injection e with e; subst e
      exact hr j d hd
  | error e =>
    injection h with h
    have : s = (unwindM e rest l' (put ws k (destroy c w'))).1 := by rw [h]
    rw [this]
    exact upto_unwindM e rest l' _ hr
  | blocked => cases h
  | ub u => injection h with h; injection h with h _; subst h; exact fun t e => by cases e

/-- What the first `N` connections can still do. -/
def leftIn (N : Nat) (ws : Nat → World) : List Nat := (List.range N).map fun k => (ws k).left

/-- Steps in which user code does nothing with a socket do not go on for ever. -/
theorem step_acc (env penv : Nat → Env) (may : Nat → UserOp → Prop) (n : Net) (hn : n.Finite penv) : Acc (fun n' n => Net.Step env penv may n false n') n := by
  have key : ∀ N : Nat, ∀ xs, Acc (OneOf (· < · : Nat → Nat → Prop)) xs → ∀ ts, Acc (OneOf Below) ts → ∀ ls, Acc (OneOf Left.Down) ls →
      ∀ n : Net, leftIn N n.socks = xs → n.tasks = ts → leftOf N n.peers = ls → (∀ k, N ≤ k → (n.peers k).AtRest (penv k)) → (∀ s ∈ n.tasks, Upto N s) →
      Acc (fun n' n => Net.Step env penv may n false n') n := by
    intro N xs hxs
    induction hxs with
    | intro xs _ ihx =>
      intro ts hts
      induction hts with
      | intro ts hts' iht =>
        intro ls hls
        induction hls with
        | intro ls hls' ihl =>
          rintro n rfl rfl rfl hrest hwithin
          refine ⟨_, fun n' h => ?_⟩
          cases h with
          | @lib i k c rest l s ws bs hi hr hm hb =>
            have hin := hwithin _ (List.mem_of_getElem? hi) _ rfl
            have hk : k < N := hin k c List.mem_cons_self
            have hrest' : ∀ j, N ≤ j → (put n.peers k ((n.peers k).receive bs) j).AtRest (penv j) := by
              intro j hj
              dsimp only [put]
              rw [if_neg (by omega)]
              exact hrest j hj
            have hwithin' : ∀ s' ∈ n.tasks.set i s, Upto N s' := by
              intro s' hs'
              rcases List.mem_or_eq_of_mem_set hs' with hs' | rfl
              · exact hwithin s' hs'
              · exact upto_move hm hk fun j d hd => hin j d (List.mem_cons_of_mem _ hd)
            obtain ⟨h1, h2⟩ := move_does hm
            rcases h2 with h2 | ⟨h2, h3⟩
            · exact ihx _ (oneOf_map List.nodup_range (List.mem_range.mpr hk) h2 h1) _ (oneOf_acc below_acc _) _ (oneOf_acc Left.acc _) _ rfl rfl rfl hrest' hwithin'
            · refine iht _ (oneOf_set hi ⟨_, rfl, h3⟩) _ (oneOf_acc Left.acc _) _ ?_ rfl rfl hrest' hwithin'
              refine List.map_congr_left fun j _ => ?_
              by_cases hj : j = k
              · subst hj; exact h2
              · exact h1 j hj
          | @ends i b rest l hi =>
            refine iht _ (oneOf_set hi ⟨_, rfl, ?_⟩) _ (oneOf_acc Left.acc _) _ rfl rfl rfl hrest ?_
            · split
              · trivial
              · exact rank_less (c := .user { ops := [], catching := b }) rfl rfl (weights_tail _ ⟨Nat.le_refl _, Nat.le_refl _⟩)
            · intro s' hs'
              rcases List.mem_or_eq_of_mem_set hs' with hs' | rfl
              · exact hwithin s' hs'
              · intro t e j d hd
                split at e
                · cases e
                · injection e with e; subst e
                  exact hwithin _ (List.mem_of_getElem? hi) _ rfl j d (List.mem_cons_of_mem _ hd)
          | @peer k e b hb =>
            have hk : k < N := Nat.lt_of_not_le fun h => hrest k h _ _ hb
            refine ihl (leftOf N (put n.peers k b)) ?_ _ ?_ rfl rfl ?_ hwithin
            · refine oneOf_map List.nodup_range (List.mem_range.mpr hk) ?_ fun j hj => ?_
              · rw [put, if_pos rfl]
                exact hb.down
              · rw [put, if_neg hj]
            · refine List.map_congr_left fun j _ => ?_
              dsimp only [put]
              split
              · rename_i e; subst e; rfl
              · rfl
            · intro j hj
              dsimp only [put]
              rw [if_neg (by omega)]
              exact hrest j hj
  obtain ⟨N, hN⟩ := hn
  obtain ⟨M, hM⟩ := upto_all n.tasks
  exact key (max N M) _ (oneOf_acc (fun x => Nat.lt_wfRel.wf.apply x) _) _ (oneOf_acc below_acc _) _ (oneOf_acc Left.acc _) n rfl rfl rfl (fun k hk => hN k (by omega))
    fun s hs => upto_mono (by omega) (hM s hs)

theorem Net.Finite.step {env penv : Nat → Env} {may : Nat → UserOp → Prop} {n n' : Net} {b : Bool} (hn : n.Finite penv) (h : Net.Step env penv may n b n') : n'.Finite penv := by
  obtain ⟨N, hN⟩ := hn
  cases h with
  | @lib i k c rest l s ws bs hi hr hm hb =>
    refine ⟨max N (k + 1), fun j hj => ?_⟩
    dsimp only [put]
    rw [if_neg (by omega)]
    exact hN j (by omega)
  | does => exact ⟨N, hN⟩
  | ends => exact ⟨N, hN⟩
  | @peer k e b hb =>
    have hk : k < N := Nat.lt_of_not_le fun h => hN k h _ _ hb
    refine ⟨N, fun j hj => ?_⟩
    dsimp only [put]
    rw [if_neg (by omega)]
    exact hN j hj

theorem Net.Runs.step {env penv : Nat → Env} {may : Nat → UserOp → Prop} {n0 n n' : Net} {la lb} {b : Bool} (h : Net.Runs env penv may n0 la lb n) (hs : Net.Step env penv may n b n') :
    ∃ la' lb', Net.Runs env penv may n0 (la ++ la') (lb ++ lb') n' := by
  cases hs with
  | lib h1 h2 h3 h4 => exact ⟨[_], [], by rw [List.append_nil lb]; exact .lib h h1 h2 h3 h4⟩
  | does h1 h2 h3 => exact ⟨[_], [], by rw [List.append_nil lb]; exact .does h h1 h2 h3⟩
  | ends h1 => exact ⟨[], [], by rw [List.append_nil, List.append_nil]; exact .ends h h1⟩
  | peer h1 => exact ⟨[], [_], by rw [List.append_nil la]; exact .peer h h1⟩

theorem Net.Runs.finite {env penv : Nat → Env} {may : Nat → UserOp → Prop} {n0 n : Net} {la lb} (h : Net.Runs env penv may n0 la lb n) (hn : n0.Finite penv) : n.Finite penv := by
  induction h with
  | refl => exact hn
  | lib _ h1 h2 h3 h4 ih => exact ih.step (env := env) (may := may) (.lib h1 h2 h3 h4)
  | does _ h1 h2 h3 ih => exact ih.step (env := env) (may := may) (.does h1 h2 h3)
  | ends _ h1 ih => exact ih.step (env := env) (may := may) (.ends h1)
  | peer _ h1 ih => exact ih.step (env := env) (may := may) (.peer h1)

theorem rest_of_stops {env penv : Nat → Env} {may : Nat → UserOp → Prop} {n : Net} (h : ∀ n', ¬ Net.Step env penv may n false n') : n.AtRest env ∧ ∀ k, (n.peers k).AtRest (penv k) := by
  refine ⟨fun s hs hgo => ?_, fun k e b hb => h _ (.peer hb)⟩
  obtain ⟨i, hi⟩ := List.mem_iff_getElem?.mp hs
  rcases hgo with ⟨b, rest, l, rfl⟩ | ⟨k, c, rest, l, s', ws, bs, rfl, h1, h2, h3⟩
  · exact h _ (.ends hi)
  · exact h _ (.lib hi h1 h2 h3)

theorem stops_of_rest {env penv : Nat → Env} {may : Nat → UserOp → Prop} {n : Net} (h1 : n.AtRest env) (h2 : ∀ k, (n.peers k).AtRest (penv k)) (b : Bool) (n' : Net) : ¬ Net.Step env penv may n b n' := by
  intro h
  cases h with
  | lib hi hr hm hb => exact h1 _ (List.mem_of_getElem? hi) (.inr ⟨_, _, _, _, _, _, _, rfl, hr, hm, hb⟩)
  | does hi _ _ => exact h1 _ (List.mem_of_getElem? hi) (.inl ⟨_, _, _, rfl⟩)
  | ends hi => exact h1 _ (List.mem_of_getElem? hi) (.inl ⟨_, _, _, rfl⟩)
  | peer hb => exact h2 _ _ _ hb

end AsyncProcess
end OatWS
