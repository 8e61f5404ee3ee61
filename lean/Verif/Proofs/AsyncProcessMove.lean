import Verif.Proofs.AsyncProcessSim
/-! # Each step of a task, as one socket sees it -/

namespace OatWS.AsyncProcess
open Async
open Process (withReact)

theorem place_in {k : Nat} {c : Co} (h : isIn c = true) : place k c = .lib k c := by
  cases c <;> first | rfl | cases h

theorem place_out {k : Nat} {c : Co} (h : isOut c = true) : place k c = .lib k c := by
  cases c <;> first | rfl | cases h

theorem map_place_in {k : Nat} {cs : List Co} (h : ∀ c ∈ cs, isIn c = true) : cs.map (place k) = cs.map (.lib k) :=
  List.map_congr_left fun c hc => place_in (h c hc)

theorem map_place_out {k : Nat} {cs : List Co} (h : ∀ c ∈ cs, isOut c = true) : cs.map (place k) = cs.map (.lib k) :=
  List.map_congr_left fun c hc => place_out (h c hc)

theorem forall_cons {P : Co → Prop} {c : Co} {cs : List Co} (h : P c) (hs : ∀ x ∈ cs, P x) : ∀ x ∈ c :: cs, P x := by
  intro x hx
  rcases List.mem_cons.mp hx with rfl | hx
  · exact h
  · exact hs x hx

theorem forall_append {P : Co → Prop} {cs ds : List Co} (h : ∀ x ∈ cs, P x) (hs : ∀ x ∈ ds, P x) : ∀ x ∈ cs ++ ds, P x := by
  intro x hx
  rcases List.mem_append.mp hx with hx | hx
  · exact h x hx
  · exact hs x hx

/-- What user code does with socket `q` if the step is one on another socket. -/
def elseFuture (f : List UserOp) : State → List UserOp
  | .failed _ => [.throw]
  | .finished => []
  | _ => f

/-- A step of the library for another socket. -/
theorem lib_else {env : Nat → Env} {q k : Nat} {c : Co} {rest : List Coro} {l : Local} {ws ws' : Nat → World} {s : State} (hk : k ≠ q) (h : move env k c rest l ws = some (s, ws')) (env' : Env) (home : Option Nat)
    (f : List UserOp) : Sim env' q home (elseFuture f s) (.run ⟨.lib k c :: rest, l⟩) (ws q) (fun _ => []) f s (ws' q) := by
  intro m o hR
  have hq : q ≠ k := Ne.symm hk
  generalize hs0 : State.run ⟨.lib k c :: rest, l⟩ = s0 at hR
  cases hR with
  | @below low l' _ _ _ =>
    injection hs0 with hs0
    injection hs0 with hs0 _
    cases low with
    | nil => cases hs0
    | cons => injection hs0 with hs0 _; injection hs0 with hs0 _; exact absurd hs0 hk
  | @away j low l' u lv h1 h2 h3 h4 h5 =>
    injection hs0 with hs0
    injection hs0 with hs0 e1
    subst e1
    cases low with
    | nil => cases hs0
    | cons c' low =>
      injection hs0 with hs0 e2
      injection hs0 with e3 e4
      subst e2 e3 e4
      have hc := h4 c (List.mem_cons_self ..)
      have hlow : ∀ x ∈ low, isIn x = true := fun x hx => h4 x (List.mem_cons_of_mem _ hx)
      unfold move at h
      cases in_step (env k) c hc l (ws k) with
      | plain a l' w' e hw _ =>
        rw [show coStep (env k) c l (ws k) = (a, l', w') from e (env k).react] at h
        cases a with
        | goto c2 =>
          dsimp only at h
          injection h with h; injection h with h h'
          subst h h'
          rw [place_in hw]
          exact ⟨_, .away (low := c2 :: low) h1 h2 (by nofun) (forall_cons hw hlow) h5, .stay (put_else _ _ hq) rfl⟩
        | call cs c2 =>
          dsimp only at h
          injection h with h; injection h with h h'
          subst h h'
          rw [place_in hw.2, map_place_in hw.1]
          have := Rel.away (low := cs ++ c2 :: low) (l := l') (lv := lv) h1 h2 (by simp) (forall_append hw.1 (forall_cons hw.2 hlow)) h5
          rw [List.map_append] at this
          exact ⟨_, this, .stay (put_else _ _ hq) rfl⟩
        | finish =>
          dsimp only at h
          cases low with
          | nil =>
            try dsimp only [List.map_nil] at h
            injection h with h; injection h with h h'
            subst h h'
            exact ⟨_, .finished, by rw [put_else _ _ hq]; exact moves_finish h5 m⟩
          | cons c2 low =>
            try dsimp only [List.map_cons] at h
            injection h with h; injection h with h h'
            subst h h'
            exact ⟨_, .away (low := c2 :: low) h1 h2 (by nofun) hlow h5, .stay (put_else _ _ hq) rfl⟩
        | error e =>
          dsimp only at h
          rw [unwindM_in] at h
          injection h with h; injection h with h h'
          subst h h'
          obtain ⟨ws2, g1, g2⟩ := moves_throw (env := env') (q := q) (home := none) (low := []) (l := l) (lowv := []) (lv := lv) .app h5 ws m
          have := (g1 .io)
          injection this with _ this
          subst this
          exact ⟨_, .failed, by rw [put_else _ _ hq, put_else _ _ hq]; exact g2⟩
        | blocked => cases h
        | ub u =>
          dsimp only at h
          injection h with h; injection h with h h'
          subst h h'
          exact ⟨_, .ubElse hk, .stay (put_else _ _ hq) rfl⟩
      | told ev u0 c2 l' w' e hu hw _ =>
        rw [show coStep (env k) c l (ws k) = _ from e (env k).react] at h
        dsimp only at h
        injection h with h; injection h with h h'
        subst h h'
        rw [place_in hw]
        subst h1
        exact ⟨_, .user (low := .lib k c2 :: low.map (.lib k)) (.there (low := c2 :: low) h2 (by nofun) (forall_cons hw hlow)) h5, .stay (put_else _ _ hq) rfl⟩
  | user => injection hs0 with hs0; injection hs0 with hs0 _; cases hs0
  | @sendsHere up b u low l' lowv lv _ h0 _ _ _ =>
    injection hs0 with hs0
    injection hs0 with hs0 _
    cases up with
    | nil => exact absurd rfl h0
    | cons => injection hs0 with hs0 _; injection hs0 with hs0 _; exact absurd hs0 hk
  | @sendsThere j up b u low l' lowv lv hun h0 h1 h2 h5 =>
    injection hs0 with hs0
    injection hs0 with hs0 e1
    subst e1
    cases up with
    | nil => exact absurd rfl h1
    | cons c' up =>
      injection hs0 with hs0 e2
      injection hs0 with e3 e4
      subst e3 e4
      replace e2 : rest = up.map (.lib k) ++ .user b :: low := e2
      subst e2
      have hc := h2 c (List.mem_cons_self ..)
      have hup : ∀ x ∈ up, isOut x = true := fun x hx => h2 x (List.mem_cons_of_mem _ hx)
      unfold move at h
      obtain ⟨a, w', e, hw, _⟩ := out_step (env k) c hc (ws k)
      rw [show coStep (env k) c l (ws k) = (a, l, w') from e (env k).react l] at h
      cases a with
      | goto c2 =>
        dsimp only at h
        injection h with h; injection h with h h'
        subst h h'
        rw [place_out hw]
        exact ⟨_, .sendsThere (up := c2 :: up) hun h0 (by nofun) (forall_cons hw hup) h5, .stay (put_else _ _ hq) rfl⟩
      | call cs c2 =>
        dsimp only at h
        injection h with h; injection h with h h'
        subst h h'
        rw [place_out hw.2, map_place_out hw.1]
        have := Rel.sendsThere (up := cs ++ c2 :: up) (b := b) hun h0 (by simp) (forall_append hw.1 (forall_cons hw.2 hup)) h5
        rw [List.map_append, List.append_assoc] at this
        exact ⟨_, this, .stay (put_else _ _ hq) rfl⟩
      | finish =>
        dsimp only at h
        cases up with
        | nil =>
          try dsimp only [List.map_nil, List.nil_append] at h
          injection h with h; injection h with h h'
          subst h h'
          exact ⟨_, .user hun h5, .stay (put_else _ _ hq) rfl⟩
        | cons c2 up =>
          try dsimp only [List.map_cons, List.cons_append] at h
          injection h with h; injection h with h h'
          subst h h'
          exact ⟨_, .sendsThere (up := c2 :: up) hun h0 (by nofun) hup h5, .stay (put_else _ _ hq) rfl⟩
      | error e =>
        dsimp only at h
        have hsame : put ws k (destroy c w') q = ws q := put_else _ _ hq
        rw [unwindM_out hup] at h
        unfold unwindM at h
        cases b with
        | true =>
          rw [if_pos rfl] at h
          injection h with h; injection h with h h'
          subst h h'
          exact ⟨_, .user hun h5, .stay hsame rfl⟩
        | false =>
          rw [if_neg (by nofun)] at h
          obtain ⟨ws2, g1, _⟩ := hun.unwind (put ws k (destroy c w'))
          rw [g1] at h
          injection h with h; injection h with h h'
          subst h h'
          obtain ⟨ws3, g3, g4⟩ := moves_throw (env := env') hun h5 (put ws k (destroy c w')) m
          have := (g1 .io).symm.trans (g3 .io)
          injection this with _ this
          subst this
          rw [hsame] at g4
          exact ⟨_, .failed, g4⟩
      | blocked => cases h
      | ub u =>
        dsimp only at h
        injection h with h; injection h with h h'
        subst h h'
        exact ⟨_, .ubElse hk, .stay (put_else _ _ hq) rfl⟩
  | finished => cases hs0
  | failed => cases hs0
  | ub => cases hs0
  | ubElse => cases hs0

end OatWS.AsyncProcess
