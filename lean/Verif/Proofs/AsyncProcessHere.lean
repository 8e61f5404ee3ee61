import Verif.Proofs.AsyncProcessMove
/-! # Each step of a task, as one socket sees it: steps on this socket, and of user code -/

namespace OatWS.AsyncProcess
open Async
open Process (withReact)

theorem destroy_st' (c : Co) (w : World) : (destroy c w).st = w.st := by cases c <;> rfl

theorem unwindM_st (e : AErr) (rest : List Coro) (l : Local) (ws : Nat → World) (j : Nat) : ((unwindM e rest l ws).2 j).st = (ws j).st := by
  induction rest generalizing ws with
  | nil => rfl
  | cons c rest ih =>
    cases c with
    | user b =>
      unfold unwindM
      split
      · rfl
      · exact ih ws
    | lib k c =>
      refine (ih _).trans ?_
      unfold put
      split
      · rename_i h; rw [h, destroy_st']
      · rfl

theorem move_st {env : Nat → Env} {k : Nat} {c : Co} {rest : List Coro} {l : Local} {ws ws' : Nat → World} {s : State} (h : move env k c rest l ws = some (s, ws')) :
    (ws' k).st = (coStep (env k) c l (ws k)).2.2.st ∧ ∀ j, j ≠ k → (ws' j).st = (ws j).st := by
  unfold move at h
  rcases he : coStep (env k) c l (ws k) with ⟨a, l', w'⟩
  rw [he] at h
  have hp : ∀ x : World, x.st = w'.st → ((put ws k x) k).st = w'.st ∧ ∀ j, j ≠ k → ((put ws k x) j).st = (ws j).st :=
    fun x hx => ⟨by rw [put_same, hx], fun j hj => by rw [put_else _ _ hj]⟩
  cases a with
  | goto c2 => dsimp only at h; injection h with h; injection h with h h'; subst h'; exact hp _ rfl
  | call cs c2 => dsimp only at h; injection h with h; injection h with h h'; subst h'; exact hp _ rfl
  | finish =>
    dsimp only at h
    cases rest with
    | nil => injection h with h; injection h with h h'; subst h'; exact hp _ (destroy_st' _ _)
    | cons => injection h with h; injection h with h h'; subst h'; exact hp _ (destroy_st' _ _)
  | error e =>
    dsimp only at h
    injection h with h
    obtain ⟨h1, h2⟩ := hp _ (destroy_st' c w')
    have hu : ∀ j, (ws' j).st = (put ws k (destroy c w') j).st := fun j => by
      have := unwindM_st e rest l' (put ws k (destroy c w')) j
      rw [h] at this
      exact this
    exact ⟨(hu k).trans h1, fun j hj => (hu j).trans (h2 j hj)⟩
  | blocked => cases h
  | ub u => dsimp only at h; injection h with h; injection h with h h'; subst h'; exact hp _ rfl

theorem user_trace (env : Env) (c : UserCo) (l : Local) (w : World) : (coStep env (.user c) l w).2.2.st.sock.trace = w.st.sock.trace := by
  dsimp only [coStep, userStep]
  split <;> rfl

theorem entry_in {c : Co} (hc : isIn c = true) (env : Env) (r : List Event → List UserOp) (m : Nat) (rest : List Co) (l lv : Local) (w w' : World) (bs : List UInt8) :
    entryOf (withReact env r) m ⟨c :: rest, lv⟩ w w' bs = entryOf env m ⟨[c], l⟩ w w' bs := by
  cases c <;> first | rfl | cases hc

theorem entry_out {c : Co} (hc : isOut c = true) (env : Env) (r : List Event → List UserOp) (m : Nat) (rest : List Co) (l lv : Local) (w w' : World) (bs : List UInt8) :
    entryOf (withReact env r) m ⟨c :: rest, lv⟩ w w' bs = entryOf env m ⟨[c], l⟩ w w' bs := by
  obtain ⟨a, w1, e, _, _⟩ := out_step env c hc w
  have e1 := e r lv
  have e2 : coStep env c l w = (a, l, w1) := e env.react l
  cases c with
  | sendFrame c =>
    unfold entryOf Task.completes Task.fails
    dsimp only
    rw [e1, e2]
    cases a <;> rfl
  | writeFrame c =>
    unfold entryOf Task.completes Task.fails
    dsimp only
    rw [e1, e2]
    cases a <;> rfl
  | _ => cases hc

theorem in_not_out {c : Co} (h : isIn c = true) : isOut c ≠ true := by
  cases c <;> first | exact Bool.false_ne_true | cases h

theorem ready_same (c : Co) (rest : List Co) (l lv : Local) (w : World) : Task.ready ⟨c :: rest, lv⟩ w = Task.ready ⟨[c], l⟩ w := by
  cases c <;> rfl

/-- The view makes a step. -/
theorem moves_same {env : Env} {r : List Event → List UserOp} {c : Co} {rest : List Co} {l lv : Local} {w w' : World} {bs : List UInt8} {o' : Outcome} (m : Nat)
    (hentry : entryOf (withReact env r) m ⟨c :: rest, lv⟩ w w' bs = entryOf env m ⟨[c], l⟩ w w' bs) (hready : Task.ready ⟨[c], l⟩ w = true)
    (hs : step (withReact env r) ⟨c :: rest, lv⟩ w = (o', w')) (hb : o' ≠ .blocked) (hbs : w'.st.sock.out.written = w.st.sock.out.written ++ bs) :
    Moves (withReact env r) w w' m [entryOf env m ⟨[c], l⟩ w w' bs] (.run ⟨c :: rest, lv⟩) o' :=
  .step rfl ((ready_same c rest l lv w).trans hready) hs hb hbs (by simp [entryOf]) (by rw [hentry])

/-- A step of the library for this socket. -/
theorem lib_here {env : Nat → Env} {q : Nat} {c : Co} {rest : List Coro} {l : Local} {ws ws' : Nat → World} {s : State} {bs : List UInt8} (h : move env q c rest l ws = some (s, ws'))
    (hready : Task.ready ⟨[c], l⟩ (ws q) = true) (hbs : (ws' q).st.sock.out.written = (ws q).st.sock.out.written ++ bs) (home : Option Nat) (f : List UserOp) (R : List Event → List UserOp) :
    ∃ R0 : List Event → List UserOp, (∀ tr, R0 tr = R tr ∨ R0 tr = f) ∧ ∀ react : List Event → List UserOp, (∀ tr, (ws q).st.sock.trace.length < tr.length → react tr = R0 tr) →
      (∀ tr, (ws' q).st.sock.trace.length < tr.length → react tr = R tr) ∧
      Sim (withReact (env q) react) q home f (.run ⟨.lib q c :: rest, l⟩) (ws q) (fun m => [entryOf (env q) m ⟨[c], l⟩ (ws q) (ws' q) bs]) f s (ws' q) := by
  have hst := (move_st h).1
  -- without a callback
  have hplain : (ws' q).st.sock.trace = (ws q).st.sock.trace →
      (∀ r, Sim (withReact (env q) r) q home f (.run ⟨.lib q c :: rest, l⟩) (ws q) (fun m => [entryOf (env q) m ⟨[c], l⟩ (ws q) (ws' q) bs]) f s (ws' q)) →
      ∃ R0 : List Event → List UserOp, (∀ tr, R0 tr = R tr ∨ R0 tr = f) ∧ ∀ react : List Event → List UserOp, (∀ tr, (ws q).st.sock.trace.length < tr.length → react tr = R0 tr) →
      (∀ tr, (ws' q).st.sock.trace.length < tr.length → react tr = R tr) ∧
      Sim (withReact (env q) react) q home f (.run ⟨.lib q c :: rest, l⟩) (ws q) (fun m => [entryOf (env q) m ⟨[c], l⟩ (ws q) (ws' q) bs]) f s (ws' q) :=
    fun ht hs => ⟨R, fun _ => .inl rfl, fun react hr => ⟨by rw [ht]; exact hr, hs react⟩⟩
  by_cases hin : isIn c = true
  · unfold move at h
    cases in_step (env q) c hin l (ws q) with
    | plain a l' w' e hw htr =>
      have e0 : coStep (env q) c l (ws q) = (a, l', w') := e (env q).react
      rw [e0] at h hst
      refine hplain (by rw [hst]; exact htr) fun r m o hR => ?_
      have er := e r
      generalize hs0 : State.run ⟨.lib q c :: rest, l⟩ = s0 at hR
      cases hR with
      | @below low l1 h1 h2 h4 =>
        injection hs0 with hs0
        injection hs0 with hs0 e1
        subst e1
        cases low with
        | nil => cases hs0
        | cons c' low =>
          injection hs0 with hs0 e2
          injection hs0 with e3 e4
          subst e2 e4
          have hlow : ∀ x ∈ low, isIn x = true := fun x hx => h4 x (List.mem_cons_of_mem _ hx)
          have key : ∀ o' : Outcome, Rel q home f s o' → o' ≠ .blocked → step (withReact (env q) r) ⟨c :: low, l⟩ (ws q) = (o', ws' q) →
              ∃ o', Rel q home f s o' ∧ Moves (withReact (env q) r) (ws q) (ws' q) m [entryOf (env q) m ⟨[c], l⟩ (ws q) (ws' q) bs] (.run ⟨c :: low, l⟩) o' :=
            fun o' k1 k2 k3 => ⟨o', k1, moves_same m (entry_in hin ..) hready k3 k2 hbs⟩
          have hstep : step (withReact (env q) r) ⟨c :: low, l⟩ (ws q) = after c low (a, l', w') := by
            rw [← er]
            rfl
          rw [hstep] at key
          cases a with
          | goto c2 =>
            dsimp only at h
            injection h with h; injection h with h h'
            subst h h'
            rw [place_in hw] at key ⊢
            exact key (.run ⟨c2 :: low, l'⟩) (.below (low := c2 :: low) h1 (by nofun) (forall_cons hw hlow)) nofun (by rw [put_same]; rfl)
          | call cs c2 =>
            dsimp only at h
            injection h with h; injection h with h h'
            subst h h'
            rw [place_in hw.2, map_place_in hw.1] at key ⊢
            have := Rel.below (f := f) (low := cs ++ c2 :: low) (l := l') h1 (by simp) (forall_append hw.1 (forall_cons hw.2 hlow))
            rw [List.map_append] at this
            exact key _ this nofun (by rw [put_same]; rfl)
          | finish =>
            dsimp only at h
            cases low with
            | nil =>
              injection h with h; injection h with h h'
              subst h h'
              exact key _ .finished nofun (by rw [put_same]; rfl)
            | cons c2 low =>
              injection h with h; injection h with h h'
              subst h h'
              exact key _ (.below (low := c2 :: low) h1 (by nofun) hlow) nofun (by rw [put_same]; rfl)
          | error err =>
            dsimp only at h
            rw [unwindM_in] at h
            injection h with h; injection h with h h'
            subst h h'
            exact key (.failed err) .failed nofun (by rw [put_same, put_same]; exact unwind_in hlow err _ _)
          | blocked => cases h
          | ub u =>
            dsimp only at h
            injection h with h; injection h with h h'
            subst h h'
            exact key (.ub u) .ub nofun (by rw [put_same]; rfl)
      | @away j low l1 u lv h1 h2 h3 h4 h5 =>
        injection hs0 with hs0
        injection hs0 with hs0 _
        cases low with
        | nil => cases hs0
        | cons => injection hs0 with hs0 _; injection hs0 with hs0 _; exact absurd hs0.symm h2
      | user => injection hs0 with hs0; injection hs0 with hs0 _; cases hs0
      | @sendsHere up b u low l1 lowv lv _ h0 h1 _ _ =>
        injection hs0 with hs0
        injection hs0 with hs0 _
        cases up with
        | nil => exact absurd rfl h0
        | cons c' up =>
          injection hs0 with hs0 _
          injection hs0 with _ hs0
          have := h1 c' (List.mem_cons_self ..)
          rw [← hs0] at this
          exact absurd this (in_not_out hin)
      | @sendsThere j up b u low l1 lowv lv _ h0 h1 _ _ =>
        injection hs0 with hs0
        injection hs0 with hs0 _
        cases up with
        | nil => exact absurd rfl h1
        | cons => injection hs0 with hs0 _; injection hs0 with hs0 _; exact absurd hs0.symm h0
      | finished => cases hs0
      | failed => cases hs0
      | ub => cases hs0
      | ubElse => cases hs0
    | told ev u0 c2 l' w' e hu hw htr =>
      have e0 := e (env q).react
      rw [show withReact (env q) (env q).react = env q from rfl] at e0
      rw [e0] at h hst
      have ht : (ws' q).st.sock.trace = (ws q).st.sock.trace ++ [ev] := by rw [hst]; exact htr
      refine ⟨fun tr => if tr = (ws q).st.sock.trace ++ [ev] then f else R tr, fun tr => ?_, fun react hr => ⟨fun tr hlen => ?_, fun m o hR => ?_⟩⟩
      · dsimp only
        split
        · exact .inr rfl
        · exact .inl rfl
      · rw [ht] at hlen
        rw [hr tr (by rw [List.length_append] at hlen; exact Nat.lt_of_succ_lt hlen)]
        dsimp only
        rw [if_neg fun e => by rw [e] at hlen; exact Nat.lt_irrefl _ hlen]
      · have hr1 : react ((ws q).st.sock.trace ++ [ev]) = f := by
          rw [hr _ (by rw [List.length_append]; exact Nat.lt_succ_self _)]
          exact if_pos rfl
        have er := e react
        rw [hr1] at er
        generalize hs0 : State.run ⟨.lib q c :: rest, l⟩ = s0 at hR
        cases hR with
        | @below low l1 h1 h2 h4 =>
          injection hs0 with hs0
          injection hs0 with hs0 e1
          subst e1
          cases low with
          | nil => cases hs0
          | cons c' low =>
            injection hs0 with hs0 e2
            injection hs0 with e3 e4
            subst e2 e4
            have hlow : ∀ x ∈ low, isIn x = true := fun x hx => h4 x (List.mem_cons_of_mem _ hx)
            dsimp only at h
            injection h with h; injection h with h h'
            subst h h'
            rw [place_in hw]
            subst h1
            have hstep : step (withReact (env q) react) ⟨c :: low, l⟩ (ws q) = (.run ⟨.user { u0 with ops := f } :: c2 :: low, l'⟩, put ws q w' q) := by
              rw [put_same]
              show after c low (coStep (withReact (env q) react) c l (ws q)) = _
              rw [er]
              rfl
            exact ⟨.run ⟨.user { u0 with ops := f } :: c2 :: low, l'⟩, .user (low := .lib q c2 :: low.map (.lib q)) (.here (low := c2 :: low) (by nofun) (forall_cons hw hlow)) rfl,
              moves_same m (entry_in hin ..) hready hstep nofun hbs⟩
        | @away j low l1 u lv h1 h2 h3 h4 h5 =>
          injection hs0 with hs0
          injection hs0 with hs0 _
          cases low with
          | nil => cases hs0
          | cons => injection hs0 with hs0 _; injection hs0 with hs0 _; exact absurd hs0.symm h2
        | user => injection hs0 with hs0; injection hs0 with hs0 _; cases hs0
        | @sendsHere up b u low l1 lowv lv _ h0 h1 _ _ =>
          injection hs0 with hs0
          injection hs0 with hs0 _
          cases up with
          | nil => exact absurd rfl h0
          | cons c' up =>
            injection hs0 with hs0 _
            injection hs0 with _ hs0
            have := h1 c' (List.mem_cons_self ..)
            rw [← hs0] at this
            exact absurd this (in_not_out hin)
        | @sendsThere j up b u low l1 lowv lv _ h0 h1 _ _ =>
          injection hs0 with hs0
          injection hs0 with hs0 _
          cases up with
          | nil => exact absurd rfl h1
          | cons => injection hs0 with hs0 _; injection hs0 with hs0 _; exact absurd hs0.symm h0
        | finished => cases hs0
        | failed => cases hs0
        | ub => cases hs0
        | ubElse => cases hs0
  · by_cases hout : isOut c = true
    · obtain ⟨a, w', e, hw, htr⟩ := out_step (env q) c hout (ws q)
      have e0 : coStep (env q) c l (ws q) = (a, l, w') := e (env q).react l
      rw [e0] at hst
      refine hplain (by rw [hst]; exact htr) fun r m o hR => ?_
      unfold move at h
      rw [e0] at h
      generalize hs0 : State.run ⟨.lib q c :: rest, l⟩ = s0 at hR
      cases hR with
      | @below low l1 h1 h2 h4 =>
        injection hs0 with hs0
        injection hs0 with hs0 _
        cases low with
        | nil => cases hs0
        | cons c' low =>
          injection hs0 with hs0 _
          injection hs0 with _ hs0
          exact absurd (by rw [hs0]; exact h4 c' (List.mem_cons_self ..)) hin
      | @away j low l1 u lv h1 h2 h3 h4 h5 =>
        injection hs0 with hs0
        injection hs0 with hs0 _
        cases low with
        | nil => cases hs0
        | cons => injection hs0 with hs0 _; injection hs0 with hs0 _; exact absurd hs0.symm h2
      | user => injection hs0 with hs0; injection hs0 with hs0 _; cases hs0
      | @sendsHere up b u low l1 lowv lv hun h0 h1 h5 h6 =>
        injection hs0 with hs0
        injection hs0 with hs0 e1
        subst e1
        cases up with
        | nil => exact absurd rfl h0
        | cons c' up =>
          injection hs0 with hs0 e2
          injection hs0 with _ e4
          subst e4
          replace e2 : rest = up.map (.lib q) ++ .user b :: low := e2
          subst e2
          have hup : ∀ x ∈ up, isOut x = true := fun x hx => h1 x (List.mem_cons_of_mem _ hx)
          have key : ∀ o' : Outcome, Rel q home f s o' → o' ≠ .blocked → step (withReact (env q) r) ⟨c :: (up ++ .user u :: lowv), lv⟩ (ws q) = (o', ws' q) →
              ∃ o', Rel q home f s o' ∧ Moves (withReact (env q) r) (ws q) (ws' q) m [entryOf (env q) m ⟨[c], l⟩ (ws q) (ws' q) bs] (.run ⟨c :: (up ++ .user u :: lowv), lv⟩) o' :=
            fun o' k1 k2 k3 => ⟨o', k1, moves_same m (entry_out hout ..) hready k3 k2 hbs⟩
          have hstep : step (withReact (env q) r) ⟨c :: (up ++ .user u :: lowv), lv⟩ (ws q) = after c (up ++ .user u :: lowv) (a, lv, w') := by
            rw [← e r lv]
            rfl
          rw [hstep] at key
          cases a with
          | goto c2 =>
            dsimp only at h
            injection h with h; injection h with h h'
            subst h h'
            rw [place_out hw] at key ⊢
            exact key (.run ⟨c2 :: (up ++ .user u :: lowv), lv⟩) (.sendsHere (up := c2 :: up) hun (by nofun) (forall_cons hw hup) h5 h6) nofun (by rw [put_same]; rfl)
          | call cs c2 =>
            dsimp only at h
            injection h with h; injection h with h h'
            subst h h'
            rw [place_out hw.2, map_place_out hw.1] at key ⊢
            have := Rel.sendsHere (up := cs ++ c2 :: up) hun (by simp) (forall_append hw.1 (forall_cons hw.2 hup)) h5 h6
            rw [List.map_append, List.append_assoc, List.append_assoc] at this
            exact key _ this nofun (by rw [put_same]; rfl)
          | finish =>
            dsimp only at h
            cases up with
            | nil =>
              injection h with h; injection h with h h'
              subst h h'
              exact key _ (.user hun h5) nofun (by rw [put_same]; rfl)
            | cons c2 up =>
              injection h with h; injection h with h h'
              subst h h'
              exact key _ (.sendsHere (up := c2 :: up) hun (by nofun) hup h5 h6) nofun (by rw [put_same]; rfl)
          | error err =>
            dsimp only at h
            rw [unwindM_out hup] at h
            have hv : after c (up ++ .user u :: lowv) (.error err, lv, w') = unwind err (.user u :: lowv) lv (destroy c w') := unwind_out hup err (.user u :: lowv) lv _
            rw [hv] at key
            unfold unwindM at h
            dsimp only [unwind] at key
            rw [h6] at key
            cases b with
            | true =>
              rw [if_pos rfl] at h key
              injection h with h; injection h with h h'
              subst h h'
              exact key _ (.user hun (u := { u with catching := false }) h5) nofun (by rw [put_same])
            | false =>
              rw [if_neg (by nofun)] at h key
              obtain ⟨ws2, g1, g2⟩ := hun.unwind (put ws q (destroy c w'))
              rw [g1] at h
              injection h with h; injection h with h h'
              subst h h'
              rw [put_same] at g2
              exact key _ .failed nofun (g2 err)
          | blocked => cases h
          | ub u1 =>
            dsimp only at h
            injection h with h; injection h with h h'
            subst h h'
            exact key (.ub u1) .ub nofun (by rw [put_same]; rfl)
      | @sendsThere j up b u low l1 lowv lv _ h0 h1 _ _ =>
        injection hs0 with hs0
        injection hs0 with hs0 _
        cases up with
        | nil => exact absurd rfl h1
        | cons => injection hs0 with hs0 _; injection hs0 with hs0 _; exact absurd hs0.symm h0
      | finished => cases hs0
      | failed => cases hs0
      | ub => cases hs0
      | ubElse => cases hs0
    · have huser : ∃ u, c = .user u := by
        cases c <;> first | exact ⟨_, rfl⟩ | exact absurd rfl hin | exact absurd rfl hout
      obtain ⟨u, rfl⟩ := huser
      refine hplain (by rw [hst]; exact user_trace ..) fun r m o hR => ?_
      generalize hs0 : State.run ⟨.lib q (.user u) :: rest, l⟩ = s0 at hR
      cases hR with
      | @below low l1 h1 h2 h4 =>
        injection hs0 with hs0
        injection hs0 with hs0 _
        cases low with
        | nil => cases hs0
        | cons c' low =>
          injection hs0 with hs0 _
          injection hs0 with _ hs0
          exact absurd (by rw [hs0]; exact h4 c' (List.mem_cons_self ..)) hin
      | @away j low l1 u lv h1 h2 h3 h4 h5 =>
        injection hs0 with hs0
        injection hs0 with hs0 _
        cases low with
        | nil => cases hs0
        | cons => injection hs0 with hs0 _; injection hs0 with hs0 _; exact absurd hs0.symm h2
      | user => injection hs0 with hs0; injection hs0 with hs0 _; cases hs0
      | @sendsHere up b u1 low l1 lowv lv _ h0 h1 _ _ =>
        injection hs0 with hs0
        injection hs0 with hs0 _
        cases up with
        | nil => exact absurd rfl h0
        | cons c' up =>
          injection hs0 with hs0 _
          injection hs0 with _ hs0
          exact absurd (by rw [hs0]; exact h1 c' (List.mem_cons_self ..)) hout
      | @sendsThere j up b u1 low l1 lowv lv _ h0 h1 _ _ =>
        injection hs0 with hs0
        injection hs0 with hs0 _
        cases up with
        | nil => exact absurd rfl h1
        | cons => injection hs0 with hs0 _; injection hs0 with hs0 _; exact absurd hs0.symm h0
      | finished => cases hs0
      | failed => cases hs0
      | ub => cases hs0
      | ubElse => cases hs0

end OatWS.AsyncProcess
