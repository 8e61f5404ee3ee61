import Verif.Proofs.Resume
import Verif.Proofs.Answers
/-! # Stopping and resuming with a listener that sends -/

namespace OatWS

/-- `listenLoop`, saying also whether it was ended by a stop. -/
def stopLoop (env : Env) : Nat → Header → P St Bool
  | 0, _ => fun st => (.block, st)
  | fuel + 1, h => iterateFrame env h >>= fun h' => P.get >>= fun st =>
      if h'.opcode ≠ OPCODE_CLOSE ∧ st.sock.listening then stopLoop env fuel h' else pure (h'.opcode != OPCODE_CLOSE)

theorem stopLoop_succ (env : Env) (fuel h st) : stopLoop env (fuel + 1) h st =
    match iterateFrame env h st with
    | (.ret h', st') => if h'.opcode ≠ OPCODE_CLOSE ∧ st'.sock.listening then stopLoop env fuel h' st' else (.ret (h'.opcode != OPCODE_CLOSE), st')
    | (.throw e, st') => (.throw e, st')
    | (.block, st') => (.block, st')
    | (.ub u, st') => (.ub u, st') := by
  simp only [stopLoop, P.bind_def, P.bind_apply]
  rcases iterateFrame env h st with ⟨(a | _ | _ | _), s'⟩ <;> simp only []
  show (if _ then _ else _ : P St Bool) s' = _
  split <;> rfl

theorem stopLoop_listenLoop (env : Env) (fuel h st) :
    listenLoop env fuel h st = ((stopLoop env fuel h st).1.map (fun _ => ()), (stopLoop env fuel h st).2) := by
  induction fuel generalizing h st with
  | zero => rfl
  | succ fuel ih =>
    rw [stopLoop_succ]
    simp only [listenLoop]
    rcases iterateFrame env h st with ⟨(a | _ | _ | _), s'⟩ <;> simp only [Exit.map]
    split
    · exact ih a s'
    · rfl

theorem stopLoop_stale (env : Env) (fuel : Nat) (g g' : Header) (st : St) : stopLoop env fuel g' st = stopLoop env fuel g st := by
  induction fuel generalizing g g' st with
  | zero => rfl
  | succ fuel ih =>
    rw [stopLoop_succ, stopLoop_succ, iterateFrame_stale env g g']
    rcases iterateFrame env g st with ⟨(h | _ | _ | _), s'⟩
    · simp only [Exit.map]
      have : (g'.restale h).opcode = h.opcode := rfl
      rw [this, ih h (g'.restale h)]
    all_goals rfl

theorem StopsAt.loop {env : Env} {h st st1} (hs : StopsAt env h st st1) :
    ∀ fuel, st.inp.sched.length < fuel → stopLoop env fuel h st = (.ret true, st1) := by
  induction hs with
  | @stop h st h' st' e h8 hl =>
    intro fuel hf
    cases fuel with
    | zero => omega
    | succ fuel =>
      rw [stopLoop_succ, e]; simp only []; rw [if_neg (by simp [hl])]
      rw [show (h'.opcode != OPCODE_CLOSE) = true from bne_iff_ne.mpr h8]
  | @next h st h' st1 st' e h8 hl _ ih =>
    intro fuel hf
    cases fuel with
    | zero => omega
    | succ fuel =>
      have := iterateFrame_progress env h st e
      rw [stopLoop_succ, e]
      simp only []
      rw [if_pos ⟨h8, hl⟩]
      exact ih fuel (by omega)

theorem stopsAt_of_loop {env : Env} {fuel h st st1} (e : stopLoop env fuel h st = (.ret true, st1)) : StopsAt env h st st1 := by
  induction fuel generalizing h st with
  | zero => cases e
  | succ fuel ih =>
    rw [stopLoop_succ] at e
    rcases hi : iterateFrame env h st with ⟨(h' | _ | _ | _), s'⟩ <;> rw [hi] at e <;> simp only [] at e
    · split at e
      · rename_i hc
        exact .next hi hc.1 hc.2 (ih e)
      · rename_i hc
        injection e with e1 e2
        injection e1 with e1
        subst e2
        have h8 : h'.opcode ≠ OPCODE_CLOSE := bne_iff_ne.mp e1
        exact .stop hi h8 (by cases hl : s'.sock.listening with
          | false => rfl
          | true => exact absurd ⟨h8, hl⟩ hc)
    all_goals cases e

theorem stopLoop_two {env : Env} (ht : env.Tame) (hs : env.SmallSends) (fuel h) :
    Two env (stopLoop env fuel h) (stopLoop env.silent fuel h) := by
  induction fuel generalizing h with
  | zero => exact .plain fun _ _ ha hi => ⟨rfl, ha, hi, rfl, rfl, rfl, rfl⟩
  | succ fuel ih =>
    unfold stopLoop
    exact Two.bind (iterateFrame_two ht hs h) fun h' => Two.getIte (fun st st0 ha => by rw [ha.listening]) (ih h') (.pure _ _)

/-- A session, described with `stopLoop`. -/
theorem Session.cases' {env : Env} {st x st'} (h : Session env st x st') (g : Header) :
    (∃ r, stopLoop env (st.inp.sched.length + 1) g st.on = (r, st') ∧ r ≠ .ret true ∧ x = r.map fun _ => ()) ∨
    (∃ st1, stopLoop env (st.inp.sched.length + 1) g st.on = (.ret true, st1) ∧ Session env st1 x st') := by
  cases h with
  | @last h st x st' e hno =>
    have e' : listenLoop env (st.inp.sched.length + 1) h st.on = (x, st') := e
    rw [stopLoop_listenLoop] at e'
    injection e' with e1 e2
    refine .inl ⟨(stopLoop env (st.inp.sched.length + 1) g st.on).1, ?_, fun hr => ?_, ?_⟩
    · rw [stopLoop_stale env _ h g, ← e2]
    · rw [stopLoop_stale env _ h g] at hr
      exact hno _ (stopsAt_of_loop (Prod.ext hr rfl))
    · rw [stopLoop_stale env _ h g]; exact e1.symm
  | @again h st st1 x st' e hstop hS =>
    refine .inr ⟨st1, ?_, hS⟩
    rw [stopLoop_stale env _ h g]
    exact hstop.loop _ (Nat.lt_succ_self _)

/-- A session of the listener without its sends, and then one with them. -/
theorem session_two {env : Env} (ht : env.Tame) (hs : env.SmallSends) (g : Header) {st0 x0 st0'} (h0 : Session env.silent st0 x0 st0') :
    ∀ st : St, Alike st.sock st0.sock → st.inp = st0.inp →
    ∃ evs, st0'.sock.trace = st0.sock.trace ++ evs ∧ (Healthy (wlen env st.sock (answers env st.sock.trace evs)) st.sock.out.sched →
      ∀ x st', Session env st x st' → x = x0 ∧ Alike st'.sock st0'.sock ∧ st'.inp = st0'.inp ∧
        Ans env st.sock st'.sock (answers env st.sock.trace evs)) := by
  generalize hn : st0.inp.sched.length = n
  induction n using Nat.strongRecOn generalizing st0 with
  | _ n ih =>
    intro st ha hi
    have hT := stopLoop_two ht hs (st0.inp.sched.length + 1) g st.on st0.on
      (by unfold Alike at ha ⊢; show ({ st.sock with listening := true } : Sock) = _; rw [ha]; rfl) hi
    obtain ⟨evs, htr, hh⟩ := hT
    have htr : (stopLoop env.silent (st0.inp.sched.length + 1) g st0.on).2.sock.trace = st0.sock.trace ++ evs := htr
    have hlen : st.inp.sched.length = st0.inp.sched.length := by rw [hi]
    rcases h0.cases' g with ⟨r, e, hr, hx⟩ | ⟨st1, e, hS⟩
    · rw [e] at htr hh
      refine ⟨evs, htr, fun hw x st' hS' => ?_⟩
      obtain ⟨g1, g2, g3, g4⟩ := hh hw
      have g4 : Ans env st.sock (stopLoop env (st0.inp.sched.length + 1) g st.on).2.sock (answers env st.sock.trace evs) :=
        g4.of_out rfl rfl rfl rfl rfl rfl
      rcases hS'.cases' g with ⟨r', e', hr', hx'⟩ | ⟨st1, e', _⟩
      · rw [hlen] at e'
        rw [e'] at g1 g2 g3 g4
        dsimp only at g1 g2 g3 g4
        subst g1
        exact ⟨by rw [hx, hx'], g2, g3, g4⟩
      · rw [hlen] at e'
        rw [e'] at g1
        exact absurd g1.symm hr
    · have hlt : st1.inp.sched.length < n := by
        rw [← hn]; exact (stopsAt_of_loop e).shorter
      rw [e] at htr hh
      by_cases hw : Healthy (wlen env st.sock (answers env st.sock.trace evs)) st.sock.out.sched
      · obtain ⟨g1, g2, g3, g4⟩ := hh hw
        have g4 : Ans env st.sock (stopLoop env (st0.inp.sched.length + 1) g st.on).2.sock (answers env st.sock.trace evs) :=
          g4.of_out rfl rfl rfl rfl rfl rfl
        rcases hr : stopLoop env (st0.inp.sched.length + 1) g st.on with ⟨r, st2⟩
        rw [hr] at g1 g2 g3 g4
        dsimp only at g1 g2 g3 g4
        subst g1
        obtain ⟨evs', ht', hh'⟩ := ih _ hlt hS rfl st2 g2 g3
        have htr2 : st2.sock.trace = st.sock.trace ++ evs := by rw [g2.trace, htr, ha.trace]
        refine ⟨evs ++ evs', by rw [ht', htr, List.append_assoc], fun hW x st' hS' => ?_⟩
        rw [answers_append, ← htr2, wlen_append g4] at hW
        rcases hS'.cases' g with ⟨r', e', hr', hx'⟩ | ⟨st3, e', hS3⟩
        · rw [hlen, hr] at e'
          injection e' with e1 _
          exact absurd e1.symm hr'
        · rw [hlen, hr] at e'
          injection e' with _ e2
          subst e2
          obtain ⟨k1, k2, k3, k4⟩ := hh' (g4.healthy _ hW) x st' hS3
          refine ⟨k1, k2, k3, ?_⟩
          rw [answers_append, ← htr2]
          exact g4.trans k4
      · obtain ⟨evs', ht', _⟩ := ih _ hlt hS rfl st1 rfl rfl
        refine ⟨evs ++ evs', by rw [ht', htr, List.append_assoc], fun hW => absurd (hW.mono ?_) hw⟩
        rw [answers_append]
        exact wlen_le ..

end OatWS
