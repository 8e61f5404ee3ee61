import Verif.Spec.Resume
import Verif.Proofs.Lockstep
import Verif.Proofs.Loop
/-! # Stopping and resuming loses nothing -/

namespace OatWS

def Sock.on (s : Sock) : Sock := { s with listening := true }

theorem runUserOps_nonstop (env env0 : Env) (ops : List UserOp) (hn : ∀ c b, UserOp.send c b ∉ ops) (s : Sock) :
    runUserOps env0 (ops.filter fun op => !op.isStop) s.on = ((runUserOps env ops s).1, (runUserOps env ops s).2.on) := by
  induction ops generalizing s with
  | nil => rfl
  | cons op ops ih =>
    have ih := ih (fun c b h => hn c b (by simp [h]))
    cases op with
    | send c b => exact (hn c b (by simp)).elim
    | throw => rfl
    | stopListening => exact ih { s with listening := false }
    | setListener l => exact ih { s with listener := l }
    | setConfig c => exact ih { s with config := c }

theorem nonstop_lockstep {env : Env} (hn : env.NoSends) : Lockstep Sock.on env env.nonstop where
  config _ := rfl
  lastOpcode _ := rfl
  setLast _ _ := rfl
  host := rfl
  call := by
    intro mk s
    cases hl : s.listener with
    | none =>
      rw [callListener_none hl, callListener_none (s := s.on) hl]
    | some l =>
      rw [callListener_some hl, callListener_some (s := s.on) hl]
      exact runUserOps_nonstop env env.nonstop _ (hn _) { s with trace := s.trace ++ [mk l] }

theorem iterateFrame_nonstop {env : Env} (hn : env.NoSends) (h : Header) (st : St) :
    iterateFrame env.nonstop h st.on = ((iterateFrame env h st).1, (iterateFrame env h st).2.on) :=
  (nonstop_lockstep hn).iterateFrame h st

/-- Behind a stop the run without stops goes on. -/
theorem StopsAt.nonstop {env : Env} (hn : env.NoSends) {h st st1} (hs : StopsAt env h st st1) (g : Header) :
    ∀ fuel, st.inp.sched.length < fuel → listenLoop env.nonstop fuel h st.on = listenBody env.nonstop g st1 := by
  induction hs with
  | @stop h st h' st' e h8 hl =>
    intro fuel hf
    cases fuel with
    | zero => omega
    | succ fuel =>
      have := iterateFrame_progress env h st e
      unfold listenLoop
      rw [iterateFrame_nonstop hn, e]
      simp only []
      rw [if_pos ⟨h8, rfl⟩, listenLoop_stale env.nonstop fuel g h']
      exact listenLoop_fuel _ _ _ _ _ (show st'.inp.sched.length < fuel by omega) (by exact Nat.lt_succ_self _)
  | @next h st h' st1 st' e h8 hl _ ih =>
    intro fuel hf
    cases fuel with
    | zero => omega
    | succ fuel =>
      have := iterateFrame_progress env h st e
      unfold listenLoop
      rw [iterateFrame_nonstop hn, e]
      simp only []
      rw [if_pos ⟨h8, rfl⟩]
      exact ih fuel (by omega)

/-- Without a stop the two runs are the same. -/
theorem nostop_same {env : Env} (hn : env.NoSends) (fuel : Nat) (h : Header) (st : St) (hs : ∀ st1, ¬ StopsAt env h st st1) :
    listenLoop env.nonstop fuel h st.on = ((listenLoop env fuel h st).1, (listenLoop env fuel h st).2.on) := by
  induction fuel generalizing h st with
  | zero => rfl
  | succ fuel ih =>
    unfold listenLoop
    rw [iterateFrame_nonstop hn]
    rcases hi : iterateFrame env h st with ⟨(h' | e | _ | u), st'⟩ <;> simp only []
    by_cases h8 : h'.opcode = 8
    · rw [if_neg (fun e => e.1 h8), if_neg (fun e => e.1 h8)]
    · cases hl : st'.sock.listening with
      | false => exact absurd (StopsAt.stop hi h8 hl) (hs _)
      | true =>
        rw [if_pos ⟨h8, rfl⟩, if_pos ⟨h8, rfl⟩]
        exact ih h' st' (fun st1 h1 => hs st1 (.next hi h8 hl h1))

theorem StopsAt.ends {env : Env} {h st st1} (hs : StopsAt env h st st1) :
    ∀ fuel, st.inp.sched.length < fuel → listenLoop env fuel h st = (.ret (), st1) := by
  induction hs with
  | @stop h st h' st' e h8 hl =>
    intro fuel hf
    cases fuel with
    | zero => omega
    | succ fuel => unfold listenLoop; rw [e]; simp only []; rw [if_neg (by simp [hl])]
  | @next h st h' st1 st' e h8 hl _ ih =>
    intro fuel hf
    cases fuel with
    | zero => omega
    | succ fuel =>
      have := iterateFrame_progress env h st e
      unfold listenLoop
      rw [e]
      simp only []
      rw [if_pos ⟨h8, hl⟩]
      exact ih fuel (by omega)

theorem StopsAt.shorter {env : Env} {h st st1} (hs : StopsAt env h st st1) : st1.inp.sched.length < st.inp.sched.length := by
  induction hs with
  | stop e _ _ => exact iterateFrame_progress env _ _ e
  | next e _ _ _ ih => have := iterateFrame_progress env _ _ e; omega

end OatWS
