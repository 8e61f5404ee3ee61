import Verif.Spec.Async
import Verif.Proofs.HandleFrame
/-! Simulation of the blocking functions by coroutine steps: vocabulary and the exact-size loops. -/

namespace OatWS.Async

/-- A task or its end, continued to the end `o`. -/
def From (env : Env) (p : Outcome × World) (o : Outcome) (w' : World) : Prop :=
  match p with
  | (.run t, w) => Runs env t w o w'
  | (o1, w) => o = o1 ∧ w' = w

theorem runs_iff {env t w o w'} : Runs env t w o w' ↔ From env (step env t w) o w' := by
  constructor
  · intro h
    cases h with
    | last h1 h2 =>
      rw [h1]
      cases o with
      | run t => exact absurd rfl (h2 t)
      | _ => exact ⟨rfl, rfl⟩
    | next h1 h2 => rw [h1]; exact h2
  · intro h
    rcases hs : step env t w with ⟨o1, w1⟩
    rw [hs] at h
    cases o1 with
    | run t1 => exact .next hs h
    | _ => obtain ⟨rfl, rfl⟩ := h; exact .last hs nofun

/-- `p` goes on to `q`. -/
def Leads (env : Env) (p q : Outcome × World) : Prop := ∀ o w', From env q o w' → From env p o w'

theorem Leads.refl {env p} : Leads env p p := fun _ _ h => h
theorem Leads.trans {env p q r} (h1 : Leads env p q) (h2 : Leads env q r) : Leads env p r := fun o w h => h1 o w (h2 o w h)
theorem Leads.step {env t w} : Leads env (.run t, w) (step env t w) := fun _ _ h => runs_iff.mpr h

theorem Leads.of_step {env t w q} (h : Async.step env t w = q) : Leads env (.run t, w) q := h ▸ Leads.step

/-- What `step` makes of the action of the top coroutine `c`. -/
def after (c : Co) (rest : List Co) : Act × Local × World → Outcome × World
  | (.goto c', l, w') => (.run ⟨c' :: rest, l⟩, w')
  | (.call cs c', l, w') => (.run ⟨cs ++ c' :: rest, l⟩, w')
  | (.finish, l, w') =>
    match rest with
    | [] => (.finished, destroy c w')
    | _ :: _ => (.run ⟨rest, l⟩, destroy c w')
  | (.error e, l, w') => unwind e rest l (destroy c w')
  | (.blocked, _, w') => (.blocked, w')
  | (.ub u, _, w') => (.ub u, w')

theorem step_cons (env : Env) (c : Co) (rest : List Co) (l : Local) (w : World) :
    step env ⟨c :: rest, l⟩ w = after c rest (coStep env c l w) := by
  unfold step after
  simp only []
  rcases coStep env c l w with ⟨(_ | _ | _ | _ | _ | _), l', w'⟩ <;> rfl

theorem leads_finish (env : Env) (c : Co) (rest : List Co) (l : Local) (w : World) :
    Leads env (after c rest (.finish, l, w)) (.run ⟨rest, l⟩, destroy c w) := by
  intro o w' h
  cases rest with
  | nil => exact runs_iff.mp h
  | cons => exact h

theorem leads_co {env c rest l w q} (h : Leads env (after c rest (coStep env c l w)) q) :
    Leads env (.run ⟨c :: rest, l⟩, w) q :=
  (Leads.of_step (step_cons env c rest l w)).trans h

/-- No coroutine on the stack handles errors. -/
def NoCatch (rest : List Co) : Prop := ∀ u, Co.user u ∈ rest → u.catching = false

theorem NoCatch.nil : NoCatch [] := nofun
theorem NoCatch.cons {c rest} (h : NoCatch rest) (hc : ∀ u, c = .user u → u.catching = false) : NoCatch (c :: rest) := by
  intro u hu
  rcases List.mem_cons.mp hu with rfl | hu
  · exact hc u rfl
  · exact h u hu

theorem destroy_st (c : Co) (w : World) : (destroy c w).st = w.st := by cases c <;> rfl

theorem unwind_noCatch (e : AErr) (rest : List Co) (l : Local) (w : World) (h : NoCatch rest) :
    ∃ w', unwind e rest l w = (.failed e, w') ∧ w'.st = w.st := by
  induction rest generalizing w with
  | nil => exact ⟨w, rfl, rfl⟩
  | cons c rest ih =>
    have hr : NoCatch rest := fun u hu => h u (by simp [hu])
    obtain ⟨w', e1, e2⟩ := ih (destroy c w) hr
    refine ⟨w', ?_, by rw [e2, destroy_st]⟩
    cases c with
    | user u =>
      rw [unwind, h u (by simp)]
      exact e1
    | _ => rw [unwind]; exact e1; nofun

/-- The run from `p` mirrors the result of a blocking function: if that returned, `K` holds of the result. -/
def Mirrors {α} (env : Env) (p : Outcome × World) (r : Exit α × St) (K : α → St → Prop) : Prop :=
  match r with
  | (.ret a, st) => K a st
  | (.throw e, st) => ∃ ae w', From env p (.failed ae) w' ∧ SameSt w'.st st ∧ ErrMatch e ae
  | (.block, st) => ∃ w', From env p .blocked w' ∧ w'.st = st
  | (.ub u, st) => ∃ w', From env p (.ub u) w' ∧ w'.st = st

theorem Mirrors.bind {α β} {env p} {m : P St α} {f : α → P St β} {st K} {J : α → St → Prop}
    (h : Mirrors env p (m st) J) (h' : ∀ a st', J a st' → Mirrors env p (f a st') K) :
    Mirrors env p ((P.bind m f) st) K := by
  rw [P.bind_apply]
  rcases hm : m st with ⟨(a | _ | _ | _), st'⟩ <;> rw [hm] at h
  · exact h' a st' h
  all_goals exact h

theorem Mirrors.leads {α} {env p q} {r : Exit α × St} {K} (hl : Leads env p q) (h : Mirrors env q r K) : Mirrors env p r K := by
  rcases r with ⟨(a | e | _ | u), st⟩
  · exact h
  · obtain ⟨ae, w', h1, h2⟩ := h; exact ⟨ae, w', hl _ _ h1, h2⟩
  · obtain ⟨w', h1, h2⟩ := h; exact ⟨w', hl _ _ h1, h2⟩
  · obtain ⟨w', h1, h2⟩ := h; exact ⟨w', hl _ _ h1, h2⟩

theorem Mirrors.mono {α} {env p} {r : Exit α × St} {K J : α → St → Prop} (h : Mirrors env p r K) (hK : ∀ a st, K a st → J a st) :
    Mirrors env p r J := by
  rcases r with ⟨(a | e | _ | u), st⟩
  · exact hK _ _ h
  all_goals exact h

theorem SameSt.refl (a : St) : SameSt a a := rfl

/-- Failing at the top coroutine. -/
theorem mirrors_error {α} {env c rest l w e ae} {K : α → St → Prop} (hr : NoCatch rest) (hm : ErrMatch e ae) :
    Mirrors env (after c rest (.error ae, l, w)) (.throw e, w.st) K := by
  obtain ⟨w', h1, h2⟩ := unwind_noCatch ae rest l (destroy c w) hr
  refine ⟨ae, w', ?_, ?_, hm⟩
  · simp only [after, h1]; exact ⟨rfl, rfl⟩
  · rw [destroy_st] at h2; rw [h2]; rfl

theorem liftSock_bind {α β} (m : P Sock α) (f : α → P Sock β) :
    liftSock (P.bind m f) = P.bind (liftSock m) (fun a => liftSock (f a)) := by
  funext st
  rw [P.bind_apply]
  unfold liftSock
  rw [P.bind_apply]
  rcases m st.sock with ⟨(_ | _ | _ | _), s'⟩ <;> rfl

/-! ## The exact-size loops -/

theorem setOut_setOut (w : World) (o o' : OutStream) : (w.setOut o).setOut o' = w.setOut o' := rfl
theorem setInp_setInp (w : World) (o o' : InStream) : (w.setInp o).setInp o' = w.setInp o' := rfl

/-- The write loop. -/
theorem write_loop (env : Env) (mk : List UInt8 → Co) (rest : List Co) (l : Local) (cont : Act)
    (hstep : ∀ left w, coStep env (mk left) l w = writeStep left l w mk cont) (hd : ∀ g w, destroy (mk g) w = w)
    (sched : List IoOutcome) : ∀ (left : List UInt8) (w : World) (n : Nat), w.st.sock.out.sched = sched →
    match writeExact sched w.st.sock.out.written left n with
    | (.wrote k, out) => ∃ g, Leads env (.run ⟨mk left :: rest, l⟩, w) (after (mk g) rest
        (if k = n + left.length then cont else .error .io, l, w.setOut out))
    | (.blocked, out) => ∃ w', From env (.run ⟨mk left :: rest, l⟩, w) .blocked w' ∧ w' = w.setOut out := by
  induction sched with
  | nil =>
    intro left w n hs
    cases left with
    | nil =>
      simp only [writeExact]
      refine ⟨[], ?_⟩
      refine leads_co ?_
      rw [hstep]
      have : w.setOut ⟨w.st.sock.out.written, []⟩ = w := by
        have : (⟨w.st.sock.out.written, []⟩ : OutStream) = w.st.sock.out := by rw [← hs]
        rw [this]; rfl
      simp only [writeStep, writeInline, this, List.length_nil, Nat.add_zero, if_pos]
      exact Leads.refl
    | cons b bs =>
      simp only [writeExact]
      refine ⟨_, leads_co Leads.refl _ _ ?_, rfl⟩
      have : w.st.sock.out = ⟨w.st.sock.out.written, []⟩ := by rw [← hs]
      rw [hstep]
      simp only [writeStep, writeInline, hs, after]
      exact ⟨rfl, by rw [← this]⟩
  | cons o sched ih =>
    intro left w n hs
    cases left with
    | nil =>
      simp only [writeExact]
      refine ⟨[], ?_⟩
      refine leads_co ?_
      rw [hstep]
      have : w.setOut ⟨w.st.sock.out.written, o :: sched⟩ = w := by
        have : (⟨w.st.sock.out.written, o :: sched⟩ : OutStream) = w.st.sock.out := by rw [← hs]
        rw [this]; rfl
      simp only [writeStep, writeInline, this, List.length_nil, Nat.add_zero, if_pos]
      exact Leads.refl
    | cons b bs =>
      cases o with
      | upTo m =>
        simp only [writeExact]
        by_cases hk : (b :: bs).drop (min (m + 1) (b :: bs).length) = []
        · rw [hk]
          have hlen : min (m + 1) (b :: bs).length = (b :: bs).length := by
            have := List.drop_eq_nil_iff.mp hk
            omega
          rw [hlen] at hk
          rw [hlen]
          have he : ∀ sc wr k, writeExact sc wr [] k = (.wrote k, ⟨wr, sc⟩) := by
            intro sc wr k; cases sc <;> rfl
          rw [he]
          refine ⟨b :: bs, leads_co ?_⟩
          rw [hstep]
          simp only [writeStep, writeInline, hs, hlen, hk, if_pos]
          exact Leads.refl
        · have := ih ((b :: bs).drop (min (m + 1) (b :: bs).length))
            (w.setOut ⟨w.st.sock.out.written ++ (b :: bs).take (min (m + 1) (b :: bs).length), sched⟩)
            (n + min (m + 1) (b :: bs).length) rfl
          have hl : Leads env (.run ⟨mk (b :: bs) :: rest, l⟩, w) (.run ⟨mk ((b :: bs).drop (min (m + 1) (b :: bs).length)) :: rest, l⟩,
              (w.setOut ⟨w.st.sock.out.written ++ (b :: bs).take (min (m + 1) (b :: bs).length), sched⟩)) := by
            refine leads_co ?_
            rw [hstep]
            simp only [writeStep, writeInline, hs, hk, if_neg, after]
            exact Leads.refl
          have hn : n + min (m + 1) (b :: bs).length + ((b :: bs).drop (min (m + 1) (b :: bs).length)).length
              = n + (b :: bs).length := by rw [List.length_drop]; omega
          rw [hn] at this
          revert this
          simp only [World.setOut, World.setSock]
          rcases writeExact sched _ _ _ with ⟨(k | _), out⟩
          · rintro ⟨g, hg⟩; exact ⟨g, hl.trans hg⟩
          · rintro ⟨w', h1, h2⟩; exact ⟨w', hl _ _ h1, h2⟩
      | retry =>
        simp only [writeExact]
        have := ih (b :: bs) (w.setOut ⟨w.st.sock.out.written, sched⟩) n rfl
        have hl : Leads env (.run ⟨mk (b :: bs) :: rest, l⟩, w) (.run ⟨mk (b :: bs) :: rest, l⟩,
            (w.setOut ⟨w.st.sock.out.written, sched⟩)) := by
          refine leads_co ?_
          rw [hstep]
          simp only [writeStep, writeInline, hs, after]
          exact Leads.refl
        revert this
        simp only [World.setOut, World.setSock]
        rcases writeExact sched _ _ _ with ⟨(k | _), out⟩
        · rintro ⟨g, hg⟩; exact ⟨g, hl.trans hg⟩
        · rintro ⟨w', h1, h2⟩; exact ⟨w', hl _ _ h1, h2⟩
      | zero =>
        simp only [writeExact]
        refine ⟨b :: bs, leads_co ?_⟩
        rw [hstep]
        simp only [writeStep, writeInline, hs]
        rw [if_neg (by simp)]
        exact Leads.refl
      | broken =>
        simp only [writeExact]
        refine ⟨b :: bs, leads_co ?_⟩
        rw [hstep]
        simp only [writeStep, writeInline, hs]
        rw [if_neg (by simp)]
        exact Leads.refl

theorem lowRead_data_length {o bytes n bs bytes'} (h : lowRead o bytes n = (.data bs, bytes')) : bs.length ≤ n := by
  unfold lowRead at h
  cases o <;> simp only [] at h
  · split at h
    · cases h
    · injection h with h1 h2
      injection h1 with h1
      rw [← h1, List.length_take]
      omega
  all_goals cases h

/-- The read loop. -/
theorem read_loop (env : Env) (need : Nat) (mk : List UInt8 → Co) (rest : List Co) (l : Local)
    (cont : List UInt8 → World → Act × Local × World)
    (hstep : ∀ got w, coStep env (mk got) l w = readStep need got l w mk cont)
    (sched : List IoOutcome) : ∀ (bytes got : List UInt8) (w : World), w.st.inp = ⟨bytes, sched⟩ → got.length < need →
    match readExact sched bytes (need - got.length) got with
    | (.got bs, inp) => if bs.length = need
        then ∃ g, Leads env (.run ⟨mk got :: rest, l⟩, w) (after (mk g) rest (cont bs (w.setInp inp)))
        else ∃ g, Leads env (.run ⟨mk got :: rest, l⟩, w) (after (mk g) rest (.error .io, l, w.setInp inp))
    | (.blocked, inp) => ∃ w', From env (.run ⟨mk got :: rest, l⟩, w) .blocked w' ∧ w' = w.setInp inp := by
  induction sched with
  | nil =>
    intro bytes got w hw hg
    obtain ⟨k, hk⟩ : ∃ k, need - got.length = k + 1 := ⟨need - got.length - 1, by omega⟩
    rw [hk]
    simp only [readExact]
    refine ⟨_, leads_co Leads.refl _ _ ?_, rfl⟩
    rw [hstep]
    simp only [readStep, readInline, hw, after]
    rw [if_neg (by omega)]
    exact ⟨rfl, rfl⟩
  | cons o sched ih =>
    intro bytes got w hw hg
    obtain ⟨k, hk⟩ : ∃ k, need - got.length = k + 1 := ⟨need - got.length - 1, by omega⟩
    rw [hk]
    simp only [readExact]
    have hin : ∀ x, readInline need got w.st.inp = x → readStep need got l w mk cont = match x with
        | (.again g, i) => (.goto (mk g), l, w.setInp i)
        | (.done g, i) => cont g (w.setInp i)
        | (.failed, i) => (.error .io, l, w.setInp i)
        | (.blocked, i) => (.blocked, l, w.setInp i) := by
      intro x hx; unfold readStep; rw [hx]; rfl
    have hri : readInline need got w.st.inp = match lowRead o bytes (k + 1) with
        | (.data bs, bytes) => if need ≤ (got ++ bs).length then (.done (got ++ bs), ⟨bytes, sched⟩) else (.again (got ++ bs), ⟨bytes, sched⟩)
        | (.retry, bytes) => (.again got, ⟨bytes, sched⟩)
        | (.zero, bytes) => (.failed, ⟨bytes, sched⟩)
        | (.broken, bytes) => (.failed, ⟨bytes, sched⟩) := by
      unfold readInline
      rw [if_neg (by omega), hw, ← hk]
      rfl
    rcases hlr : lowRead o bytes (k + 1) with ⟨(bs | _ | _ | _), bytes'⟩ <;> rw [hlr] at hri
    · simp only [] at hri ⊢
      have hlen := lowRead_data_length hlr
      by_cases hfull : need ≤ (got ++ bs).length
      · rw [if_pos hfull] at hri
        have hz : k + 1 - bs.length = 0 := by rw [List.length_append] at hfull; omega
        rw [hz]
        simp only [readExact]
        rw [if_pos (by rw [List.length_append] at hfull ⊢; omega)]
        refine ⟨got, leads_co ?_⟩
        rw [hstep, hin _ hri]
        exact Leads.refl
      · rw [if_neg hfull] at hri
        have := ih bytes' (got ++ bs) (w.setInp ⟨bytes', sched⟩) rfl (by omega)
        rw [show need - (got ++ bs).length = k + 1 - bs.length by rw [List.length_append]; omega] at this
        have hl : Leads env (.run ⟨mk got :: rest, l⟩, w) (.run ⟨mk (got ++ bs) :: rest, l⟩, w.setInp ⟨bytes', sched⟩) := by
          refine leads_co ?_
          rw [hstep, hin _ hri]
          exact Leads.refl
        revert this
        rcases readExact sched bytes' _ _ with ⟨(x | _), inp⟩ <;> simp only []
        · split
          · rintro ⟨g, hg⟩; exact ⟨g, hl.trans hg⟩
          · rintro ⟨g, hg⟩; exact ⟨g, hl.trans hg⟩
        · rintro ⟨w', h1, h2⟩; exact ⟨w', hl _ _ h1, h2⟩
    · simp only [] at hri ⊢
      have := ih bytes' got (w.setInp ⟨bytes', sched⟩) rfl hg
      rw [hk] at this
      have hl : Leads env (.run ⟨mk got :: rest, l⟩, w) (.run ⟨mk got :: rest, l⟩, w.setInp ⟨bytes', sched⟩) := by
        refine leads_co ?_
        rw [hstep, hin _ hri]
        exact Leads.refl
      revert this
      rcases readExact sched bytes' _ _ with ⟨(x | _), inp⟩ <;> simp only []
      · split
        · rintro ⟨g, hg⟩; exact ⟨g, hl.trans hg⟩
        · rintro ⟨g, hg⟩; exact ⟨g, hl.trans hg⟩
      · rintro ⟨w', h1, h2⟩; exact ⟨w', hl _ _ h1, h2⟩
    all_goals
      simp only [] at hri ⊢
      rw [if_neg (by omega)]
      refine ⟨got, leads_co ?_⟩
      rw [hstep, hin _ hri]
      exact Leads.refl

end OatWS.Async
