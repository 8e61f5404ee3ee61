import Verif.Proofs.ThreadCatches
/-! Endpoints that do the same, whether user code catches what sends throw or not. -/

namespace OatWS.Network
open Threads

/-- The same threads, but user code catches what sends throw; or the same tasks. -/
inductive Like : Env → Env → Endpoint → Endpoint → Prop
  | threads {env : Env} {p p' : Threads.Pool} : Threads.Healthy False p → p'.st = p.st → p'.threads.length = p.threads.length →
      (∀ (i : Nat) (t : Threads.Prog Unit), p.threads[i]? = some t → ∃ t', p'.threads[i]? = some t' ∧ Same t t') → Like env env.catching (.threads p) (.threads p')
  | tasks {env : Env} {p : Async.Pool} : Like env env (.tasks p) (.tasks p)

variable {env env' : Env} {e e' : Endpoint}

theorem Like.st (h : Like env env' e e') : e'.st = e.st := by
  cases h with
  | threads _ h => exact h
  | tasks => rfl

theorem Like.receive (h : Like env env' e e') (bs : List UInt8) : Like env env' (e.receive bs) (e'.receive bs) := by
  cases h with
  | @threads p p' h1 h2 h3 h4 =>
    refine .threads ⟨h1.out, h1.size, h1.threads⟩ ?_ h3 h4
    show ({ p'.st with inp := ⟨p'.st.inp.bytes ++ bs, p'.st.inp.sched⟩ } : St) = _
    rw [h2]
    rfl
  | tasks => exact .tasks

theorem Like.step (h : Like env env' e e') {x : Async.Entry} {f : Endpoint} (hs : e.Step env x f) : ∃ f', e'.Step env' x f' ∧ Like env env' f f' := by
  cases h with
  | @threads p p' h1 h2 h3 h4 =>
    cases hs with
    | @thread _ i a k r st' g1 g2 g3 =>
      obtain ⟨t', e1, k', rfl, hk⟩ := h4 i _ g1
      obtain ⟨b, -, hw⟩ := h1.threads i _ g1
      have hst := Threads.exec_healthy (S := False) h1.out (Well.step hw).1 h1.size g2 g3
      have hx : Threads.exec env.catching a p'.st = some (r, st') := by rw [h2]; exact g3
      refine ⟨.threads ⟨p'.threads.set i (k' r), st'⟩, ?_, .threads ((Threads.Fed.own .refl g1 g2 g3).healthy h1).1 rfl (by simp [h3]) fun j t ht => ?_⟩
      · have := Endpoint.Step.thread e1 (by rw [h2]; exact g2) hx
        rw [h2] at this
        exact this
      · by_cases hij : i = j
        · subst hij
          have hi : i < p.threads.length := by rw [List.getElem?_eq_some_iff] at g1; exact g1.1
          have ht : (p.threads.set i (k r))[i]? = some t := ht
          rw [List.getElem?_set_self hi] at ht
          injection ht with ht
          subst ht
          exact ⟨k' r, List.getElem?_set_self (by omega), hk r hst.gives⟩
        · have ht : (p.threads.set i (k r))[j]? = some t := ht
          rw [List.getElem?_set_ne hij] at ht
          obtain ⟨t', e2, e3⟩ := h4 j t ht
          exact ⟨t', by show (p'.threads.set i (k' r))[j]? = _; rw [List.getElem?_set_ne hij]; exact e2, e3⟩
  | tasks =>
    cases hs with
    | task g1 g2 g3 g4 g5 => exact ⟨_, .task g1 g2 g3 g4 g5, .tasks⟩

theorem Like.rest (h : Like env env' e e') (hr : e.AtRest env) : e'.AtRest env' := by
  cases h with
  | @threads p p' h1 h2 h3 h4 =>
    intro x f hs
    cases hs with
    | @thread _ i a k r st' g1 g2 g3 =>
      have hi : i < p.threads.length := by rw [List.getElem?_eq_some_iff] at g1; have := g1.1; omega
      obtain ⟨t', e1, e2⟩ := h4 i _ (List.getElem?_eq_getElem hi)
      rw [g1] at e1
      injection e1 with e1
      subst e1
      rcases hp : p.threads[i] with u | u | u | - | ⟨a', k'⟩ <;> rw [hp] at e2
      · cases e2
      · cases e2
      · cases e2
      · cases e2
      · obtain ⟨k1, e3, -⟩ := e2
        injection e3 with e3 e4
        subst e3
        rw [h2] at g2 g3
        exact hr _ _ (.thread (by rw [List.getElem?_eq_getElem hi, hp]) g2 g3)
  | tasks => exact hr

theorem Linked.like {envA envA' envB envB' : Env} {a0 b0 a0' b0' a b : Endpoint} {logA logB : List Async.Entry} (hA : Like envA envA' a0 a0') (hB : Like envB envB' b0 b0') (h : Linked envA envB a0 b0 logA logB a b) :
    ∃ a' b', Linked envA' envB' a0' b0' logA logB a' b' ∧ Like envA envA' a a' ∧ Like envB envB' b b' := by
  induction h with
  | refl => exact ⟨a0', b0', .refl, hA, hB⟩
  | left _ hs ih =>
    obtain ⟨a', b', h1, h2, h3⟩ := ih
    obtain ⟨f', h4, h5⟩ := h2.step hs
    exact ⟨f', _, .left h1 h4, h5, h3.receive _⟩
  | right _ hs ih =>
    obtain ⟨a', b', h1, h2, h3⟩ := ih
    obtain ⟨f', h4, h5⟩ := h3.step hs
    exact ⟨_, f', .right h1 h4, h2.receive _, h5⟩

theorem isAt_back {α : Type} {p q : Threads.Prog α} (h : Same p q) {x : Threads.Out α} (hx : Threads.IsAt q x) : Threads.IsAt p x := by
  cases p with
  | act a k =>
    obtain ⟨k', rfl, -⟩ := h
    cases a <;> exact hx
  | _ => cases h; exact hx

theorem Like.first {p p' : Threads.Pool} (hl : p'.threads.length = p.threads.length) (h : ∀ (i : Nat) (t : Threads.Prog Unit), p.threads[i]? = some t → ∃ t', p'.threads[i]? = some t' ∧ Same t t') {q : Threads.Prog Unit} {x : Threads.Out Unit}
    (hq : p'.threads[0]? = some q) (hx : Threads.IsAt q x) : ∃ q, p.threads[0]? = some q ∧ Threads.IsAt q x := by
  have hi : 0 < p.threads.length := by rw [List.getElem?_eq_some_iff] at hq; have := hq.1; omega
  obtain ⟨t', e1, e2⟩ := h 0 _ (List.getElem?_eq_getElem hi)
  rw [hq] at e1
  injection e1 with e1
  subst e1
  exact ⟨_, List.getElem?_eq_getElem hi, isAt_back e2 hx⟩

theorem Like.waits (h : Like env env' e e') (hw : e'.Waits) : e.Waits := by
  cases h with
  | threads _ _ h3 h4 =>
    obtain ⟨q, h1, h2⟩ := hw
    exact Like.first h3 h4 h1 h2
  | tasks => exact hw

theorem Like.defined (h : Like env env' e e') (hd : e'.Defined) : e.Defined := by
  cases h with
  | @threads p p' _ _ h3 h4 =>
    intro u hu
    obtain ⟨i, hi⟩ := List.getElem?_of_mem hu
    obtain ⟨t', e1, e2⟩ := h4 i _ hi
    cases e2
    exact hd u (List.mem_of_getElem? e1)
  | tasks => exact hd

end OatWS.Network
