import Verif.Proofs.ThreadReacts
import Verif.Proofs.AsyncProcessStep
/-! Only what listeners do in the callbacks that are made matters: two endpoints. -/

namespace OatWS.Async
open Process (withReact)
open AsyncProcess (isOut isIn out_step in_step)

variable {env : Env} {f : List Event → List UserOp}

/-- A step depends on the listeners only through the callback it makes, if any. -/
theorem step_reacting (t : Task) (w : World) : step (env.reacting f) t w = step env t w ∨
    ∃ t1 t2 w', step env t w = (.run t1, w') ∧ step (env.reacting f) t w = (.run t2, w') ∧ w'.st.sock.trace ≠ [] ∧ (f w'.st.sock.trace = env.react w'.st.sock.trace → t2 = t1) := by
  obtain ⟨stack, loc⟩ := t
  cases stack with
  | nil => exact .inl rfl
  | cons c rest =>
    have user : ∀ u, c = .user u → step (env.reacting f) ⟨c :: rest, loc⟩ w = step env ⟨c :: rest, loc⟩ w := by
      rintro u rfl
      rfl
    by_cases ho : isOut c = true
    · obtain ⟨a, w', h1, -⟩ := out_step env c ho w
      have e1 : coStep (env.reacting f) c loc w = coStep env c loc w := (h1 f loc).trans (h1 env.react loc).symm
      left
      unfold step
      dsimp only
      rw [e1]
    · by_cases hi : isIn c = true
      · cases in_step env c hi loc w with
        | plain a l' w' h1 =>
          have e1 : coStep (env.reacting f) c loc w = coStep env c loc w := (h1 f).trans (h1 env.react).symm
          left
          unfold step
          dsimp only
          rw [e1]
        | told ev u c' l' w' h1 _ _ h2 =>
          right
          have e1 : coStep (env.reacting f) c loc w = _ := h1 f
          have e2 : coStep env c loc w = _ := h1 env.react
          refine ⟨_, _, w', by unfold step; dsimp only; rw [e2], by unfold step; dsimp only; rw [e1], (by rw [h2]; simp), fun h => ?_⟩
          rw [h2] at h
          rw [h]
      · left
        cases c with
        | user u => exact user u rfl
        | _ => first | exact absurd rfl ho | exact absurd rfl hi

theorem entry_reacting (i : Nat) (t : Task) (w w' : World) (bs : List UInt8) : entryOf (env.reacting f) i t w w' bs = entryOf env i t w w' bs := rfl

end OatWS.Async

namespace OatWS.Network
open Threads

/-- The same threads, with other listeners; or the same tasks. -/
inductive Obeys (env : Env) (f : List Event → List UserOp) : Endpoint → Endpoint → Prop
  | threads {p p' : Threads.Pool} : p'.st = p.st → p'.threads.length = p.threads.length →
      (∀ (i : Nat) (t : Threads.Prog Unit), p.threads[i]? = some t → ∃ t', p'.threads[i]? = some t' ∧ Threads.Follows (fun tr => f tr = env.react tr) t t') → Obeys env f (.threads p) (.threads p')
  | tasks {p : Async.Pool} : Obeys env f (.tasks p) (.tasks p)

variable {env : Env} {f : List Event → List UserOp} {e e' : Endpoint}

theorem Obeys.st (h : Obeys env f e e') : e'.st = e.st := by
  cases h with
  | threads h => exact h
  | tasks => rfl

theorem Obeys.receive (h : Obeys env f e e') (bs : List UInt8) : Obeys env f (e.receive bs) (e'.receive bs) := by
  cases h with
  | @threads p p' h2 h3 h4 =>
    refine .threads ?_ h3 h4
    show ({ p'.st with inp := ⟨p'.st.inp.bytes ++ bs, p'.st.inp.sched⟩ } : St) = _
    rw [h2]
    rfl
  | tasks => exact .tasks

theorem within_of {P : List Event → Prop} {a : Threads.Act} {st st' : St} {r : a.Res} (h : exec env a st = some (r, st')) (hp : st'.sock.trace ≠ [] → P st'.sock.trace) : Threads.Within P a r := by
  cases a with
  | callback e =>
    injection h with h
    injection h with h1 h2
    subst h1 h2
    exact hp (by simp)
  | _ => trivial

theorem Obeys.step (h : Obeys env f e e') {x : Async.Entry} {g : Endpoint} (hs : e.Step env x g) (hp : g.st.sock.trace ≠ [] → f g.st.sock.trace = env.react g.st.sock.trace) : ∃ g', e'.Step (env.reacting f) x g' ∧ Obeys env f g g' := by
  cases h with
  | @threads p p' h2 h3 h4 =>
    cases hs with
    | @thread _ i a k r st' g1 g2 g3 =>
      obtain ⟨t', e1, k', rfl, hk⟩ := h4 i _ g1
      have hx : Threads.exec (env.reacting f) a p'.st = some (r, st') := by rw [h2]; exact g3
      refine ⟨.threads ⟨p'.threads.set i (k' r), st'⟩, ?_, .threads rfl (by simp [h3]) fun j t ht => ?_⟩
      · have := Endpoint.Step.thread e1 (by rw [h2]; exact g2) hx
        rw [h2] at this
        exact this
      · by_cases hij : i = j
        · subst hij
          have hi : i < p.threads.length := by rw [List.getElem?_eq_some_iff] at g1; exact g1.1
          have ht : (p.threads.set i (k r))[i]? = some t := ht
          rw [List.getElem?_set_self hi] at ht
          injection ht with ht
          subst ht
          exact ⟨k' r, List.getElem?_set_self (by omega), hk r (within_of (P := fun tr => f tr = env.react tr) g3 hp)⟩
        · have ht : (p.threads.set i (k r))[j]? = some t := ht
          rw [List.getElem?_set_ne hij] at ht
          obtain ⟨t', e2, e3⟩ := h4 j t ht
          exact ⟨t', by show (p'.threads.set i (k' r))[j]? = _; rw [List.getElem?_set_ne hij]; exact e2, e3⟩
  | @tasks p =>
    cases hs with
    | @task _ i t o w' bs g1 g2 g3 g4 g5 =>
      have hx : Async.step (env.reacting f) t p.world = (o, w') := by
        rcases Async.step_reacting (env := env) (f := f) t p.world with h | ⟨t1, t2, w1, k1, k2, kn, k3⟩
        · rw [h]; exact g3
        · rw [g3] at k1
          injection k1 with k0 k1
          subst k0 k1
          rw [k2, k3 (hp kn)]
      exact ⟨_, .task g1 g2 hx g4 g5, .tasks⟩

theorem Obeys.rest (h : Obeys env f e e') (hr : e.AtRest env) : e'.AtRest (env.reacting f) := by
  cases h with
  | @threads p p' h2 h3 h4 =>
    intro x g hs
    cases hs with
    | @thread _ i a k r st' g1 g2 g3 =>
      have hi : i < p.threads.length := by rw [List.getElem?_eq_some_iff] at g1; have := g1.1; omega
      obtain ⟨t', e1, e2⟩ := h4 i _ (List.getElem?_eq_getElem hi)
      rw [g1] at e1
      injection e1 with e1
      subst e1
      rcases hp : p.threads[i] with u | u | u | - | ⟨a', k'⟩ <;> rw [hp] at e2
      · cases e2
      · cases e2
      · cases e2
      · cases e2
      · obtain ⟨k1, e3, -⟩ := e2
        injection e3 with e3 e4
        subst e3
        rw [h2] at g2 g3
        exact hr _ _ (.thread (by rw [List.getElem?_eq_getElem hi, hp]) g2 g3)
  | @tasks p =>
    intro x g hs
    cases hs with
    | @task _ i t o w' bs g1 g2 g3 g4 g5 =>
      rcases Async.step_reacting (env := env) (f := f) t p.world with h | ⟨t1, t2, w1, k1, k2, -⟩
      · rw [h] at g3
        exact hr _ _ (.task g1 g2 g3 g4 g5)
      · rw [g3] at k2
        injection k2 with k0 k2
        subst k2
        exact hr _ _ (.task g1 g2 k1 (fun h => by cases h) g5)

/-- Callbacks are not taken back. -/
theorem Endpoint.Step.grows {x : Async.Entry} {g : Endpoint} (h : e.Step env x g) : e.st.sock.trace <+: g.st.sock.trace := by
  cases h with
  | @thread p i a k r st' g1 g2 g3 =>
    show p.st.sock.trace <+: st'.sock.trace
    cases a with
    | callback ev =>
      injection g3 with g3
      injection g3 with g3 g4
      subst g4
      exact List.prefix_append ..
    | read n =>
      unfold exec at g3
      dsimp only at g3
      split at g3
      · cases g3
      · injection g3 with g3
        injection g3 with g3 g4
        subst g4
        exact List.prefix_refl _
    | write d =>
      unfold exec at g3
      dsimp only at g3
      split at g3
      · cases g3
      · split at g3 <;> (injection g3 with g3; injection g3 with g3 g4; subst g4; exact List.prefix_refl _)
    | _ =>
      injection g3 with g3
      injection g3 with g3 g4
      subst g4
      exact List.prefix_refl _
  | task g1 g2 g3 g4 g5 => exact Async.step_grows g3

/-- If `f` agrees with the listeners in all the callbacks that are made, nothing changes. -/
theorem Linked.obeys {envA envB : Env} {f : List Event → List UserOp} {a0 b0 b0' a b : Endpoint} {logA logB : List Async.Entry} (hB : Obeys envB f b0 b0') (h : Linked envA envB a0 b0 logA logB a b)
    (hp : ∀ tr, tr <+: b.st.sock.trace → tr ≠ [] → f tr = envB.react tr) : ∃ b', Linked envA (envB.reacting f) a0 b0' logA logB a b' ∧ Obeys envB f b b' := by
  induction h with
  | refl => exact ⟨b0', .refl, hB⟩
  | @left la lb a b e a' _ hs ih =>
    have hst : ∀ (e : Endpoint) (bs : List UInt8), (e.receive bs).st.sock.trace = e.st.sock.trace := by
      intro e bs
      cases e <;> rfl
    obtain ⟨b', h1, h2⟩ := ih fun tr ht => hp tr (by rw [hst]; exact ht)
    exact ⟨_, .left h1 hs, h2.receive _⟩
  | right _ hs ih =>
    obtain ⟨b', h1, h2⟩ := ih fun tr ht => hp tr (ht.trans hs.grows)
    obtain ⟨g', h3, h4⟩ := h2.step hs (hp _ (List.prefix_refl _))
    exact ⟨g', .right h1 h3, h4⟩

theorem follows_back {P : List Event → Prop} {α : Type} {p q : Threads.Prog α} (h : Threads.Follows P p q) {x : Threads.Out α} (hx : Threads.IsAt q x) : Threads.IsAt p x := by
  cases p with
  | act a k =>
    obtain ⟨k', rfl, -⟩ := h
    cases a <;> exact hx
  | _ => cases h; exact hx

theorem Obeys.first {P : List Event → Prop} {p p' : Threads.Pool} (hl : p'.threads.length = p.threads.length) (h : ∀ (i : Nat) (t : Threads.Prog Unit), p.threads[i]? = some t → ∃ t', p'.threads[i]? = some t' ∧ Threads.Follows P t t')
    {q : Threads.Prog Unit} {x : Threads.Out Unit} (hq : p'.threads[0]? = some q) (hx : Threads.IsAt q x) : ∃ q, p.threads[0]? = some q ∧ Threads.IsAt q x := by
  have hi : 0 < p.threads.length := by rw [List.getElem?_eq_some_iff] at hq; have := hq.1; omega
  obtain ⟨t', e1, e2⟩ := h 0 _ (List.getElem?_eq_getElem hi)
  rw [hq] at e1
  injection e1 with e1
  subst e1
  exact ⟨_, List.getElem?_eq_getElem hi, follows_back e2 hx⟩

theorem Obeys.waits (h : Obeys env f e e') (hw : e'.Waits) : e.Waits := by
  cases h with
  | threads _ h3 h4 =>
    obtain ⟨q, h1, h2⟩ := hw
    exact Obeys.first h3 h4 h1 h2
  | tasks => exact hw

theorem Obeys.defined (h : Obeys env f e e') (hd : e'.Defined) : e.Defined := by
  cases h with
  | @threads p p' _ h3 h4 =>
    intro u hu
    obtain ⟨i, hi⟩ := List.getElem?_of_mem hu
    obtain ⟨t', e1, e2⟩ := h4 i _ hi
    cases e2
    exact hd u (List.mem_of_getElem? e1)
  | tasks => exact hd

end OatWS.Network
