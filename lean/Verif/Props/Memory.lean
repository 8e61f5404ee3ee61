import Verif.Proofs.Buffers
import Verif.Props.AsyncSendsHeard
/-! # C76: receiving takes little memory, whatever the peer announces -/

namespace OatWS.Async
open RFC6455

variable {env : Env} {B : Nat}

/-- Every task of the pool needs little. -/
structure Slim (B : Nat) (p : Pool) : Prop where
  tasks : ∀ o ∈ p.tasks, o.Lean B
  world : Compact B p.world

theorem Sized.slim {p : Pool} (h : Sized env B p) : Slim B p := by
  refine ⟨fun o ho => ?_, ⟨h.config, by rw [h.heap]; exact fun _ hp => absurd hp List.not_mem_nil, by rw [h.trace]; exact fun _ hp => absurd hp List.not_mem_nil⟩⟩
  cases h.starts o ho with
  | listen hd => exact ⟨List.pairwise_singleton _ _, fun c hc => by rw [List.mem_singleton.mp hc]; trivial, Nat.zero_le _⟩
  | send call =>
    refine ⟨List.pairwise_singleton _ _, fun c hc => ?_, Nat.zero_le _⟩
    rw [List.mem_singleton.mp hc]
    cases call <;> trivial
  | user ops => exact ⟨List.pairwise_singleton _ _, fun c hc => by rw [List.mem_singleton.mp hc]; exact h.ops ops ho, Nat.zero_le _⟩

theorem Slim.steps (he : ∀ tr, ∀ op ∈ env.react tr, op.sized B) {p p' : Pool} (h : Slim B p) (hs : Pool.Steps env p p') : Slim B p' := by
  induction hs with
  | refl => exact h
  | tail _ s ih =>
    cases s with
    | @mk ts w i t o w' ht hst hb =>
      have := lean_step env he t w (ih.tasks _ (List.mem_of_getElem? ht)) ih.world
      rw [hst] at this
      refine ⟨fun x hx => ?_, this.2⟩
      rcases List.mem_or_eq_of_mem_set hx with hx | rfl
      · exact ih.tasks x hx
      · exact this.1

theorem buffers_length {cs : List Co} (h : Layered cs) : (cs.filterMap Co.buffer).length ≤ 1 := by
  induction cs with
  | nil => exact Nat.zero_le _
  | cons c cs ih =>
    obtain ⟨h1, h2⟩ := List.pairwise_cons.mp h
    cases hc : c.buffer with
    | none => rw [List.filterMap_cons_none hc]; exact ih h2
    | some b =>
      rw [List.filterMap_cons_some hc]
      have hl : c.level = 4 := by cases c <;> first | rfl | cases hc
      have : cs.filterMap Co.buffer = [] := by
        rw [List.filterMap_eq_nil_iff]
        intro d hd
        have := h1 d hd
        rw [hl] at this
        cases d with
        | readPayload d => exact absurd this (Nat.lt_irrefl 4)
        | _ => rfl
      rw [this]
      exact Nat.le_refl 1

/-- **C76** (per task). At every moment a task has at most six coroutine objects, one receive buffer of at most the configured size, and 125 bytes of a control frame's content,
whatever the peer has sent or announced. -/
theorem C76_tasks (env : Env) (B : Nat) (p p' : Pool) (h : Sized env B p) (hs : Pool.Steps env p p') (t : Task) (ht : .run t ∈ p'.tasks) :
    t.stack.length ≤ 6 ∧ t.buffers.length ≤ 1 ∧ (∀ b ∈ t.buffers, b.2 ≤ B) ∧ t.loc.short.length ≤ 125 := by
  obtain ⟨h1, h2, h3⟩ : t.Lean B := (h.slim.steps h.callbacks hs).tasks _ ht
  refine ⟨layered_length _ 1 h1 fun c _ => (level_pos c).1, buffers_length h1, fun b hb => ?_, h3⟩
  obtain ⟨c, hc, e⟩ := List.mem_filterMap.mp hb
  have := h2 c hc
  cases c with
  | readPayload c => injection e with e; subst e; exact this.1
  | _ => cases e

/-- **C76** (callbacks). No callback is given more than that: at most the configured size of a data frame, at most 125 bytes of a control frame. -/
theorem C76_callbacks (env : Env) (B : Nat) (p p' : Pool) (h : Sized env B p) (hs : Pool.Steps env p p') : ∀ e ∈ p'.world.st.sock.trace, e.Little B :=
  (h.slim.steps h.callbacks hs).world.trace

/-- The buffers that exist are those of the tasks. -/
def Owned (p : Pool) : Prop := Own [] (p.tasks.flatMap Outcome.bufs) p.world

theorem split_at {α : Type} {ts : List α} {i : Nat} {t : α} (h : ts[i]? = some t) : ∃ a b, ts = a ++ t :: b ∧ ∀ o, ts.set i o = a ++ o :: b := by
  induction ts generalizing i with
  | nil => cases h
  | cons x ts ih =>
    cases i with
    | zero => injection h with h; subst h; exact ⟨[], ts, rfl, fun _ => rfl⟩
    | succ i =>
      obtain ⟨a, b, e1, e2⟩ := ih (i := i) h
      exact ⟨x :: a, b, by rw [e1]; rfl, fun o => by rw [List.set_cons_succ, e2]; rfl⟩

theorem Own.perm_of {R own own' R' : List Nat} {w : World} (h : Own R own w) (hp : (own ++ R).Perm (own' ++ R')) : Own R' own' w := ⟨h.perm.trans hp, h.nodup, h.fresh⟩

theorem owned_steps {p p' : Pool} (h : Owned p) (hs : Pool.Steps env p p') (hu : ∀ u, Outcome.ub u ∉ p'.tasks) : Owned p' := by
  induction hs with
  | refl => exact h
  | tail _ s ih =>
    cases s with
    | @mk ts w i t o w' ht hst hb =>
      obtain ⟨a, b, e1, e2⟩ := split_at ht
      have hmem : o ∈ ts.set i o := by rw [e2]; simp
      have hprev : ∀ u, Outcome.ub u ∉ ts := by
        intro u hm
        refine hu u ?_
        rw [e1] at hm
        rw [e2]
        rcases List.mem_append.mp hm with hm | hm
        · exact List.mem_append.mpr (.inl hm)
        · rcases List.mem_cons.mp hm with hm | hm
          · cases hm
          · exact List.mem_append.mpr (.inr (List.mem_cons_of_mem _ hm))
      have hI : Own [] (ts.flatMap Outcome.bufs) w := ih hprev
      have key : ∀ o : Outcome, ((a ++ o :: b).flatMap Outcome.bufs ++ []).Perm (o.bufs ++ (a.flatMap Outcome.bufs ++ b.flatMap Outcome.bufs)) := by
        intro o
        rw [List.append_nil, List.flatMap_append, List.flatMap_cons, ← List.append_assoc, ← List.append_assoc]
        exact List.Perm.append_right _ List.perm_append_comm
      have hI' : Own (a.flatMap Outcome.bufs ++ b.flatMap Outcome.bufs) (bufs t.stack) w := by
        refine hI.perm_of ?_
        rw [e1]
        exact key (.run t)
      have := own_step env t w hI' (by rw [hst]; exact hb) (by rw [hst]; rintro u rfl; exact hu u hmem)
      rw [hst] at this
      show Own [] ((ts.set i o).flatMap Outcome.bufs) w'
      rw [e2]
      exact this.perm_of (key o).symm

theorem bufs_eq (p : Pool) : p.tasks.flatMap Outcome.bufs = p.buffers.map Prod.fst := by
  unfold Pool.buffers Outcome.bufs
  rw [List.map_flatMap]

theorem Sized.owned {p : Pool} (h : Sized env B p) : Owned p := by
  have : p.tasks.flatMap Outcome.bufs = [] := by
    rw [List.flatMap_eq_nil_iff]
    intro o ho
    cases h.starts o ho with
    | listen hd => rfl
    | send call => cases call <;> rfl
    | user ops => rfl
  have hi : p.world.ids = [] := by unfold World.ids; rw [h.heap]; rfl
  exact ⟨by rw [this, hi]; exact .nil, by rw [hi]; exact .nil, by rw [hi]; exact fun _ hi => absurd hi List.not_mem_nil⟩

/-- **C76** (buffers). The receive buffers that exist are exactly those of the tasks, each once; none holds more than the configured size. -/
theorem C76_buffers (env : Env) (B : Nat) (p p' : Pool) (h : Sized env B p) (hs : Pool.Steps env p p') (hu : ∀ u, Outcome.ub u ∉ p'.tasks) :
    (p'.world.heap.map Prod.fst).Perm (p'.buffers.map Prod.fst) ∧ (p'.world.heap.map Prod.fst).Nodup ∧ ∀ b ∈ p'.world.heap, b.2.length ≤ B := by
  have ho := owned_steps h.owned hs hu
  refine ⟨?_, ho.nodup, (h.slim.steps h.callbacks hs).world.heap⟩
  have := ho.perm
  rw [List.append_nil, bufs_eq] at this
  exact this

/-- Whether the task listens. -/
def Outcome.listens : Outcome → Bool
  | .run ⟨[.listen], _⟩ => true
  | _ => false

theorem ok_no_buffers {K : UserCo → Prop} {o : Outcome} (h : o.ok K) : o.buffers = [] := by
  cases o with
  | run t =>
    show t.stack.filterMap Co.buffer = []
    rw [List.filterMap_eq_nil_iff]
    intro c hc
    have := h c hc
    cases c with
    | readPayload c => exact this.elim
    | _ => rfl
  | _ => rfl

theorem quiet_tasks {p p' : Pool} (h : Sized env B p) (hs : Pool.Steps env p p') : p'.tasks.length = p.tasks.length ∧
    ∀ (i : Nat) (o o' : Outcome), p.tasks[i]? = some o → o.listens = false → p'.tasks[i]? = some o' → o'.ok fun _ => True := by
  induction hs with
  | refl =>
    refine ⟨rfl, fun i o o' h1 h2 h3 => ?_⟩
    rw [h1] at h3
    injection h3 with h3
    subst h3
    cases h.starts o (List.mem_of_getElem? h1) with
    | listen hd => cases h2
    | send call =>
      intro c hc
      rw [List.mem_singleton.mp hc]
      cases call <;> trivial
    | user ops =>
      intro c hc
      rw [List.mem_singleton.mp hc]
      trivial
  | tail _ s ih =>
    cases s with
    | @mk ts w i t o w' ht hst hb =>
      refine ⟨by rw [List.length_set]; exact ih.1, fun j o1 o2 h1 h2 h3 => ?_⟩
      have h3 : (ts.set i o)[j]? = some o2 := h3
      by_cases hij : i = j
      · subst hij
        rw [List.getElem?_set_self (List.getElem?_eq_some_iff.mp ht).1] at h3
        injection h3 with h3
        subst h3
        have := (step_ok env (K := fun _ => True) (fun _ _ _ _ _ _ => trivial) (fun _ _ _ => trivial) t (ih.2 i o1 _ h1 h2 ht) w).2
        rw [hst] at this
        exact this
      · rw [List.getElem?_set_ne hij] at h3
        exact ih.2 j o1 o2 h1 h2 h3

theorem flatMap_length_le (ts us : List Outcome) (hlen : us.length = ts.length) (h : ∀ (i : Nat) (o o' : Outcome), ts[i]? = some o → us[i]? = some o' →
    o'.buffers.length ≤ if o.listens then 1 else 0) : (us.flatMap Outcome.buffers).length ≤ (ts.filter Outcome.listens).length := by
  induction ts generalizing us with
  | nil => rw [List.length_eq_zero_iff.mp hlen]; exact Nat.le_refl _
  | cons t ts ih =>
    cases us with
    | nil => cases hlen
    | cons u us =>
      have h0 := h 0 t u rfl rfl
      have := ih us (Nat.succ.inj hlen) fun i o o' h1 h2 => h (i + 1) o o' h1 h2
      rw [List.flatMap_cons, List.length_append]
      cases ht : t.listens with
      | true =>
        rw [ht, if_pos rfl] at h0
        rw [List.filter_cons_of_pos ht, List.length_cons]
        omega
      | false =>
        rw [ht, if_neg (by decide)] at h0
        rw [List.filter_cons_of_neg (by rw [ht]; decide)]
        omega

/-- **C76** (together). There are never more receive buffers than tasks that were started with `listenAsync`: senders and other coroutines need none. -/
theorem C76_total (env : Env) (B : Nat) (p p' : Pool) (h : Sized env B p) (hs : Pool.Steps env p p') (hu : ∀ u, Outcome.ub u ∉ p'.tasks) :
    p'.world.heap.length ≤ (p.tasks.filter Outcome.listens).length := by
  have hl : p'.world.heap.length = p'.buffers.length := by
    have := (C76_buffers env B p p' h hs hu).1.length_eq
    rwa [List.length_map, List.length_map] at this
  obtain ⟨h1, h2⟩ := quiet_tasks h hs
  rw [hl]
  refine flatMap_length_le _ _ h1 fun i o o' e1 e2 => ?_
  cases hb : o.listens with
  | false => rw [ok_no_buffers (h2 i o o' e1 hb e2)]; exact Nat.zero_le _
  | true =>
    rw [if_pos rfl]
    cases o' with
    | run t => exact (C76_tasks env B p p' h hs t (List.mem_of_getElem? e2)).2.1
    | _ => exact Nat.zero_le _

/-- **C76** (nothing is left). When no task runs any more, no receive buffer exists. -/
theorem C76_released (env : Env) (B : Nat) (p p' : Pool) (h : Sized env B p) (hs : Pool.Steps env p p') (hover : ∀ o ∈ p'.tasks, o = .finished ∨ ∃ e, o = .failed e) :
    p'.world.heap = [] := by
  have hu : ∀ u, Outcome.ub u ∉ p'.tasks := by
    intro u hm
    rcases hover _ hm with e | ⟨_, e⟩ <;> cases e
  have := (C76_buffers env B p p' h hs hu).1
  have hb : p'.buffers = [] := by
    unfold Pool.buffers
    rw [List.flatMap_eq_nil_iff]
    intro o ho
    rcases hover o ho with rfl | ⟨_, rfl⟩ <;> rfl
  rw [hb] at this
  have := this.eq_nil
  exact List.map_eq_nil_iff.mp this

/-! ## The hypotheses are met -/

/-- A task that listens and answers, another one that sends (`Verif.Props.AsyncPool`); read buffers of two bytes. -/
theorem exPool_sized : Sized exEnv 2 exPool := by
  refine ⟨fun o ho => ?_, fun ops ho op hop => ?_, fun tr op hop => ?_, by decide, rfl, rfl⟩
  · simp only [exPool, exOthers, List.mem_cons, List.not_mem_nil, or_false] at ho
    rcases ho with rfl | rfl
    · exact .listen _
    · exact .user _
  · simp only [exPool, exOthers, List.mem_cons, List.not_mem_nil, or_false] at ho
    rcases ho with ho | ho
    · cases ho
    · injection ho with ho
      injection ho with ho
      injection ho with ho
      injection ho with ho
      injection ho with ho
      subst ho
      rw [List.mem_singleton] at hop
      subst hop
      intro c hc
      cases hc
  · intro c hc
    subst hc
    revert hop
    unfold exEnv
    dsimp only
    split <;> simp

/-- A peer announces a message of 2^62 bytes and sends one of them. -/
def exHuge : Pool := ⟨[.run (listenTask default)], { st := Fixture.receiving [0x82, 0x7f, 0x40, 0, 0, 0, 0, 0, 0, 0, 0x55] }⟩

theorem exHuge_sized : Sized exEnv 2 exHuge := by
  refine ⟨fun o ho => ?_, fun ops ho op hop => ?_, exPool_sized.callbacks, by decide, rfl, rfl⟩
  · rw [exHuge, List.mem_singleton] at ho; subst ho; exact .listen _
  · rw [exHuge, List.mem_singleton] at ho; cases ho

def exHugeView (p : Option Pool) : Option (List (Nat × List UInt8) × List Event × List (Nat × Nat) × Nat) :=
  p.map fun p => (p.world.heap, p.world.st.sock.trace, p.buffers, p.tasks.length)

theorem exHuge_run : exHugeView (Pool.exec exEnv (List.replicate 28 0) exHuge) = some ([(0, [0x55])], [.readMessage 7 2 [0x55]], [(0, 2)], 1) := by decide +kernel

/-- Two bytes are all the buffer that the announced 2^62 bytes cause. -/
example : ∃ p', Sized exEnv 2 exHuge ∧ Pool.Steps exEnv exHuge p' ∧ p'.buffers = [(0, 2)] ∧ p'.world.heap = [(0, [0x55])] := by
  have h := exHuge_run
  rcases he : Pool.exec exEnv (List.replicate 28 0) exHuge with _ | p'
  · rw [he] at h; cases h
  · rw [he] at h
    injection h with h
    injection h with h1 h2
    injection h2 with h2 h3
    injection h3 with h3 h4
    exact ⟨p', exHuge_sized, Pool.exec_steps he, h3, h1⟩

theorem exHuge_end : exHugeView (Pool.exec exEnv (List.replicate 33 0) exHuge) = some ([], [.readMessage 7 2 [0x55]], [], 1) := by decide +kernel

end OatWS.Async
