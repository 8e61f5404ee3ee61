import Verif.Proofs.Pointers
import Verif.Props.Memory
/-! # C32: the data pointers, with any number of tasks that receive

As `Verif.Props.AsyncPointer`, but several tasks may listen at the same time, each with its own buffers, in the same memory. -/

namespace OatWS.Async
open RFC6455

variable {env : Env}

/-- No two tasks share buffers, all callbacks found their data, all pointers are as they should be. -/
structure Pointed (p : Pool) : Prop where
  owned : Owned p
  calls : ∀ c ∈ p.world.calls, c.good
  at_ : ∀ o ∈ p.tasks, o.PAt p.world

theorem starts_bufs {p : Pool} (h : ∀ o ∈ p.tasks, o.Starts env) : p.tasks.flatMap Outcome.bufs = [] := by
  rw [List.flatMap_eq_nil_iff]
  intro o ho
  cases h o ho with
  | listen hd => rfl
  | send call => cases call <;> rfl
  | user ops => rfl

theorem Pointed.start {p : Pool} (h : ∀ o ∈ p.tasks, o.Starts env) (hheap : p.world.heap = []) (hcalls : p.world.calls = []) : Pointed p := by
  have hi : p.world.ids = [] := by unfold World.ids; rw [hheap]; rfl
  refine ⟨⟨by rw [starts_bufs h, hi]; exact .nil, by rw [hi]; exact .nil, by rw [hi]; exact fun _ hi => absurd hi List.not_mem_nil⟩,
    by rw [hcalls]; exact fun _ hc => absurd hc List.not_mem_nil, fun o ho t e => ?_⟩
  cases h o ho with
  | listen hd => injection e with e; subst e; exact .listen
  | send call =>
    injection e with e; subst e
    refine .plain fun c hc => ?_
    rw [List.mem_singleton.mp hc]
    cases call <;> trivial
  | user ops =>
    injection e with e; subst e
    refine .plain fun c hc => ?_
    rw [List.mem_singleton.mp hc]
    rfl

theorem Pointed.steps {p p' : Pool} (h : Pointed p) (hs : Pool.Steps env p p') (hu : ∀ u, Outcome.ub u ∉ p'.tasks) : Pointed p' := by
  have hown := owned_steps h.owned hs hu
  induction hs with
  | refl => exact h
  | tail hs s ih =>
    cases s with
    | @mk ts w i t o w' ht hst hb =>
      obtain ⟨a, b, e1, e2⟩ := split_at ht
      have hprev : ∀ u, Outcome.ub u ∉ ts := by
        intro u hm
        refine hu u ?_
        rw [e1] at hm
        rw [e2]
        rcases List.mem_append.mp hm with hm | hm
        · exact List.mem_append.mpr (.inl hm)
        · rcases List.mem_cons.mp hm with hm | hm
          · cases hm
          · exact List.mem_append.mpr (.inr (List.mem_cons_of_mem _ hm))
      have hO := owned_steps h.owned hs hprev
      obtain ⟨-, hcalls, hat⟩ := ih hprev hO
      have hO : Own [] (ts.flatMap Outcome.bufs) w := hO
      have hOt : Own (a.flatMap Outcome.bufs ++ b.flatMap Outcome.bufs) (bufs t.stack) w := by
        refine hO.perm_of ?_
        rw [e1, List.append_nil, List.flatMap_append, List.flatMap_cons, ← List.append_assoc, ← List.append_assoc]
        exact List.Perm.append_right _ List.perm_append_comm
      obtain ⟨⟨cs, h1, h2⟩, h3⟩ := ptr_step (env := env) hOt (hat _ (List.mem_of_getElem? ht) t rfl)
      have hsp := spares_step env t w
      rw [hst] at h1 h3 hsp
      refine ⟨hown, fun c hc => ?_, fun x hx t' e => ?_⟩
      · have hc : c ∈ w'.calls := hc
        rw [h1] at hc
        rcases List.mem_append.mp hc with hc | hc
        · exact hcalls c hc
        · exact h2 c hc
      · have hx : x ∈ ts.set i o := hx
        have hrest : ∀ y ∈ a ++ b, y.PAt w' := by
          intro y hy t' e
          have hmem : y ∈ ts := by
            rw [e1]
            rcases List.mem_append.mp hy with hy | hy
            · exact List.mem_append.mpr (.inl hy)
            · exact List.mem_append.mpr (.inr (List.mem_cons_of_mem _ hy))
          refine (hat y hmem t' e).others hsp (fun j hj => hOt.perm.mem_iff.mpr (List.mem_append.mpr (.inl hj))) fun j hj => ?_
          have hjr : j ∈ a.flatMap Outcome.bufs ++ b.flatMap Outcome.bufs := by
            rw [← List.flatMap_append]
            exact List.mem_flatMap.mpr ⟨y, hy, by rw [e]; exact hj⟩
          have hji : j ∈ w.ids := hOt.perm.mem_iff.mpr (List.mem_append.mpr (.inr hjr))
          refine ⟨hji, hOt.fresh j hji, fun hm => ?_⟩
          exact (List.nodup_append.mp (hOt.perm.nodup_iff.mp hOt.nodup)).2.2 j hm j hjr rfl
        rw [e2] at hx
        rcases List.mem_append.mp hx with hx | hx
        · exact hrest x (List.mem_append.mpr (.inl hx)) t' e
        · rcases List.mem_cons.mp hx with hx | hx
          · subst hx; exact h3 t' e
          · exact hrest x (List.mem_append.mpr (.inr hx)) t' e

/-- **C32** (in the call, any tasks). Whatever tasks there are and however they interleave: during every callback the pointer refers to a buffer that contains exactly the data; only
callbacks without data have no pointer. -/
theorem C32_any_tasks_in_call (env : Env) (p p' : Pool) (hp : ∀ o ∈ p.tasks, o.Starts env) (hheap : p.world.heap = []) (hcalls : p.world.calls = [])
    (hs : Pool.Steps env p p') (hu : ∀ u, Outcome.ub u ∉ p'.tasks) :
    ∀ c ∈ p'.world.calls, (c.event.data = [] ∧ c.ptr = none) ∨ (c.ptr ≠ none ∧ c.found = some c.event.data) :=
  ((Pointed.start hp hheap hcalls).steps hs hu).calls

/-- **C32** (in the coroutine, any tasks). As long as the coroutine returned by a callback has not finished, its pointer refers to the data if the frame was not masked, and to no buffer
at all if it was, whatever the other tasks do meanwhile. -/
theorem C32_any_tasks_in_coroutine (env : Env) (p p' : Pool) (hp : ∀ o ∈ p.tasks, o.Starts env) (hheap : p.world.heap = []) (hcalls : p.world.calls = [])
    (hs : Pool.Steps env p p') (hu : ∀ u, Outcome.ub u ∉ p'.tasks) (t : Task) (ht : .run t ∈ p'.tasks) (u : UserCo) (hm : .user u ∈ t.stack)
    (hptr : u.ptr ≠ none) : pointsTo p'.world u = if t.loc.hdr.hasMask then none else some u.data := by
  have := ((Pointed.start hp hheap hcalls).steps hs hu).at_ _ ht t rfl
  obtain ⟨id, hid⟩ := Option.ne_none_iff_exists'.mp hptr
  have hpt : pointsTo p'.world u = p'.world.look id := by unfold pointsTo; rw [hid]; rfl
  rw [hpt]
  revert this hm
  generalize t.stack = s
  intro hm this
  have hno : ∀ ss : List Co, (∀ c ∈ ss, c.ok NoPtr) → Co.user u ∉ ss := fun ss h hm => hptr (h _ hm)
  cases this with
  | listen => simp at hm
  | head => simp at hm
  | act => simp at hm
  | payload h1 h5 h6 h7 =>
    rcases List.mem_append.mp hm with hm | hm
    · rcases (h7 _ hm : PtrAt _ _ _ u) with h | ⟨id', e, h⟩
      · exact absurd h hptr
      · rw [hid] at e; injection e with e; subst e
        revert h
        split
        · exact fun h => h.2
        · exact fun h => h.2
    · simp at hm
  | handle h1 h3 =>
    rcases List.mem_append.mp hm with hm | hm
    · exact absurd hm (hno _ h3)
    · simp at hm
  | plain h => exact absurd hm (hno _ h)

/-! ## The hypotheses are met -/

/-- Two tasks listen on the same socket. -/
def exTwoBuffers : Pool := ⟨[.run (listenTask default), .run (listenTask default)],
  { st := { Fixture.receiving [0x81, 0x01, 0x61, 0x81, 0x81, 0x01, 0x02, 0x03, 0x04, 0x60] with inp := ⟨[0x81, 0x01, 0x61, 0x81, 0x81, 0x01, 0x02, 0x03, 0x04, 0x60], List.replicate 8 (.upTo 9)⟩ } }⟩

/-- The first task up to its callback, then the second one. -/
def exTwoTurns : List Nat := List.replicate 8 0 ++ List.replicate 9 1

theorem exTwo_calls : (Pool.exec Fixture.env exTwoTurns exTwoBuffers).map (fun p => (p.world.heap, p.world.calls)) = some ([(1, [0x60]), (0, [0x61])],
    [⟨.readMessage 7 1 [0x61], some 0, some [0x61]⟩, ⟨.readMessage 7 1 [0x61], some 2, some [0x61]⟩]) := by decide +kernel

set_option synthInstance.maxSize 1000 in
theorem exTwo_seen : (Pool.exec Fixture.env exTwoTurns exTwoBuffers).map (fun p => p.tasks.map fun o => seen (o, p.world)) =
    some [[(some 0, some [0x61], false)], [(some 2, none, true)]] := by decide +kernel

theorem exTwo_starts : ∀ o ∈ exTwoBuffers.tasks, o.Starts Fixture.env := by
  intro o ho
  rcases List.mem_cons.mp ho with rfl | ho
  · exact .listen _
  · rw [List.mem_singleton.mp ho]; exact .listen _

/-- Two tasks have received: the first an unmasked frame, the second a masked one; both callbacks found their data and both coroutines run, one with a pointer to its data, one with
a pointer to nothing. -/
example : ∃ p', Pool.Steps Fixture.env exTwoBuffers p' ∧ (∀ o ∈ exTwoBuffers.tasks, o.Starts Fixture.env) ∧ exTwoBuffers.world.heap = [] ∧ exTwoBuffers.world.calls = [] ∧
    (p'.tasks.map fun o => seen (o, p'.world)) = [[(some 0, some [0x61], false)], [(some 2, none, true)]] ∧ ∀ c ∈ p'.world.calls, c.found = some [0x61] := by
  have h := exTwo_calls
  have h3 := exTwo_seen
  rcases he : Pool.exec Fixture.env exTwoTurns exTwoBuffers with _ | p'
  · rw [he] at h; cases h
  · rw [he] at h h3
    injection h with h
    injection h3 with h3
    injection h with h1 h2
    refine ⟨p', Pool.exec_steps he, exTwo_starts, rfl, rfl, h3, fun c hc => ?_⟩
    rw [h2] at hc
    simp only [List.mem_cons, List.not_mem_nil, or_false] at hc
    rcases hc with rfl | rfl <;> rfl

end OatWS.Async
