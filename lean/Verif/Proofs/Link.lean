import Verif.Spec.Link
import Verif.Props.ThreadSends
/-! An endpoint that receives bytes as they come does the same as one for which all of them are there from the beginning. -/

namespace OatWS.Threads
open RFC6455 Async Prog

/-- Steps of one endpoint, while bytes arrive. -/
inductive Fed (env : Env) (p : Pool) : List Entry → List UInt8 → Pool → Prop
  | refl : Fed env p [] [] p
  | own {log fed q i a k r st'} : Fed env p log fed q → q.threads[i]? = some (.act a k) → Ready a q.st = true → exec env a q.st = some (r, st') →
      Fed env p (log ++ [entry i a q.st st']) fed ⟨q.threads.set i (k r), st'⟩
  | feed {log fed q} (bs : List UInt8) : Fed env p log fed q → Fed env p log (fed ++ bs) (q.receive bs)

theorem Linked.fed {envA envB s0 la lb s} (h : Linked envA envB s0 la lb s) :
    Fed envA s0.a la (lb.flatMap Entry.wrote) s.a ∧ Fed envB s0.b lb (la.flatMap Entry.wrote) s.b := by
  induction h with
  | refl => exact ⟨.refl, .refl⟩
  | left _ h1 h2 h3 ih =>
    refine ⟨.own ih.1 h1 h2 h3, ?_⟩
    rw [List.flatMap_append, List.flatMap_singleton]
    exact .feed _ ih.2
  | right _ h1 h2 h3 ih =>
    refine ⟨?_, .own ih.2 h1 h2 h3⟩
    rw [List.flatMap_append, List.flatMap_singleton]
    exact .feed _ ih.1

/-- The same state with other input. -/
def withInp (p : Pool) (bytes : List UInt8) (sched : List IoOutcome) : Pool := ⟨p.threads, { p.st with inp := ⟨bytes, sched⟩ }⟩

/-- A step goes the same way with more bytes in the input, for a suitable behaviour of the transport. -/
theorem exec_more {env : Env} {a : Act} {st st' : St} {r : a.Res} (h : exec env a st = some (r, st')) (hr : Ready a st = true) (more : List UInt8) (tail : List IoOutcome) :
    ∃ used, exec env a { st with inp := ⟨st.inp.bytes ++ more, used ++ tail⟩ } = some (r, { st' with inp := ⟨st'.inp.bytes ++ more, tail⟩ }) ∧
      ∀ o ∈ used, o.fine = false → o ∈ st.inp.sched := by
  have none : ∀ o ∈ ([] : List IoOutcome), o.fine = false → o ∈ st.inp.sched := fun _ h => (by cases h)
  cases a with
  | read n =>
    dsimp only [exec] at h
    split at h
    · cases h
    · rename_i o sched hs
      injection h with h
      injection h with h1 h2
      cases o with
      | upTo m =>
        have hne : st.inp.bytes ≠ [] := by
          unfold Ready at hr
          rw [hs] at hr
          simpa using hr
        have hpos : 0 < st.inp.bytes.length := List.length_pos_iff.mpr hne
        by_cases hn : n = 0
        · subst hn
          refine ⟨[.upTo m], ?_, fun o ho hf => (by rw [List.mem_singleton.mp ho] at hf; cases hf)⟩
          subst h2 h1
          dsimp only [exec, lowRead, List.cons_append, List.nil_append]
          simp
        · have hk : min (m + 1) (min n st.inp.bytes.length) ≠ 0 := by omega
          refine ⟨[.upTo (min (m + 1) (min n st.inp.bytes.length) - 1)], ?_, fun o ho hf => (by rw [List.mem_singleton.mp ho] at hf; cases hf)⟩
          dsimp only [lowRead] at h1 h2
          rw [if_neg hk] at h1 h2
          dsimp only [exec, lowRead, List.cons_append, List.nil_append]
          have e : min (min (m + 1) (min n st.inp.bytes.length) - 1 + 1) (min n (st.inp.bytes ++ more).length) = min (m + 1) (min n st.inp.bytes.length) := by
            rw [List.length_append]
            omega
          rw [e, if_neg hk]
          subst h1 h2
          rw [List.take_append_of_le_length (by omega), List.drop_append_of_le_length (by omega)]
      | retry =>
        refine ⟨[.retry], ?_, fun o ho _ => (by rw [List.mem_singleton.mp ho, hs]; simp)⟩
        subst h1 h2
        rfl
      | zero =>
        refine ⟨[.zero], ?_, fun o ho _ => (by rw [List.mem_singleton.mp ho, hs]; simp)⟩
        subst h1 h2
        rfl
      | broken =>
        refine ⟨[.broken], ?_, fun o ho _ => (by rw [List.mem_singleton.mp ho, hs]; simp)⟩
        subst h1 h2
        rfl
  | write d =>
    refine ⟨[], ?_, none⟩
    dsimp only [exec] at h ⊢
    split at h
    · cases h
    · rename_i o sched hs
      cases o with
      | _ =>
        dsimp only [lowWrite] at h ⊢
        injection h with h
        injection h with h1 h2
        subst h1 h2
        rfl
  | _ =>
    refine ⟨[], ?_, none⟩
    dsimp only [exec] at h ⊢
    injection h with h
    injection h with h1 h2
    subst h1 h2
    rfl

theorem exec_outcomes {env : Env} {a : Act} {st st' : St} {r : a.Res} (h : exec env a st = some (r, st')) : ∀ o ∈ st'.inp.sched, o ∈ st.inp.sched := by
  cases a with
  | read n =>
    dsimp only [exec] at h
    split at h
    · cases h
    · rename_i o sched hs
      injection h with h
      injection h with h1 h2
      subst h2
      intro o' ho
      rw [hs]
      exact List.mem_cons_of_mem _ ho
  | write d =>
    dsimp only [exec] at h
    split at h
    · cases h
    · split at h
      all_goals
        injection h with h
        injection h with h1 h2
        subst h2
        exact fun _ h => h
  | _ =>
    dsimp only [exec] at h
    injection h with h
    injection h with h1 h2
    subst h2
    exact fun _ h => h

theorem Fed.sched {env p log fed q} (h : Fed env p log fed q) : ∀ o ∈ q.st.inp.sched, o ∈ p.st.inp.sched := by
  induction h with
  | refl => exact fun _ h => h
  | own _ _ _ h3 ih => exact fun o ho => ih o (exec_outcomes h3 o ho)
  | feed _ _ ih => exact ih

/-- All bytes there from the beginning, `more` of which is never read. -/
theorem Fed.logged {env p log fed q} (h : Fed env p log fed q) (more : List UInt8) (tail : List IoOutcome) :
    ∃ used, Pool.Logged env (withInp p (p.st.inp.bytes ++ fed ++ more) (used ++ tail)) log (withInp q (q.st.inp.bytes ++ more) tail) ∧
      ∀ o ∈ used, o.fine = false → o ∈ p.st.inp.sched := by
  induction h generalizing more tail with
  | refl => exact ⟨[], by rw [List.append_nil]; exact .refl, fun _ h => (by cases h)⟩
  | @own log fed q i a k r st' hf h1 h2 h3 ih =>
    obtain ⟨u, hu, hu'⟩ := exec_more h3 h2 more tail
    obtain ⟨used, hl, hl'⟩ := ih more (u ++ tail)
    refine ⟨used ++ u, ?_, ?_⟩
    · rw [show (used ++ u) ++ tail = used ++ (u ++ tail) from List.append_assoc ..]
      exact Pool.Logged.tail (i := i) (a := a) (k := k) hl h1 hu
    · intro o ho hfo
      rcases List.mem_append.mp ho with ho | ho
      · exact hl' o ho hfo
      · exact hf.sched o (hu' o ho hfo)
  | @feed log fed q bs _ ih =>
    obtain ⟨used, hl, hl'⟩ := ih (bs ++ more) tail
    refine ⟨used, ?_, hl'⟩
    have e1 : p.st.inp.bytes ++ (fed ++ bs) ++ more = p.st.inp.bytes ++ fed ++ (bs ++ more) := by simp
    have e2 : withInp (q.receive bs) ((q.receive bs).st.inp.bytes ++ more) tail = withInp q (q.st.inp.bytes ++ (bs ++ more)) tail := by
      show withInp q (q.st.inp.bytes ++ bs ++ more) tail = _
      rw [List.append_assoc]
    rw [e1, e2]
    exact hl

theorem Pool.Logged.steps {env p log q} (h : Pool.Logged env p log q) : Pool.Steps env p q := by
  induction h with
  | refl => exact .refl
  | tail _ h1 h2 ih => exact .tail ih (.mk h1 h2)

end OatWS.Threads
