import Verif.Proofs.ProcessView
import Verif.Proofs.ThreadAnswers
import Verif.Props.NetworkLive
/-! In the code of a process, a send on a socket is made without using other sockets or reading; and threads read only from the socket on which they listen. -/

namespace OatWS.Process
open Threads Code

variable {α β : Type} {R : Nat → Prop}

/-- `s`: the socket on which a send is in progress. `R`: the sockets from which the code may read. -/
def Orderly (R : Nat → Prop) {α : Type} : Option Nat → Code α → Prop
  | s, .ret _ => s = none
  | s, .throw _ => s = none
  | _, .ub _ _ => True
  | _, .stuck _ => True
  | s, .choose c => s = none ∧ ∀ cs, Orderly R none (c cs)
  | s, .act k (.call _) c => s = none ∧ ∀ r, Orderly R (some k) (c r)
  | s, .act k (.read _) c => s = none ∧ R k ∧ ∀ r, Orderly R none (c r)
  | s, .act k (.returned _) c => (∀ j, s = some j → j = k) ∧ ∀ r, Orderly R none (c r)
  | s, .act k a c => (∀ j, s = some j → j = k) ∧ ∀ r : a.Res, Orderly R s (c r)

theorem Orderly.andThen {s : Option Nat} {p : Code α} {f : α → Code β} (h : Orderly R s p) (hf : ∀ a, Orderly R none (f a)) : Orderly R s (p.andThen f) := by
  induction p generalizing s with
  | ret a => cases h; exact hf a
  | throw e => exact h
  | ub k u => trivial
  | stuck k => trivial
  | choose c ih => exact ⟨h.1, fun cs => ih cs (h.2 cs)⟩
  | act k a c ih =>
    cases a with
    | call x => exact ⟨h.1, fun r => ih r (h.2 r)⟩
    | read n => exact ⟨h.1, h.2.1, fun r => ih r (h.2.2 r)⟩
    | _ => exact ⟨h.1, fun r => ih r (h.2 r)⟩

theorem Orderly.catching {s : Option Nat} {p : Code α} {f : Err → Code α} (h : Orderly R s p) (hf : ∀ e, Orderly R none (f e)) : Orderly R s (p.catching f) := by
  induction p generalizing s with
  | ret a => exact h
  | throw e => cases h; exact hf e
  | ub k u => trivial
  | stuck k => trivial
  | choose c ih => exact ⟨h.1, fun cs => ih cs (h.2 cs)⟩
  | act k a c ih =>
    cases a with
    | call x => exact ⟨h.1, fun r => ih r (h.2 r)⟩
    | read n => exact ⟨h.1, h.2.1, fun r => ih r (h.2.2 r)⟩
    | _ => exact ⟨h.1, fun r => ih r (h.2 r)⟩

theorem orderly_userSend (env : Env) (fuel k : Nat) (x : SendCall) (catches : Bool) : Orderly R none (on k (userSendT env fuel x catches)) := by
  refine ⟨rfl, fun _ => ?_⟩
  have := silent_send env fuel x
  show Orderly R (some k) (on k (Prog.andThen (Prog.catching (Prog.andThen (sendT env fuel x) _) _) _))
  generalize sendT env fuel x = q at this
  have hk : ∀ j, some k = some j → j = k := fun j h => by injection h with h; exact h.symm
  induction q with
  | ret a => exact ⟨hk, fun _ => rfl⟩
  | throw e =>
    refine ⟨hk, fun _ => ?_⟩
    show Orderly R none (on k (if catches = true then Prog.ret () else Prog.throw e))
    split <;> rfl
  | ub u => trivial
  | stuck => trivial
  | act a c ih =>
    cases a with
    | call x => exact this.elim
    | callback e => exact this.elim
    | returned b => exact this.elim
    | read n => exact this.elim
    | _ => exact ⟨hk, fun r => ih r (this r)⟩

theorem orderly_userOp (env : Env) (fuel k : Nat) (op : UserOp) : Orderly R none (on k (userOpT env fuel op)) := by
  cases op with
  | send c b => exact orderly_userSend env fuel k c b
  | throw => rfl
  | _ => exact ⟨fun _ h => (by cases h), fun _ => rfl⟩

theorem orderly_ops (env : Nat → Env) (fuel : Nat) (cs : List (Nat × UserOp)) : Orderly R none (opsM env fuel cs) := by
  induction cs with
  | nil => rfl
  | cons x cs ih => exact (orderly_userOp _ _ _ _).andThen fun _ => ih

theorem orderly_user (env : Nat → Env) (fuel : Nat) : Orderly R none (userM env fuel) := ⟨rfl, orderly_ops env fuel⟩

theorem orderly_weave {env : Env} (hm : env.react = fun _ => []) {k : Nat} (hk : R k) {user : Code Unit} (hu : Orderly R none user) {q : Prog α} {K E} (h : Owes env q [] K E) :
    Orderly R none (weave k user q) := by
  have hn : ∀ j, (none : Option Nat) = some j → j = k := fun _ h => (by cases h)
  induction q with
  | ret a => rfl
  | throw e => rfl
  | ub u => trivial
  | stuck => trivial
  | act a c ih =>
    cases a with
    | call x => obtain ⟨_, h, _⟩ := h; cases h
    | callback e =>
      refine ⟨hn, fun tr => hu.andThen fun _ => ih tr ?_⟩
      have := h.2 tr
      rw [hm] at this
      exact this
    | read n => exact ⟨rfl, hk, fun r => ih r (h.2 r)⟩
    | _ => exact ⟨hn, fun r => ih r (h r)⟩

theorem orderly_listen (env : Nat → Env) (fuel k : Nat) (h : Header) (hk : R k) : Orderly R none (listenM env fuel k h) := by
  refine Orderly.catching (orderly_weave (env := mute (env k)) rfl hk (orderly_user env fuel) (K := fun _ p => p = []) (E := fun p => (mute (env k)).Calm → p = []) ?_) fun _ => rfl
  exact fun _ => clean_listenLoop fuel fuel h

theorem orderly_job (env : Nat → Env) (fuel : Nat) (J : Job) : Orderly (fun k => J.socket = some k) none (J.code env fuel) := by
  cases J with
  | app => exact orderly_user env fuel
  | listens k h => exact orderly_listen env fuel k h rfl
  | session k h => exact (orderly_user env fuel).andThen fun _ => (orderly_listen (R := fun j => (Job.session k h).socket = some j) env fuel k h rfl).andThen fun _ => orderly_user env fuel

open Async in
theorem sending_snoc {j : Nat} {log : List Entry} {e : Entry} (h : Sending j (log ++ [e])) :
    (e.task = j ∧ e.called.isSome = true) ∨ (Sending j log ∧ (e.task = j → e.completed = false ∧ e.failed = false)) := by
  obtain ⟨s, ss, h, hs⟩ := h
  unfold sendsOf at h
  rw [List.filter_append, List.foldl_append] at h
  by_cases ht : e.task = j
  · have hf : [e].filter (fun e => e.task == j) = [e] := by simp [ht]
    rw [hf, List.foldl_cons, List.foldl_nil] at h
    cases hc : e.called with
    | some c => exact .inl ⟨ht, rfl⟩
    | none =>
      right
      unfold feed at h
      rw [hc] at h
      dsimp only at h
      split at h
      · cases h
      · rename_i s0 ss0 h0
        injection h with h1 h2
        subst h1
        dsimp only at hs
        split at hs
        · cases hs
        · rename_i h3
          split at hs
          · cases hs
          · rename_i h4
            exact ⟨⟨s0, ss0, h0, hs⟩, fun _ => ⟨by simpa using h3, by simpa using h4⟩⟩
  · have hf : [e].filter (fun e => e.task == j) = [] := by simp [ht]
    rw [hf] at h
    exact .inr ⟨⟨s, ss, h, hs⟩, fun h => absurd h ht⟩

open Async Network

/-- Where the threads are: on which socket a send is in progress. -/
theorem Net.Runs.orderly {env penv : Nat → Env} {may : Nat → UserOp → Prop} {fuel : Nat} {jobs : List Job} {socks : Nat → St} {peers : Nat → Endpoint} {la lb : List (Nat × Entry)} {n : Net}
    (h : Net.Runs env penv may ⟨jobs.map (Job.code env fuel), socks, peers⟩ la lb n) :
    n.threads.length = jobs.length ∧ (∀ (i : Nat) (J : Job) (g : Code Unit), jobs[i]? = some J → n.threads[i]? = some g →
      ∃ s, Orderly (fun k => J.socket = some k) s g ∧ ∀ k, Sending i (of k la) → s = some k) ∧ ∀ x ∈ la, x.2.task < jobs.length := by
  induction h with
  | refl =>
    refine ⟨by simp, fun i J g hJ hg => ?_, fun x hx => absurd hx List.not_mem_nil⟩
    have hg : (jobs.map (Job.code env fuel))[i]? = some g := hg
    rw [List.getElem?_map, hJ] at hg
    injection hg with hg
    subst hg
    refine ⟨none, orderly_job env fuel J, fun k hk => ?_⟩
    obtain ⟨s, ss, h, _⟩ := hk
    cases h
  | peer _ _ ih => exact ih
  | @chooses la lb n i c cs _ h1 h2 ih =>
    obtain ⟨i1, i2, i3⟩ := ih
    refine ⟨by simpa using i1, fun j J g hJ hg => ?_, i3⟩
    have hg : (n.threads.set i (c cs))[j]? = some g := hg
    by_cases hj : j = i
    · subst hj
      obtain ⟨s, hs, hk⟩ := i2 _ J _ hJ h1
      rw [List.getElem?_set_self (List.getElem?_eq_some_iff.mp h1).1] at hg
      injection hg with hg
      subst hg
      obtain ⟨rfl, hs⟩ := hs
      exact ⟨none, hs cs, hk⟩
    · rw [List.getElem?_set_ne (Ne.symm hj)] at hg
      exact i2 _ J _ hJ hg
  | @own la lb n i k a c r st' _ h1 h2 h3 ih =>
    obtain ⟨i1, i2, i3⟩ := ih
    have hil : i < jobs.length := i1 ▸ (List.getElem?_eq_some_iff.mp h1).1
    refine ⟨by simpa using i1, fun j J g hJ hg => ?_, fun x hx => ?_⟩
    · have hg : (n.threads.set i (c r))[j]? = some g := hg
      by_cases hj : j = i
      · subst hj
        obtain ⟨s, hs, hk⟩ := i2 _ J _ hJ h1
        rw [List.getElem?_set_self (List.getElem?_eq_some_iff.mp h1).1] at hg
        injection hg with hg
        subst hg
        have other : ∀ k', k' ≠ k → Sending j (of k' (la ++ [(k, entry j a (n.socks k) st')])) → s = some k' := by
          intro k' hne hsd
          rw [of_snoc_other _ _ hne] at hsd
          exact hk k' hsd
        have same : Sending j (of k (la ++ [(k, entry j a (n.socks k) st')])) → a.called.isSome = true ∨ (s = some k ∧ a ≠ .returned true ∧ a ≠ .returned false) := by
          intro hsd
          rw [of_snoc_same] at hsd
          rcases sending_snoc hsd with ⟨_, h⟩ | ⟨h, h'⟩
          · exact .inl h
          · refine .inr ⟨hk k h, ?_⟩
            obtain ⟨x, y⟩ := h' rfl
            exact ⟨of_decide_eq_false x, of_decide_eq_false y⟩
        cases a with
        | call x =>
          obtain ⟨rfl, hs⟩ := hs
          refine ⟨some k, hs r, fun k' hsd => ?_⟩
          by_cases hne : k' = k
          · rw [hne]
          · cases other k' hne hsd
        | read m =>
          obtain ⟨rfl, _, hs⟩ := hs
          refine ⟨none, hs r, fun k' hsd => ?_⟩
          by_cases hne : k' = k
          · subst hne
            rcases same hsd with h | h
            · cases h
            · exact h.1
          · exact other k' hne hsd
        | returned b =>
          refine ⟨none, hs.2 r, fun k' hsd => ?_⟩
          by_cases hne : k' = k
          · subst hne
            rcases same hsd with h | ⟨_, h1, h2⟩
            · cases h
            · cases b
              · exact absurd rfl h2
              · exact absurd rfl h1
          · exact absurd (hs.1 _ (other k' hne hsd)) hne
        | _ =>
          refine ⟨s, hs.2 r, fun k' hsd => ?_⟩
          by_cases hne : k' = k
          · subst hne
            rcases same hsd with h | h
            · cases h
            · exact h.1
          · exact other k' hne hsd
      · rw [List.getElem?_set_ne (Ne.symm hj)] at hg
        obtain ⟨s, hs, hk⟩ := i2 _ J _ hJ hg
        refine ⟨s, hs, fun k' hsd => hk k' ?_⟩
        by_cases hne : k' = k
        · subst hne
          rw [of_snoc_same] at hsd
          rcases sending_snoc hsd with ⟨h, _⟩ | ⟨h, _⟩
          · exact absurd h.symm hj
          · exact h
        · rw [of_snoc_other _ _ hne] at hsd
          exact hsd
    · rcases List.mem_append.mp hx with hx | hx
      · exact i3 x hx
      · rw [List.mem_singleton.mp hx]
        exact hil

end OatWS.Process
