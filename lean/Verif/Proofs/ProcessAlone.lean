import Verif.Proofs.ProcessView
/-! # Each socket of a process behaves as if it were alone -/

namespace OatWS.Process
open Threads

theorem nodup_keys {α β : Type} {D : List (α × β)} (h : (D.map Prod.fst).Nodup) {d d' : α × β} (hd : d ∈ D) (hd' : d' ∈ D) (e : d.1 = d'.1) : d = d' := by
  induction D with
  | nil => cases hd
  | cons x D ih =>
    rw [List.map_cons, List.nodup_cons] at h
    rcases List.mem_cons.mp hd with e1 | h1
    · rcases List.mem_cons.mp hd' with e2 | h2
      · rw [e1, e2]
      · exact absurd (List.mem_map.mpr ⟨d', h2, by rw [← e, e1]⟩) h.1
    · rcases List.mem_cons.mp hd' with e2 | h2
      · exact absurd (List.mem_map.mpr ⟨d, h1, by rw [e, e2]⟩) h.1
      · exact ih h.2 h1 h2

/-- The execution, with socket `k` alone; the threads numbered by `f`. -/
structure Alone (env penv : Nat → Env) (may : Nat → UserOp → Prop) (fuel : Nat) (jobs : List Job) (socks : Nat → St) (peers : Nat → Network.Endpoint) (la lb : List (Nat × Async.Entry)) (n : Net)
    (k : Nat) (f : Nat → Nat) (react : List Event → List UserOp) (views views' : List (Prog Unit)) : Prop where
  callbacks : ∀ tr, ∀ op ∈ react tr, OrThrows (may k) op
  length : views.length = jobs.length
  seen : ∀ (i : Nat) J, jobs[i]? = some J → ∃ q, views[f i]? = some q ∧ J.SeenAs (OrThrows (may k)) (withReact (env k) react) fuel k q
  tracks : ∀ (i : Nat) g, n.threads[i]? = some g → ∃ q, views'[f i]? = some q ∧ Tracks k g q
  linked : Network.Linked (withReact (env k) react) (penv k) (.threads ⟨views, socks k⟩) (peers k) (renumber f (of k la)) (of k lb) (.threads ⟨views', n.socks k⟩) (n.peers k)

theorem Net.Runs.alone {env penv : Nat → Env} {may : Nat → UserOp → Prop} {fuel : Nat} {jobs : List Job} {socks : Nat → St} {peers : Nat → Network.Endpoint} {la lb n}
    (h : Net.Runs env penv may ⟨jobs.map (Job.code env fuel), socks, peers⟩ la lb n) (k : Nat) (f : Nat → Nat) (hff : ∀ i, f (f i) = i) (hlt : ∀ i, i < jobs.length → f i < jobs.length) :
    ∃ react views views', Alone env penv may fuel jobs socks peers la lb n k f react views views' := by
  obtain ⟨paths, hs⟩ := h.seen
  have hjob : ∀ i, ∃ D : List (List Event × List UserOp), (D.map Prod.fst).Sublist (tracesOf (loc k (paths i))) ∧ (∀ d ∈ D, ∀ op ∈ d.2, OrThrows (may k) op) ∧
      ∀ J, jobs[i]? = some J → ∀ react : List Event → List UserOp, (∀ d ∈ D, react d.1 = d.2) → ∃ x : Prog Unit × Prog Unit,
        J.SeenAs (OrThrows (may k)) (withReact (env k) react) fuel k x.1 ∧ Path x.1 (loc k (paths i)) x.2 ∧ ∀ g, n.threads[i]? = some g → Tracks k g x.2 := by
    intro i
    cases hJ : jobs[i]? with
    | none => exact ⟨[], List.nil_sublist _, nofun, nofun⟩
    | some J =>
      obtain ⟨g, h1, h2⟩ := hs.run i (J.code env fuel) (by rw [List.getElem?_map, hJ]; rfl)
      obtain ⟨D, h3, h4, h5⟩ := job_resolve env may fuel k J h2 (hs.allowed i)
      refine ⟨D, h3, h4, fun J' e react hD => ?_⟩
      injection e with e
      subst e
      obtain ⟨q0, q, h6, h7, h8⟩ := h5 react hD
      refine ⟨(q0, q), h6, h7, fun g' e => ?_⟩
      rw [h1] at e
      injection e with e
      subst e
      exact h8
  obtain ⟨D, hD⟩ := Classical.skolem.mp hjob
  have huniq : ∀ i j d d', d ∈ D i → d' ∈ D j → d.1 = d'.1 → d = d' := by
    intro i j d d' hd hd' e
    by_cases hij : i = j
    · subst hij
      exact nodup_keys ((hD i).1.nodup ((hs.distinct k).nodup i)) hd hd' e
    · have h1 := (hD i).1.subset (List.mem_map.mpr ⟨d, hd, rfl⟩)
      have h2 := (hD j).1.subset (List.mem_map.mpr ⟨d', hd', rfl⟩)
      rw [← e] at h2
      exact absurd h2 ((hs.distinct k).disjoint i j hij _ h1)
  have hreact : ∀ tr, ∃ ops : List UserOp, (∀ op ∈ ops, OrThrows (may k) op) ∧ ∀ i, ∀ d ∈ D i, d.1 = tr → ops = d.2 := by
    intro tr
    by_cases hx : ∃ i d, d ∈ D i ∧ d.1 = tr
    · obtain ⟨i, d, h1, h2⟩ := hx
      refine ⟨d.2, (hD i).2.1 d h1, fun j d' h3 h4 => ?_⟩
      rw [huniq i j d d' h1 h3 (h2.trans h4.symm)]
    · exact ⟨[], nofun, fun i d h1 h2 => absurd ⟨i, d, h1, h2⟩ hx⟩
  obtain ⟨react, hr⟩ := Classical.skolem.mp hreact
  have hview : ∀ i, ∃ x : Prog Unit × Prog Unit, ∀ J, jobs[i]? = some J →
      J.SeenAs (OrThrows (may k)) (withReact (env k) react) fuel k x.1 ∧ Path x.1 (loc k (paths i)) x.2 ∧ ∀ g, n.threads[i]? = some g → Tracks k g x.2 := by
    intro i
    cases hJ : jobs[i]? with
    | none => exact ⟨(.stuck, .stuck), nofun⟩
    | some J =>
      obtain ⟨x, hx⟩ := (hD i).2.2 J hJ react fun d hd => (hr d.1).2 i d hd rfl
      refine ⟨x, fun J' e => ?_⟩
      injection e with e
      subst e
      exact hx
  obtain ⟨Q, hQ⟩ := Classical.skolem.mp hview
  have hget : ∀ i J, jobs[i]? = some J → ((List.range jobs.length).map fun m => (Q (f m)).1)[f i]? = some (Q i).1 := by
    intro i J hi
    have := hlt i (List.getElem?_eq_some_iff.mp hi).1
    rw [List.getElem?_map, List.getElem?_range this, Option.map_some, hff]
  have hinit : ∀ (i : Nat) g0, (jobs.map (Job.code env fuel))[i]? = some g0 → ∃ J, jobs[i]? = some J := by
    intro i g0 hi
    rw [List.getElem?_map] at hi
    cases hJ : jobs[i]? with
    | none => rw [hJ] at hi; cases hi
    | some J => exact ⟨J, rfl⟩
  obtain ⟨v', h1, h2, h3⟩ := hs.view k react f ((List.range jobs.length).map fun m => (Q (f m)).1)
    (fun i j e => by have := congrArg f e; rwa [hff, hff] at this) fun i g0 hi => by
      obtain ⟨J, hJ⟩ := hinit i g0 hi
      exact ⟨_, _, hget i J hJ, (hQ i J hJ).2.1⟩
  refine ⟨react, _, v', fun tr => (hr tr).1, by simp, fun i J hJ => ⟨_, hget i J hJ, (hQ i J hJ).1⟩, fun i g hg => ?_, h3⟩
  have hlti : i < jobs.length := by
    have := (List.getElem?_eq_some_iff.mp hg).1
    rw [hs.length] at this
    simpa using this
  have hJ := List.getElem?_eq_getElem hlti
  exact ⟨_, h2 i _ (by rw [List.getElem?_map, hJ]; rfl) _ _ (hget i _ hJ) (hQ i _ hJ).2.1, (hQ i _ hJ).2.2 g hg⟩

/-- The two numbers exchanged. -/
def swap (i j m : Nat) : Nat := if m = i then j else if m = j then i else m

theorem swap_swap (i j m : Nat) : swap i j (swap i j m) = m := by
  unfold swap
  grind

theorem swap_lt {i j n : Nat} (hi : i < n) (hj : j < n) (m : Nat) (hm : m < n) : swap i j m < n := by
  unfold swap
  grind

theorem swap_left (i j : Nat) : swap i j i = j := if_pos rfl

theorem renumber_id (log : List Async.Entry) : renumber id log = log := List.map_id _

end OatWS.Process
