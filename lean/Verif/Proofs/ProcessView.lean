import Verif.Proofs.ProcessJobs
/-! # Executions of a process with several sockets, as one of the sockets sees them -/

namespace OatWS.Process
open Threads

theorem upd_same {α : Type} (f : Nat → α) (k : Nat) (x : α) : upd f k x k = x := if_pos rfl

theorem upd_other {α : Type} (f : Nat → α) {j k : Nat} (x : α) (h : k ≠ j) : upd f j x k = f k := if_neg h

theorem of_snoc_same (k : Nat) (log : List (Nat × Async.Entry)) (e : Async.Entry) : of k (log ++ [(k, e)]) = of k log ++ [e] := by
  simp [of]

theorem of_snoc_other {j k : Nat} (log : List (Nat × Async.Entry)) (e : Async.Entry) (h : k ≠ j) : of k (log ++ [(j, e)]) = of k log := by
  simp [of, h.symm]

theorem exec_react (env : Env) (react : List Event → List UserOp) (a : Act) (st : St) : exec (withReact env react) a st = exec env a st := by
  cases a <;> rfl

/-- Callbacks are the steps that make the trace longer, and their result is the new trace. -/
theorem exec_traces {env : Env} {a : Act} {st st' : St} {r : a.Res} (h : exec env a st = some (r, st')) :
    (tracesOf [⟨a, r⟩] = [] ∧ st'.sock.trace = st.sock.trace) ∨ (tracesOf [⟨a, r⟩] = [st'.sock.trace] ∧ st'.sock.trace.length = st.sock.trace.length + 1) := by
  cases a with
  | callback e =>
    dsimp only [exec] at h
    injection h with h
    injection h with h1 h2
    subst h1 h2
    exact .inr ⟨rfl, by simp⟩
  | read n =>
    dsimp only [exec] at h
    split at h
    · cases h
    · injection h with h; injection h with h1 h2; subst h1 h2; exact .inl ⟨rfl, rfl⟩
  | write d =>
    dsimp only [exec] at h
    split at h
    · cases h
    · split at h
      · injection h with h; injection h with h1 h2; subst h1 h2; exact .inl ⟨rfl, rfl⟩
      · injection h with h; injection h with h1 h2; subst h1 h2; exact .inl ⟨rfl, rfl⟩
  | _ =>
    dsimp only [exec] at h
    injection h with h
    injection h with h1 h2
    subst h1 h2
    exact .inl ⟨rfl, rfl⟩

theorem Path.det {α : Type} {p q q' : Prog α} {es : List Mv} (h : Path p es q) (h' : Path p es q') : q = q' := by
  induction h with
  | nil => exact (h'.empty rfl).symm
  | act _ ih =>
    cases h' with
    | act h' => exact ih h'

/-- The callbacks of the socket, whichever thread has made them, have had different results. -/
structure Distinct (k : Nat) (paths : Nat → List Ev) (st : St) : Prop where
  old : ∀ i, ∀ tr ∈ tracesOf (loc k (paths i)), tr.length ≤ st.sock.trace.length
  nodup : ∀ i, (tracesOf (loc k (paths i))).Nodup
  disjoint : ∀ i j, i ≠ j → ∀ tr ∈ tracesOf (loc k (paths i)), tr ∉ tracesOf (loc k (paths j))

/-- Extending one of them. -/
def extend (paths : Nat → List Ev) (i : Nat) (e : Ev) : Nat → List Ev := upd paths i (paths i ++ [e])

theorem extend_same (paths : Nat → List Ev) (i : Nat) (e : Ev) : extend paths i e i = paths i ++ [e] := if_pos rfl

theorem extend_other (paths : Nat → List Ev) {i j : Nat} (e : Ev) (h : j ≠ i) : extend paths i e j = paths j := if_neg h

theorem loc_extend_other (paths : Nat → List Ev) (i j k : Nat) (a : Act) (r : a.Res) (h : k ≠ j) (m : Nat) : loc k (extend paths i (.act j a r) m) = loc k (paths m) := by
  by_cases hm : m = i
  · subst hm
    rw [extend_same, loc_append]
    simp [loc, h.symm]
  · rw [extend_other _ _ hm]

theorem loc_extend_chose (paths : Nat → List Ev) (i k : Nat) (cs : List (Nat × UserOp)) (m : Nat) : loc k (extend paths i (.chose cs) m) = loc k (paths m) := by
  by_cases hm : m = i
  · subst hm
    rw [extend_same, loc_append]
    simp [loc]
  · rw [extend_other _ _ hm]

theorem loc_extend_same (paths : Nat → List Ev) (i k : Nat) (a : Act) (r : a.Res) : loc k (extend paths i (.act k a r) i) = loc k (paths i) ++ [⟨a, r⟩] := by
  rw [extend_same, loc_append]
  simp [loc]

theorem Distinct.congr {k : Nat} {paths paths' : Nat → List Ev} {st st' : St} (h : Distinct k paths st) (hp : ∀ m, loc k (paths' m) = loc k (paths m)) (hs : st'.sock.trace = st.sock.trace) :
    Distinct k paths' st' := by
  refine ⟨fun i tr ht => ?_, fun i => ?_, fun i j hij tr ht => ?_⟩
  · rw [hp] at ht; rw [hs]; exact h.old i tr ht
  · rw [hp]; exact h.nodup i
  · rw [hp] at ht ⊢; exact h.disjoint i j hij tr ht

theorem Distinct.step {k i : Nat} {paths : Nat → List Ev} {env : Env} {a : Act} {r : a.Res} {st st' : St} (h : Distinct k paths st) (he : exec env a st = some (r, st')) :
    Distinct k (extend paths i (.act k a r)) st' := by
  have hl : ∀ m, m ≠ i → loc k (extend paths i (.act k a r) m) = loc k (paths m) := fun m hm => by rw [extend_other _ _ hm]
  rcases exec_traces he with ⟨h1, h2⟩ | ⟨h1, h2⟩
  · have hp : ∀ m, tracesOf (loc k (extend paths i (.act k a r) m)) = tracesOf (loc k (paths m)) := fun m => by
      by_cases hm : m = i
      · subst hm; rw [loc_extend_same, tracesOf_append, h1, List.append_nil]
      · rw [hl m hm]
    refine ⟨fun i tr ht => ?_, fun i => ?_, fun i j hij tr ht => ?_⟩
    · rw [hp] at ht; rw [h2]; exact h.old i tr ht
    · rw [hp]; exact h.nodup i
    · rw [hp] at ht ⊢; exact h.disjoint i j hij tr ht
  · have hi : tracesOf (loc k (extend paths i (.act k a r) i)) = tracesOf (loc k (paths i)) ++ [st'.sock.trace] := by rw [loc_extend_same, tracesOf_append, h1]
    have hnew : ∀ m, st'.sock.trace ∉ tracesOf (loc k (paths m)) := fun m hm => by
      have := h.old m _ hm
      omega
    refine ⟨fun m tr ht => ?_, fun m => ?_, fun m j hmj tr ht => ?_⟩
    · by_cases hm : m = i
      · subst hm
        rw [hi] at ht
        rcases List.mem_append.mp ht with ht | ht
        · have := h.old m _ ht; omega
        · rw [List.mem_singleton.mp ht]; exact Nat.le_refl _
      · rw [hl m hm] at ht
        have := h.old m _ ht
        omega
    · by_cases hm : m = i
      · subst hm
        rw [hi]
        refine List.nodup_append.mpr ⟨h.nodup m, by simp, fun x hx y hy e => ?_⟩
        rw [e, List.mem_singleton.mp hy] at hx
        exact hnew m hx
      · rw [hl m hm]; exact h.nodup m
    · by_cases hm : m = i
      · subst hm
        rw [hl j (fun e => hmj e.symm)]
        rw [hi] at ht
        rcases List.mem_append.mp ht with ht | ht
        · exact h.disjoint m j hmj tr ht
        · rw [List.mem_singleton.mp ht]; exact hnew j
      · rw [hl m hm] at ht
        by_cases hj : j = i
        · subst hj
          rw [hi]
          intro hx
          rcases List.mem_append.mp hx with hx | hx
          · exact h.disjoint m j hmj tr ht hx
          · rw [List.mem_singleton.mp hx] at ht; exact hnew m ht
        · rw [hl j hj]; exact h.disjoint m j hmj tr ht

/-- The threads have made steps, and for each socket these are those of an execution with that socket alone, of any threads that make the same steps on it. -/
structure Seen (env penv : Nat → Env) (may : Nat → UserOp → Prop) (n0 : Net) (la lb : List (Nat × Async.Entry)) (n : Net) (paths : Nat → List Ev) : Prop where
  length : n.threads.length = n0.threads.length
  run : ∀ (i : Nat) g0, n0.threads[i]? = some g0 → ∃ g, n.threads[i]? = some g ∧ GPath g0 (paths i) g
  allowed : ∀ i, Allowed may (paths i)
  distinct : ∀ k, Distinct k paths (n.socks k)
  view : ∀ (k : Nat) (react : List Event → List UserOp) (f : Nat → Nat) (v : List (Prog Unit)), (∀ i j, f i = f j → i = j) →
    (∀ (i : Nat) g0, n0.threads[i]? = some g0 → ∃ q0 q, v[f i]? = some q0 ∧ Path q0 (loc k (paths i)) q) →
    ∃ v', v'.length = v.length ∧ (∀ (i : Nat) g0, n0.threads[i]? = some g0 → ∀ q0 q, v[f i]? = some q0 → Path q0 (loc k (paths i)) q → v'[f i]? = some q) ∧
      Network.Linked (withReact (env k) react) (penv k) (.threads ⟨v, n0.socks k⟩) (n0.peers k) (renumber f (of k la)) (of k lb) (.threads ⟨v', n.socks k⟩) (n.peers k)

theorem getElem?_set_of {α : Type} {l : List α} {i : Nat} {x : α} {y : α} (h : l[i]? = some y) : (l.set i x)[i]? = some x := by
  have := (List.getElem?_eq_some_iff.mp h).1
  simp [List.getElem?_set, this]

theorem getElem?_set_other {α : Type} {l : List α} {i j : Nat} {x : α} (h : j ≠ i) : (l.set i x)[j]? = l[j]? := by
  simp [List.getElem?_set, h.symm]

theorem Net.Runs.seen {env penv : Nat → Env} {may : Nat → UserOp → Prop} {n0 : Net} {la lb n} (h : Net.Runs env penv may n0 la lb n) :
    ∃ paths, Seen env penv may n0 la lb n paths := by
  induction h with
  | refl =>
    refine ⟨fun _ => [], rfl, fun i g0 h => ⟨g0, h, .nil⟩, fun _ _ h => absurd h List.not_mem_nil, fun k => ⟨fun _ _ h => absurd h List.not_mem_nil, fun _ => List.nodup_nil, fun _ _ _ _ h => absurd h List.not_mem_nil⟩, ?_⟩
    intro k react f v hf hv
    refine ⟨v, rfl, fun i g0 hi q0 q h1 h2 => ?_, .refl⟩
    rw [h1, h2.empty rfl]
  | @own la lb n i j a c r st' h h1 h2 h3 ih =>
    obtain ⟨paths, ih⟩ := ih
    refine ⟨extend paths i (.act j a r), ?_, ?_, ?_, ?_, ?_⟩
    · rw [List.length_set]; exact ih.length
    · intro m g0 hm
      obtain ⟨g, k1, k2⟩ := ih.run m g0 hm
      by_cases e : m = i
      · subst e
        rw [h1] at k1
        injection k1 with k1
        refine ⟨_, getElem?_set_of h1, ?_⟩
        rw [extend_same]
        exact k2.snoc_act k1.symm
      · refine ⟨g, ?_, ?_⟩
        · show (n.threads.set i (c r))[m]? = _
          rw [getElem?_set_other e]; exact k1
        · rw [extend_other _ _ e]; exact k2
    · intro m cs hc
      by_cases e : m = i
      · subst e
        rw [extend_same] at hc
        rcases List.mem_append.mp hc with hc | hc
        · exact ih.allowed m cs hc
        · cases List.mem_singleton.mp hc
      · rw [extend_other _ _ e] at hc
        exact ih.allowed m cs hc
    · intro k
      by_cases hk : k = j
      · subst hk
        show Distinct k _ (upd n.socks k st' k)
        rw [upd_same]
        exact (ih.distinct k).step h3
      · show Distinct k _ (upd n.socks j st' k)
        rw [upd_other _ _ hk]
        exact (ih.distinct k).congr (loc_extend_other paths i j k a r hk) rfl
    · intro k react f v hf hv
      show ∃ v', _ ∧ _ ∧ Network.Linked _ _ _ _ _ _ (.threads ⟨v', upd n.socks j st' k⟩) (upd n.peers j _ k)
      by_cases hk : k = j
      · subst hk
        rw [upd_same, upd_same, of_snoc_same]
        have hi : ∃ g0, n0.threads[i]? = some g0 := by
          have hlt := (List.getElem?_eq_some_iff.mp h1).1
          rw [ih.length] at hlt
          exact ⟨_, List.getElem?_eq_getElem hlt⟩
        obtain ⟨gi, hgi⟩ := hi
        obtain ⟨qi, qi', hq1, hq2⟩ := hv i gi hgi
        rw [loc_extend_same] at hq2
        obtain ⟨c', hq3, rfl⟩ := hq2.last
        obtain ⟨v', g0, g1, g2⟩ := ih.view k react f v hf fun m g hm => by
          by_cases e : m = i
          · subst e
            exact ⟨qi, _, hq1, hq3⟩
          · have := hv m g hm
            rw [extend_other _ _ e] at this
            exact this
        have hvi := g1 i gi hgi qi _ hq1 hq3
        refine ⟨v'.set (f i) (c' r), by rw [List.length_set]; exact g0, fun m g hm q0 q e1 e2 => ?_, ?_⟩
        · by_cases e : m = i
          · subst e
            rw [hq1] at e1
            injection e1 with e1
            subst e1
            rw [loc_extend_same] at e2
            rw [getElem?_set_of hvi, e2.det hq2]
          · rw [extend_other _ _ e] at e2
            rw [getElem?_set_other fun e' => e (hf _ _ e')]
            exact g1 m g hm q0 q e1 e2
        · have := g2.left (.thread (p := ⟨v', n.socks k⟩) (i := f i) hvi h2 (by rw [exec_react]; exact h3))
          rw [renumber, List.map_append]
          exact this
      · rw [upd_other _ _ hk, upd_other _ _ hk, of_snoc_other _ _ hk]
        obtain ⟨v', g0, g1, g2⟩ := ih.view k react f v hf fun m g hm => by
          have := hv m g hm
          rw [loc_extend_other paths i j k a r hk m] at this
          exact this
        refine ⟨v', g0, fun m g hm q0 q e1 e2 => ?_, g2⟩
        rw [loc_extend_other paths i j k a r hk m] at e2
        exact g1 m g hm q0 q e1 e2
  | @chooses la lb n i c cs h h1 h2 ih =>
    obtain ⟨paths, ih⟩ := ih
    refine ⟨extend paths i (.chose cs), ?_, ?_, ?_, ?_, ?_⟩
    · rw [List.length_set]; exact ih.length
    · intro m g0 hm
      obtain ⟨g, k1, k2⟩ := ih.run m g0 hm
      by_cases e : m = i
      · subst e
        rw [h1] at k1
        injection k1 with k1
        refine ⟨_, getElem?_set_of h1, ?_⟩
        rw [extend_same]
        exact k2.snoc_choose k1.symm
      · refine ⟨g, ?_, ?_⟩
        · show (n.threads.set i (c cs))[m]? = _
          rw [getElem?_set_other e]; exact k1
        · rw [extend_other _ _ e]; exact k2
    · intro m cs' hc
      by_cases e : m = i
      · subst e
        rw [extend_same] at hc
        rcases List.mem_append.mp hc with hc | hc
        · exact ih.allowed m cs' hc
        · injection List.mem_singleton.mp hc with hc
          subst hc
          exact h2
      · rw [extend_other _ _ e] at hc
        exact ih.allowed m cs' hc
    · intro k
      exact (ih.distinct k).congr (loc_extend_chose paths i k cs) rfl
    · intro k react f v hf hv
      obtain ⟨v', g0, g1, g2⟩ := ih.view k react f v hf fun m g hm => by
        have := hv m g hm
        rw [loc_extend_chose] at this
        exact this
      refine ⟨v', g0, fun m g hm q0 q e1 e2 => ?_, g2⟩
      rw [loc_extend_chose] at e2
      exact g1 m g hm q0 q e1 e2
  | @peer la lb n j e b h h1 ih =>
    obtain ⟨paths, ih⟩ := ih
    refine ⟨paths, ih.length, ih.run, ih.allowed, fun k => (ih.distinct k).congr (fun _ => rfl) ?_, ?_⟩
    · by_cases hk : k = j
      · subst hk
        show (upd n.socks k _ k).sock.trace = _
        rw [upd_same]
        rfl
      · show (upd n.socks j _ k).sock.trace = _
        rw [upd_other _ _ hk]
    · intro k react f v hf hv
      obtain ⟨v', g0, g1, g2⟩ := ih.view k react f v hf hv
      refine ⟨v', g0, g1, ?_⟩
      show Network.Linked _ _ _ _ _ _ (.threads ⟨v', upd n.socks j _ k⟩) (upd n.peers j _ k)
      by_cases hk : k = j
      · subst hk
        rw [upd_same, upd_same, of_snoc_same]
        exact g2.right h1
      · rw [upd_other _ _ hk, upd_other _ _ hk, of_snoc_other _ _ hk]
        exact g2

end OatWS.Process
