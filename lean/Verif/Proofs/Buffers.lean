import Verif.Proofs.Memory
/-! Which buffers exist: those of the coroutines, and no others. -/

namespace OatWS.Async

/-- The buffers that exist. -/
def World.ids (w : World) : List Nat := w.heap.map Prod.fst

/-- The buffers of the coroutines. -/
def bufs (cs : List Co) : List Nat := (cs.filterMap Co.buffer).map Prod.fst

/-- The buffers that exist are `own` and `R`. -/
structure Own (R own : List Nat) (w : World) : Prop where
  perm : w.ids.Perm (own ++ R)
  nodup : w.ids.Nodup
  fresh : ∀ i ∈ w.ids, i < w.nextBuf

theorem Own.same {R own : List Nat} {w w' : World} (h : Own R own w) (h1 : w'.ids = w.ids) (h2 : w.nextBuf ≤ w'.nextBuf) : Own R own w' :=
  ⟨by rw [h1]; exact h.perm, by rw [h1]; exact h.nodup, fun i hi => Nat.lt_of_lt_of_le (h.fresh i (by rw [← h1]; exact hi)) h2⟩

theorem ids_store (w : World) (id : Nat) (d : List UInt8) : (w.store id d).ids = w.ids := by
  show (w.heap.map _).map Prod.fst = w.heap.map Prod.fst
  rw [List.map_map]
  apply List.map_congr_left
  intro p _
  dsimp only [Function.comp]
  split
  · rename_i h; exact h.symm
  · rfl

theorem ids_free (w : World) (id : Nat) : (w.free id).ids = w.ids.filter fun i => i ≠ id := by
  show (w.heap.filter _).map Prod.fst = (w.heap.map Prod.fst).filter _
  rw [List.filter_map]
  rfl

theorem Own.alloc {R own : List Nat} {w : World} (h : Own R own w) (d : List UInt8) : Own R (w.nextBuf :: own) (w.alloc d).2 := by
  refine ⟨List.Perm.cons _ h.perm, List.nodup_cons.mpr ⟨fun hm => Nat.lt_irrefl _ (h.fresh _ hm), h.nodup⟩, fun i hi => ?_⟩
  rcases List.mem_cons.mp hi with rfl | hi
  · exact Nat.lt_succ_self _
  · exact Nat.lt_succ_of_lt (h.fresh i hi)

theorem filter_ne_self {x : Nat} {l : List Nat} (h : x ∉ l) : (l.filter fun i => i ≠ x) = l := by
  rw [List.filter_eq_self]
  intro i hi
  have : i ≠ x := by rintro rfl; exact h hi
  simpa using this

theorem Own.free {R own : List Nat} {b : Nat} {w : World} (h : Own R (b :: own) w) : Own R own (w.free b) := by
  have hn : (b :: (own ++ R)).Nodup := h.perm.nodup_iff.mp h.nodup
  refine ⟨?_, ?_, fun i hi => ?_⟩
  · rw [ids_free]
    have := h.perm.filter fun i => i ≠ b
    rw [List.cons_append, List.filter_cons_of_neg (by simp), filter_ne_self (List.nodup_cons.mp hn).1] at this
    exact this
  · rw [ids_free]; exact h.nodup.filter _
  · rw [ids_free] at hi
    exact h.fresh i (List.mem_filter.mp hi).1

theorem Own.destroy {R own : List Nat} {c : Co} {w : World} (h : Own R (bufs [c] ++ own) w) : Own R own (destroy c w) := by
  cases c with
  | readPayload c => exact Own.free (b := c.buf) h
  | _ => exact h

theorem bufs_cons (c : Co) (cs : List Co) : bufs (c :: cs) = bufs [c] ++ bufs cs := by
  unfold bufs
  rw [← List.map_append, ← List.filterMap_append]
  rfl

theorem bufs_append (cs ds : List Co) : bufs (cs ++ ds) = bufs cs ++ bufs ds := by
  unfold bufs
  rw [List.filterMap_append, List.map_append]

/-- The buffers after a step of coroutine `c`. -/
def OwnRes (R : List Nat) (c : Co) (r : Act × Local × World) : Prop :=
  match r.1 with
  | .goto c' => Own R (bufs [c']) r.2.2
  | .call cs c' => Own R (bufs cs ++ bufs [c']) r.2.2
  | .finish => Own R (bufs [c]) r.2.2
  | .error _ => Own R (bufs [c]) r.2.2
  | _ => True

variable {R : List Nat}

theorem own_readStep {c : Co} (need got l) (w : World) (again : List UInt8 → Co) (cont : List UInt8 → World → Act × Local × World) (h : Own R (bufs [c]) w)
    (h1 : ∀ g, bufs [again g] = bufs [c]) (h2 : ∀ g w, Own R (bufs [c]) w → OwnRes R c (cont g w)) : OwnRes R c (readStep need got l w again cont) := by
  unfold readStep
  have hi : ∀ i, Own R (bufs [c]) (w.setInp i) := fun i => h.same rfl (Nat.le_refl _)
  rcases readInline need got w.st.inp with ⟨(g | g | _ | _), i⟩
  · show Own R (bufs [again g]) _
    rw [h1]; exact hi i
  · exact h2 g _ (hi i)
  · exact hi i
  · trivial

theorem own_writeStep {c : Co} (left l) (w : World) (again : List UInt8 → Co) (cont : Act) (h : Own R (bufs [c]) w)
    (h1 : ∀ g, bufs [again g] = bufs [c]) (h2 : ∀ w, Own R (bufs [c]) w → OwnRes R c (cont, l, w)) : OwnRes R c (writeStep left l w again cont) := by
  unfold writeStep
  have hi : ∀ i, Own R (bufs [c]) (w.setOut i) := fun i => h.same rfl (Nat.le_refl _)
  rcases writeInline left w.st.sock.out with ⟨(g | g | _ | _), i⟩
  · show Own R (bufs [again g]) _
    rw [h1]; exact hi i
  · exact h2 _ (hi i)
  · exact hi i
  · trivial

theorem own_startPayload {c : HandleFrameCo} (short pc l) {w : World} (h : Own R [] w) : OwnRes R (.handleFrame c) (startPayload c short pc l w) := by
  unfold startPayload readPayloadAsync
  split
  · rename_i co w' he
    split at he
    · cases he
    · split at he
      · cases he
      · injection he with he; injection he with he he'; subst he he'
        exact h.alloc []
  · exact h

theorem own_coStep (env : Env) (c : Co) (l : Local) (w : World) (h : Own R (bufs [c]) w) : OwnRes R c (coStep env c l w) := by
  have hsame : ∀ {w' : World}, w'.heap = w.heap → w'.nextBuf = w.nextBuf → Own R (bufs [c]) w' := fun h1 h2 =>
    h.same (by unfold World.ids; rw [h1]) (Nat.le_of_eq h2.symm)
  cases c with
  | listen =>
    simp only [coStep, listenStep]
    split
    · exact h
    · exact h
  | readFrame c =>
    simp only [coStep, readFrameStep]
    split
    · exact own_readStep _ _ _ _ _ _ h (fun _ => rfl) (fun _ _ h => h)
    · split
      · split
        · exact h
        · split <;> exact h
      · exact h
    · exact own_readStep _ _ _ _ _ _ h (fun _ => rfl) (fun _ _ h => h)
    · split <;> exact h
    · refine own_readStep _ _ _ _ _ _ h (fun _ => rfl) (fun _ _ h => ?_)
      split <;> exact h
  | handleFrame c =>
    have hd : OwnRes R (.handleFrame c) (startData c l w) := by
      unfold startData
      split
      · exact own_startPayload _ _ _ (hsame rfl rfl)
      · exact hsame rfl rfl
    have hc : ∀ mk : Nat → Event, OwnRes R (.handleFrame c) (controlCallback env c mk l w) := by
      intro mk
      unfold controlCallback
      split
      · exact hsame rfl rfl
      · exact h
    simp only [coStep, handleFrameStep]
    split
    · split
      · split
        · exact h
        · exact own_startPayload _ _ _ h
      · split
        · exact hd
        · split
          · exact hd
          · split
            · exact own_startPayload _ _ _ h
            · split
              · exact own_startPayload _ _ _ h
              · split
                · exact own_startPayload _ _ _ h
                · exact h
    · exact hc _
    · exact hc _
    · exact hc _
    · exact h
  | readPayload c =>
    simp only [coStep, readPayloadStep]
    split
    · split
      · exact h
      · split
        · split
          · exact hsame rfl rfl
          · exact h
        · exact h
    · split
      · exact h
      · split
        · trivial
        · split
          · split
            · trivial
            · exact h.same (ids_store _ _ _) (Nat.le_refl _)
          · exact hsame rfl rfl
          · exact hsame rfl rfl
          · exact hsame rfl rfl
    · split
      · split
        · split
          · exact h
          · split
            · rename_i to _
              have ha := (h.alloc (xorMask l.hdr.mask c.progress.toNat c.got))
              have hb := ha.free
              exact hb.same rfl (Nat.le_refl _)
            · exact h
        · split
          · exact h
          · split
            · exact hsame rfl rfl
            · exact h
      · exact h
    · exact h
  | user c =>
    simp only [coStep, userStep]
    split
    · exact h
    · exact h
    · exact hsame rfl rfl
    · exact hsame rfl rfl
    · rename_i call _ _ _
      cases call <;> exact h
    · exact h
  | sendFrame c =>
    have hh : ∀ hd fin op n, bufs [(sendFrameHeaderAsync env hd fin op n w).2.1] = [] ∧ Own R [] (sendFrameHeaderAsync env hd fin op n w).2.2 := by
      intro hd fin op n
      unfold sendFrameHeaderAsync
      dsimp only
      split
      · exact ⟨rfl, hsame rfl rfl⟩
      · exact ⟨rfl, h⟩
    simp only [coStep, sendFrameStep]
    split
    · split
      all_goals
        show Own R (bufs [(sendFrameHeaderAsync _ _ _ _ _ _).2.1] ++ []) _
        rw [(hh _ _ _ _).1]
        exact (hh _ _ _ _).2
    · split
      · split
        · trivial
        · exact h
      · exact h
    · exact own_writeStep _ _ _ _ _ h (fun _ => rfl) (fun _ h => h)
    · exact h
  | writeFrame c =>
    simp only [coStep, writeFrameStep]
    split
    · exact own_writeStep _ _ _ _ _ h (fun _ => rfl) (fun _ h => h)
    · split
      · exact h
      · split <;> exact h
    · exact own_writeStep _ _ _ _ _ h (fun _ => rfl) (fun _ h => h)
    · split <;> exact h
    · exact own_writeStep _ _ _ _ _ h (fun _ => rfl) (fun _ h => h)

/-- The buffers of a task in any state. -/
def Outcome.bufs (o : Outcome) : List Nat := o.buffers.map Prod.fst

theorem own_unwind (e : AErr) (rest : List Co) (l : Local) (w : World) (h : Own R (bufs rest) w) : Own R (unwind e rest l w).1.bufs (unwind e rest l w).2 := by
  induction rest generalizing w with
  | nil => exact h
  | cons c rest ih =>
    cases c with
    | user c =>
      simp only [unwind]
      split
      · exact h
      · exact ih w h
    | readPayload c => simp only [unwind]; rw [bufs_cons] at h; exact ih _ h.destroy
    | _ => simp only [unwind]; exact ih _ h

theorem own_step (env : Env) (t : Task) (w : World) (h : Own R (bufs t.stack) w) (hb : (step env t w).1 ≠ .blocked) (hu : ∀ u, (step env t w).1 ≠ .ub u) :
    Own R (step env t w).1.bufs (step env t w).2 := by
  revert hb hu
  unfold step
  split
  · rename_i hs
    intro _ _
    rw [hs] at h
    exact h
  · rename_i c rest hs
    rw [hs, bufs_cons] at h
    have hassoc : ∀ {a b : List Nat} {w}, Own R (a ++ b) w ↔ Own (b ++ R) a w := by
      intro a b w
      constructor
      · intro h; exact ⟨by rw [← List.append_assoc]; exact h.perm, h.nodup, h.fresh⟩
      · intro h; exact ⟨by rw [List.append_assoc]; exact h.perm, h.nodup, h.fresh⟩
    have hk := own_coStep env c t.loc w (hassoc.mp h)
    revert hk
    rcases coStep env c t.loc w with ⟨a, l, w1⟩
    intro hk hb hu
    cases a with
    | goto c' =>
      have hk : Own (bufs rest ++ R) (bufs [c']) w1 := hk
      show Own R (bufs (c' :: rest)) w1
      rw [bufs_cons]
      exact hassoc.mpr hk
    | call cs c' =>
      have hk : Own (bufs rest ++ R) (bufs cs ++ bufs [c']) w1 := hk
      show Own R (bufs (cs ++ c' :: rest)) w1
      rw [bufs_append, bufs_cons, ← List.append_assoc]
      exact hassoc.mpr hk
    | finish =>
      have hk := (hassoc.mpr hk).destroy
      dsimp only
      split
      · exact hk
      · exact hk
    | error e => exact own_unwind e rest l _ (hassoc.mpr hk).destroy
    | blocked => exact absurd rfl hb
    | ub u => exact absurd rfl (hu u)

end OatWS.Async
