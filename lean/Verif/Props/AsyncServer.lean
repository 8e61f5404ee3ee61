import Verif.Model.AsyncConnectionHandler
/-! # C41: socket instance listener calls are paired (async server) -/

namespace OatWS.AsyncServer
open Server

variable {L P : Type}

/-! ## What the operations were (for the statements) -/

/-- The connections handed to the handler, in order, with the listener installed at that moment. -/
def handed (l : Option L) : List (Op L P) → List (Handed L P)
  | [] => []
  | .setListener l' :: os => handed l' os
  | .handleConnection c p :: os => ⟨l, c, p⟩ :: handed l os
  | _ :: os => handed l os

/-- The calls of `act`, in order: the number of the connection, and whether it threw. -/
def acts : List (Op L P) → List (Nat × Bool)
  | [] => []
  | .act n t :: os => (n, t) :: acts os
  | _ :: os => acts os

/-- `listenAsync` of connection `n` has ended. -/
def ended (n : Nat) : List (Op L P) → Bool
  | [] => false
  | .listened n' :: os => n' == n || ended n os
  | _ :: os => ended n os

/-- The coroutine of connection `n` has been destroyed. -/
def destroyed (n : Nat) : List (Op L P) → Bool
  | [] => false
  | .destroy n' :: os => n' == n || destroyed n os
  | _ :: os => destroyed n os

/-! ## Histories that grow at the end -/

def listenerAfter (l : Option L) : List (Op L P) → Option L
  | [] => l
  | .setListener l' :: os => listenerAfter l' os
  | _ :: os => listenerAfter l os

theorem handed_append (l : Option L) (a b : List (Op L P)) : handed l (a ++ b) = handed l a ++ handed (listenerAfter l a) b := by
  induction a generalizing l with
  | nil => rfl
  | cons o a ih => cases o <;> simp [handed, listenerAfter, ih]

theorem listenerAfter_append (l : Option L) (a b : List (Op L P)) : listenerAfter l (a ++ b) = listenerAfter (listenerAfter l a) b := by
  induction a generalizing l with
  | nil => rfl
  | cons o a ih => cases o <;> simp [listenerAfter, ih]

theorem acts_append (a b : List (Op L P)) : acts (a ++ b) = acts a ++ acts b := by
  induction a with
  | nil => rfl
  | cons o a ih => cases o <;> simp [acts, ih]

theorem ended_append (n : Nat) (a b : List (Op L P)) : ended n (a ++ b) = (ended n a || ended n b) := by
  induction a with
  | nil => simp [ended]
  | cons o a ih => cases o <;> simp [ended, ih, Bool.or_assoc]

theorem destroyed_append (n : Nat) (a b : List (Op L P)) : destroyed n (a ++ b) = (destroyed n a || destroyed n b) := by
  induction a with
  | nil => simp [destroyed]
  | cons o a ih => cases o <;> simp [destroyed, ih, Bool.or_assoc]

/-! ## The invariant -/

/-- What is known about connection `n` with this status. -/
def At (hs : List (Op L P)) (n : Nat) : Status → Option (Coroutine L P) → Prop
  | .absent, c => c = none
  | .created, c => ∃ a, (handed none hs)[n]? = some a ∧ c = some ⟨a.connection, a.params, a.listener, none⟩ ∧ (∀ t, (n, t) ∉ acts hs) ∧
      ended n hs = false ∧ destroyed n hs = false
  | .listening, c => ∃ a k, (handed none hs)[n]? = some a ∧ c = some ⟨a.connection, a.params, a.listener, some k⟩ ∧ (acts hs)[k]? = some (n, false) ∧
      ended n hs = false ∧ destroyed n hs = false
  | .done, c => ∃ a k t, (handed none hs)[n]? = some a ∧ c = some ⟨a.connection, a.params, a.listener, some k⟩ ∧ (acts hs)[k]? = some (n, t) ∧
      destroyed n hs = false

structure Inv (hs : List (Op L P)) (st : (Nat → Status) × Nat) (m : Mem L P) (tr : List (Ev L P)) : Prop where
  listener : m.listener = listenerAfter none hs
  count : m.accepted = st.2
  handed_count : (handed none hs).length = st.2
  later : ∀ n, st.2 ≤ n → st.1 n = .absent ∧ (∀ t, (n, t) ∉ acts hs) ∧ ended n hs = false ∧ destroyed n hs = false
  status : ∀ n, At hs n (st.1 n) (m.coroutines n)
  sockets : m.sockets.length = (acts hs).length
  life : ∀ (k n : Nat) t, (acts hs)[k]? = some (n, t) →
    ∃ a, (handed none hs)[n]? = some a ∧ m.sockets[k]? = some a.connection ∧ about k tr = asyncLife a k t (ended n hs) (destroyed n hs)
  once : ((acts hs).map Prod.fst).Nodup
  nothing_else : ∀ k, (acts hs).length ≤ k → about k tr = []

theorem about_append (k : Nat) (a b : List (Ev L P)) : about k (a ++ b) = about k a ++ about k b := List.filter_append ..

theorem about_same {k : Nat} {evs : List (Ev L P)} (h : ∀ e ∈ evs, e.socket = k) : about k evs = evs := by
  unfold about
  rw [List.filter_eq_self]
  intro e he
  simp [h e he]

theorem about_other {k : Nat} {evs : List (Ev L P)} (h : ∀ e ∈ evs, e.socket ≠ k) : about k evs = [] := by
  unfold about
  rw [List.filter_eq_nil_iff]
  intro e he
  simpa using h e he

theorem acts_once {hs : List (Op L P)} (h : ((acts hs).map Prod.fst).Nodup) {k k' n : Nat} {t t' : Bool} (h1 : (acts hs)[k]? = some (n, t))
    (h2 : (acts hs)[k']? = some (n, t')) : k = k' := by
  have e1 : ((acts hs).map Prod.fst)[k]? = some n := by rw [List.getElem?_map, h1]; rfl
  have e2 : ((acts hs).map Prod.fst)[k']? = some n := by rw [List.getElem?_map, h2]; rfl
  obtain ⟨l1, e1⟩ := List.getElem?_eq_some_iff.mp e1
  obtain ⟨l2, e2⟩ := List.getElem?_eq_some_iff.mp e2
  exact (List.getElem_inj h).mp (by rw [e1, e2])

theorem mem_acts {hs : List (Op L P)} {k n : Nat} {t : Bool} (h : (acts hs)[k]? = some (n, t)) : (n, t) ∈ acts hs := List.mem_of_getElem? h

/-- The events of a destruction. -/
def gone (l : Option L) : Option Nat → List (Ev L P)
  | none => []
  | some k => beforeDestroyed l k

theorem gone_socket {l : Option L} {so : Option Nat} {e : Ev L P} (he : e ∈ gone l so) : so = some e.socket := by
  cases so with
  | none => cases he
  | some k =>
    cases l with
    | none => cases he
    | some l =>
      simp only [gone, beforeDestroyed, List.mem_singleton] at he
      subst he
      rfl

theorem step_inv {hs : List (Op L P)} {st st' : (Nat → Status) × Nat} {m : Mem L P} {tr : List (Ev L P)} (h : Inv hs st m tr) (o : Op L P)
    (hl : legal st o = some st') : ∃ m' evs, step m o = some (m', evs) ∧ Inv (hs ++ [o]) st' m' (tr ++ evs) := by
  cases o with
  | setListener l =>
    simp only [legal, Option.some.injEq] at hl
    subst hl
    refine ⟨_, _, rfl, ?_⟩
    have e1 : handed none (hs ++ [Op.setListener l]) = handed none hs := by rw [handed_append]; simp [handed]
    have e2 : acts (hs ++ [Op.setListener l]) = acts hs := by rw [acts_append]; simp [acts]
    have e3 : ∀ n, ended n (hs ++ [Op.setListener l]) = ended n hs := fun n => by rw [ended_append]; simp [ended]
    have e4 : ∀ n, destroyed n (hs ++ [Op.setListener l]) = destroyed n hs := fun n => by rw [destroyed_append]; simp [destroyed]
    rw [List.append_nil]
    refine ⟨by rw [listenerAfter_append]; rfl, h.count, by rw [e1]; exact h.handed_count, fun n hn => ?_, fun n => ?_, by rw [e2]; exact h.sockets,
      fun k n t hk => ?_, by rw [e2]; exact h.once, fun k hk => h.nothing_else k (by rw [e2] at hk; exact hk)⟩
    · rw [e2, e3, e4]; exact h.later n hn
    · have := h.status n
      unfold At at this ⊢
      rw [e1, e2, e3, e4]
      exact this
    · rw [e2] at hk
      rw [e1, e3, e4]
      exact h.life k n t hk
  | handleConnection c p =>
    simp only [legal, Option.some.injEq] at hl
    subst hl
    refine ⟨_, _, rfl, ?_⟩
    have e1 : handed none (hs ++ [Op.handleConnection c p]) = handed none hs ++ [⟨m.listener, c, p⟩] := by
      rw [handed_append, h.listener]; simp [handed]
    have e2 : acts (hs ++ [Op.handleConnection c p]) = acts hs := by rw [acts_append]; simp [acts]
    have e3 : ∀ n, ended n (hs ++ [Op.handleConnection c p]) = ended n hs := fun n => by rw [ended_append]; simp [ended]
    have e4 : ∀ n, destroyed n (hs ++ [Op.handleConnection c p]) = destroyed n hs := fun n => by rw [destroyed_append]; simp [destroyed]
    have e5 : ∀ (n : Nat) a, (handed none hs)[n]? = some a → (handed none (hs ++ [Op.handleConnection c p]))[n]? = some a := by
      intro n a hn
      rw [e1, List.getElem?_append_left (List.getElem?_eq_some_iff.mp hn).1]
      exact hn
    rw [List.append_nil]
    refine ⟨by rw [listenerAfter_append, ← h.listener]; rfl, by simp [Mem.set, h.count], by rw [e1]; simp [h.handed_count], fun n hn => ?_, fun n => ?_,
      by rw [e2]; exact h.sockets, fun k n t hk => ?_, by rw [e2]; exact h.once, fun k hk => h.nothing_else k (by rw [e2] at hk; exact hk)⟩
    · simp only [] at hn
      rw [e2, e3, e4]
      simp only []
      rw [if_neg (by omega)]
      exact h.later n (by omega)
    · simp only [Mem.set, h.count]
      by_cases hn : n = st.2
      · rw [if_pos hn, if_pos hn]
        obtain ⟨q1, q2, q3, q4⟩ := h.later n (by omega)
        refine ⟨⟨m.listener, c, p⟩, ?_, rfl, by rw [e2]; exact q2, by rw [e3]; exact q3, by rw [e4]; exact q4⟩
        rw [e1, hn, ← h.handed_count]
        simp
      · rw [if_neg hn, if_neg hn]
        have := h.status n
        cases hst : st.1 n <;> rw [hst] at this
        · exact this
        · obtain ⟨a, q1, q2, q3, q4, q5⟩ := this
          exact ⟨a, e5 n a q1, q2, by rw [e2]; exact q3, by rw [e3]; exact q4, by rw [e4]; exact q5⟩
        · obtain ⟨a, k, q1, q2, q3, q4, q5⟩ := this
          exact ⟨a, k, e5 n a q1, q2, by rw [e2]; exact q3, by rw [e3]; exact q4, by rw [e4]; exact q5⟩
        · obtain ⟨a, k, t, q1, q2, q3, q5⟩ := this
          exact ⟨a, k, t, e5 n a q1, q2, by rw [e2]; exact q3, by rw [e4]; exact q5⟩
    · rw [e2] at hk
      rw [e3, e4]
      obtain ⟨a, q1, q2, q3⟩ := h.life k n t hk
      exact ⟨a, e5 n a q1, q2, q3⟩
  | act n throws =>
    rw [legal] at hl
    split at hl
    next hs0 =>
      simp only [Option.some.injEq] at hl
      subst hl
      have hat := h.status n
      rw [hs0] at hat
      obtain ⟨a, q1, q2, q3, q4, q5⟩ := hat
      have hlt : n < st.2 := by rw [← h.handed_count]; exact (List.getElem?_eq_some_iff.mp q1).1
      have e1 : handed none (hs ++ [Op.act n throws]) = handed none hs := by rw [handed_append]; simp [handed]
      have e2 : acts (hs ++ [Op.act n throws]) = acts hs ++ [(n, throws)] := by rw [acts_append]; simp [acts]
      have e3 : ∀ i, ended i (hs ++ [Op.act n throws]) = ended i hs := fun i => by rw [ended_append]; simp [ended]
      have e4 : ∀ i, destroyed i (hs ++ [Op.act n throws]) = destroyed i hs := fun i => by rw [destroyed_append]; simp [destroyed]
      have e5 : ∀ (k : Nat) x, (acts hs)[k]? = some x → (acts (hs ++ [Op.act n throws]))[k]? = some x := by
        intro k x hk
        rw [e2, List.getElem?_append_left (List.getElem?_eq_some_iff.mp hk).1]
        exact hk
      have e6 : (acts (hs ++ [Op.act n throws]))[(acts hs).length]? = some (n, throws) := by rw [e2]; simp
      let evs : List (Ev L P) := afterCreated a.listener (acts hs).length a.params throws ++ (if throws then [] else [.listenBegin (acts hs).length])
      have hevs : ∀ e ∈ evs, e.socket = (acts hs).length := by
        intro e he
        simp only [evs] at he
        cases hli : a.listener <;> cases throws <;> simp [hli, afterCreated] at he <;>
          first | (subst he; rfl) | (rcases he with rfl | rfl <;> rfl)
      have hoth : ∀ k, k ≠ (acts hs).length → about k evs = [] := fun k hk => about_other (fun e he => by rw [hevs e he]; exact fun h => hk h.symm)
      refine ⟨{ m with sockets := m.sockets ++ [a.connection] }.set n (some ⟨a.connection, a.params, a.listener, some (acts hs).length⟩), evs, ?_, ?_⟩
      · simp only [step, q2, h.sockets, evs]
        cases a.listener <;> cases throws <;> rfl
      · refine ⟨by rw [listenerAfter_append, ← h.listener]; rfl, h.count, by rw [e1]; exact h.handed_count, fun i hi => ?_, fun i => ?_, ?_,
          fun k i t hk => ?_, ?_, fun k hk => ?_⟩
        · simp only [] at hi
          obtain ⟨r1, r2, r3, r4⟩ := h.later i hi
          refine ⟨by simp only []; rw [if_neg (by omega)]; exact r1, fun t => ?_, by rw [e3]; exact r3, by rw [e4]; exact r4⟩
          rw [e2]
          simp only [List.mem_append, List.mem_singleton, Prod.mk.injEq, not_or, not_and]
          exact ⟨r2 t, fun hi' => by omega⟩
        · simp only [Mem.set]
          by_cases hi : i = n
          · rw [if_pos hi, if_pos hi, hi]
            cases throws with
            | true => exact ⟨a, _, true, by rw [e1]; exact q1, rfl, e6, by rw [e4]; exact q5⟩
            | false => exact ⟨a, _, by rw [e1]; exact q1, rfl, e6, by rw [e3]; exact q4, by rw [e4]; exact q5⟩
          · rw [if_neg hi, if_neg hi]
            have := h.status i
            cases hst : st.1 i <;> rw [hst] at this
            · exact this
            · obtain ⟨a', r1, r2, r3, r4, r5⟩ := this
              refine ⟨a', by rw [e1]; exact r1, r2, fun t => ?_, by rw [e3]; exact r4, by rw [e4]; exact r5⟩
              rw [e2]
              simp only [List.mem_append, List.mem_singleton, Prod.mk.injEq, not_or, not_and]
              exact ⟨r3 t, fun hi' => absurd hi' hi⟩
            · obtain ⟨a', k, r1, r2, r3, r4, r5⟩ := this
              exact ⟨a', k, by rw [e1]; exact r1, r2, e5 _ _ r3, by rw [e3]; exact r4, by rw [e4]; exact r5⟩
            · obtain ⟨a', k, t, r1, r2, r3, r5⟩ := this
              exact ⟨a', k, t, by rw [e1]; exact r1, r2, e5 _ _ r3, by rw [e4]; exact r5⟩
        · simp [Mem.set, e2, h.sockets]
        · rw [e1, e3, e4]
          simp only [Mem.set]
          by_cases hk' : k < (acts hs).length
          · rw [e2, List.getElem?_append_left hk'] at hk
            obtain ⟨a', r1, r2, r3⟩ := h.life k i t hk
            refine ⟨a', r1, ?_, ?_⟩
            · rw [List.getElem?_append_left (by rw [h.sockets]; exact hk')]; exact r2
            · rw [about_append, hoth k (by omega), List.append_nil]; exact r3
          · have hke : k = (acts hs).length := by
              have := (List.getElem?_eq_some_iff.mp hk).1
              rw [e2] at this
              simp at this
              omega
            subst hke
            rw [e6] at hk
            simp only [Option.some.injEq, Prod.mk.injEq] at hk
            obtain ⟨rfl, rfl⟩ := hk
            refine ⟨a, q1, ?_, ?_⟩
            · rw [← h.sockets]; simp
            · rw [about_append, h.nothing_else _ (Nat.le_refl _), List.nil_append, about_same hevs, q4, q5]
              simp [asyncLife, evs]
        · rw [e2, List.map_append, List.nodup_append]
          refine ⟨h.once, by simp, ?_⟩
          intro x hx y hy
          simp only [List.map_cons, List.map_nil, List.mem_singleton] at hy
          subst hy
          rintro rfl
          obtain ⟨⟨x', t'⟩, hx', rfl⟩ := List.mem_map.mp hx
          exact q3 t' hx'
        · rw [e2] at hk
          simp at hk
          rw [about_append, h.nothing_else k (by omega), hoth k (by omega)]
          rfl
    next => cases hl
  | listened n =>
    rw [legal] at hl
    split at hl
    next hs0 =>
      simp only [Option.some.injEq] at hl
      subst hl
      have hat := h.status n
      rw [hs0] at hat
      obtain ⟨a, k0, q1, q2, q3, q4, q5⟩ := hat
      have hlt : n < st.2 := by rw [← h.handed_count]; exact (List.getElem?_eq_some_iff.mp q1).1
      have e1 : handed none (hs ++ [Op.listened n]) = handed none hs := by rw [handed_append]; simp [handed]
      have e2 : acts (hs ++ [Op.listened n]) = acts hs := by rw [acts_append]; simp [acts]
      have e3 : ∀ i, i ≠ n → ended i (hs ++ [Op.listened n]) = ended i hs := fun i hi => by
        rw [ended_append]; simp [ended]; intro h; exact absurd h.symm hi
      have e3' : ended n (hs ++ [Op.listened n]) = true := by rw [ended_append]; simp [ended]
      have e4 : ∀ i, destroyed i (hs ++ [Op.listened n]) = destroyed i hs := fun i => by rw [destroyed_append]; simp [destroyed]
      refine ⟨m, [.listenEnd k0], by simp only [step, q2], ?_⟩
      refine ⟨by rw [listenerAfter_append, ← h.listener]; rfl, h.count, by rw [e1]; exact h.handed_count, fun i hi => ?_, fun i => ?_, by rw [e2]; exact h.sockets,
        fun k i t hk => ?_, by rw [e2]; exact h.once, fun k hk => ?_⟩
      · simp only [] at hi
        rw [e2, e3 i (by omega), e4]
        simp only []
        rw [if_neg (by omega)]
        exact h.later i hi
      · simp only []
        by_cases hi : i = n
        · rw [if_pos hi, hi]
          exact ⟨a, k0, false, by rw [e1]; exact q1, q2, by rw [e2]; exact q3, by rw [e4]; exact q5⟩
        · rw [if_neg hi]
          have := h.status i
          unfold At at this ⊢
          rw [e1, e2, e3 i hi, e4]
          exact this
      · rw [e2] at hk
        rw [e1, e4]
        obtain ⟨a', r1, r2, r3⟩ := h.life k i t hk
        by_cases hi : i = n
        · subst hi
          have hkk := acts_once h.once hk q3
          subst hkk
          rw [hk] at q3
          simp only [Option.some.injEq, Prod.mk.injEq, true_and] at q3
          subst q3
          refine ⟨a', r1, r2, ?_⟩
          rw [about_append, r3, q4, q5, about_same (by simp [Ev.socket]), e3']
          simp [asyncLife]
        · rw [e3 i hi]
          refine ⟨a', r1, r2, ?_⟩
          rw [about_append, r3, about_other, List.append_nil]
          simp only [List.mem_singleton, forall_eq, Ev.socket]
          rintro rfl
          rw [q3] at hk
          simp only [Option.some.injEq, Prod.mk.injEq] at hk
          exact hi hk.1.symm
      · rw [e2] at hk
        rw [about_append, h.nothing_else k hk, about_other, List.append_nil]
        simp only [List.mem_singleton, forall_eq, Ev.socket]
        have := (List.getElem?_eq_some_iff.mp q3).1
        omega
    next => cases hl
  | destroy n =>
    rw [legal] at hl
    split at hl
    next hs0 =>
      simp only [Option.some.injEq] at hl
      subst hl
      -- what is there
      have hat := h.status n
      have hthere : ∃ a so, (handed none hs)[n]? = some a ∧ m.coroutines n = some ⟨a.connection, a.params, a.listener, so⟩ ∧ destroyed n hs = false ∧
          ((so = none ∧ ∀ t, (n, t) ∉ acts hs) ∨ ∃ k t, so = some k ∧ (acts hs)[k]? = some (n, t)) := by
        cases hst : st.1 n <;> rw [hst] at hat hs0
        · exact absurd rfl hs0
        · obtain ⟨a, q1, q2, q3, q4, q5⟩ := hat; exact ⟨a, none, q1, q2, q5, .inl ⟨rfl, q3⟩⟩
        · obtain ⟨a, k, q1, q2, q3, q4, q5⟩ := hat; exact ⟨a, some k, q1, q2, q5, .inr ⟨k, false, rfl, q3⟩⟩
        · obtain ⟨a, k, t, q1, q2, q3, q5⟩ := hat; exact ⟨a, some k, q1, q2, q5, .inr ⟨k, t, rfl, q3⟩⟩
      obtain ⟨a, so, q1, q2, q5, hso⟩ := hthere
      have hlt : n < st.2 := by rw [← h.handed_count]; exact (List.getElem?_eq_some_iff.mp q1).1
      have e1 : handed none (hs ++ [Op.destroy n]) = handed none hs := by rw [handed_append]; simp [handed]
      have e2 : acts (hs ++ [Op.destroy n]) = acts hs := by rw [acts_append]; simp [acts]
      have e3 : ∀ i, ended i (hs ++ [Op.destroy n]) = ended i hs := fun i => by rw [ended_append]; simp [ended]
      have e4 : ∀ i, i ≠ n → destroyed i (hs ++ [Op.destroy n]) = destroyed i hs := fun i hi => by
        rw [destroyed_append]; simp [destroyed]; intro h; exact absurd h.symm hi
      have e4' : destroyed n (hs ++ [Op.destroy n]) = true := by rw [destroyed_append]; simp [destroyed]
      let evs : List (Ev L P) := gone a.listener so
      have hstep : step m (Op.destroy n) = some (m.set n none, evs) := by
        simp only [step, q2, evs]
        cases a.listener <;> cases so <;> rfl
      refine ⟨_, evs, hstep, ?_⟩
      have hoth : ∀ k i t, (acts hs)[k]? = some (i, t) → i ≠ n → about k evs = [] := by
        intro k i t hk hi
        apply about_other
        intro e he
        rcases hso with ⟨rfl, -⟩ | ⟨k0, t0, rfl, hk0⟩
        · exact nomatch gone_socket he
        · have : e.socket = k0 := (Option.some.inj (gone_socket he)).symm
          rw [this]
          rintro rfl
          rw [hk0] at hk
          simp only [Option.some.injEq, Prod.mk.injEq] at hk
          exact hi hk.1.symm
      have hbig : ∀ k, (acts hs).length ≤ k → about k evs = [] := by
        intro k hk
        apply about_other
        intro e he
        rcases hso with ⟨rfl, -⟩ | ⟨k0, t0, rfl, hk0⟩
        · exact nomatch gone_socket he
        · have : e.socket = k0 := (Option.some.inj (gone_socket he)).symm
          rw [this]
          have := (List.getElem?_eq_some_iff.mp hk0).1
          omega
      refine ⟨by rw [listenerAfter_append, ← h.listener]; rfl, h.count, by rw [e1]; exact h.handed_count, fun i hi => ?_, fun i => ?_, by rw [e2]; exact h.sockets,
        fun k i t hk => ?_, by rw [e2]; exact h.once, fun k hk => ?_⟩
      · simp only [] at hi
        rw [e2, e3, e4 i (by omega)]
        simp only []
        rw [if_neg (by omega)]
        exact h.later i hi
      · simp only [Mem.set]
        by_cases hi : i = n
        · rw [if_pos hi, if_pos hi]; rfl
        · rw [if_neg hi, if_neg hi]
          have := h.status i
          unfold At at this ⊢
          rw [e1, e2, e3, e4 i hi]
          exact this
      · rw [e2] at hk
        rw [e1, e3]
        obtain ⟨a', r1, r2, r3⟩ := h.life k i t hk
        refine ⟨a', r1, r2, ?_⟩
        by_cases hi : i = n
        · subst hi
          rcases hso with ⟨-, hno⟩ | ⟨k0, t0, rfl, hk0⟩
          · exact absurd (mem_acts hk) (hno t)
          · have hkk := acts_once h.once hk hk0
            subst hkk
            rw [q1] at r1
            injection r1 with r1
            subst r1
            rw [about_append, r3, q5, e4', about_same (fun e he => (Option.some.inj (gone_socket he)).symm)]
            simp [asyncLife, evs, gone]
        · rw [e4 i hi, about_append, hoth k i t hk hi, List.append_nil]
          exact r3
      · rw [e2] at hk
        rw [about_append, h.nothing_else k hk, hbig k hk]
        rfl
    next => cases hl

theorem inv_init : Inv (L := L) (P := P) [] (fun _ => .absent, 0) Mem.init [] where
  listener := rfl
  count := rfl
  handed_count := rfl
  later := fun n _ => ⟨rfl, fun t h => (by cases h), rfl, rfl⟩
  status := fun n => rfl
  sockets := rfl
  life := fun k n t h => (by simp [acts] at h)
  once := by simp [acts]
  nothing_else := fun k _ => rfl

theorem run_inv {hs : List (Op L P)} {st st' : (Nat → Status) × Nat} {m : Mem L P} {tr : List (Ev L P)} (h : Inv hs st m tr) (os : List (Op L P))
    (hl : legalRun st os = some st') : ∃ m' evs, run m os = some (m', evs) ∧ Inv (hs ++ os) st' m' (tr ++ evs) := by
  induction os generalizing hs st m tr with
  | nil =>
    simp only [legalRun, Option.some.injEq] at hl
    subst hl
    exact ⟨m, [], rfl, by simpa using h⟩
  | cons o os ih =>
    rw [legalRun] at hl
    cases ho : legal st o with
    | none => rw [ho] at hl; cases hl
    | some st1 =>
      rw [ho] at hl
      obtain ⟨m1, ev1, e1, h1⟩ := step_inv h o ho
      obtain ⟨m2, ev2, e2, h2⟩ := ih h1 hl
      refine ⟨m2, ev1 ++ ev2, by rw [run, e1]; simp only []; rw [e2], ?_⟩
      rw [← List.append_assoc]
      have : hs ++ o :: os = hs ++ [o] ++ os := by simp
      rw [this]
      exact h2

/-! ## C41 -/

/-- **C41.** Whatever the executor does with the coroutines (`legalRun`), for any number of connections, in any interleaving, and with the handler's listener replaced
at any time: nothing undefined happens; one socket is made per call of `act`, on the connection of that coroutine, and at most one per connection; and what
has happened to it is exactly: `onAfterCreate_NonBlocking` of the listener that was installed when the connection was handed over, then (unless it threw)
`listenAsync`, and, exactly if the coroutine has been destroyed, `onBeforeDestroy_NonBlocking` of the same listener, once, at the end. Nothing happens to
other sockets: a coroutine destroyed before `act` gets no call at all. -/
theorem C41_paired (os : List (Op L P)) {st : (Nat → Status) × Nat} (hl : legalRun (fun _ => .absent, 0) os = some st) :
    ∃ m tr, run (Mem.init (L := L) (P := P)) os = some (m, tr) ∧ m.sockets.length = (acts os).length ∧ ((acts os).map Prod.fst).Nodup ∧
      (∀ (k n : Nat) t, (acts os)[k]? = some (n, t) → ∃ a, (handed none os)[n]? = some a ∧ m.sockets[k]? = some a.connection ∧
        about k tr = asyncLife a k t (ended n os) (destroyed n os)) ∧
      ∀ e ∈ tr, e.socket < (acts os).length := by
  obtain ⟨m, tr, h1, h2⟩ := run_inv inv_init os hl
  rw [List.nil_append, List.nil_append] at h2
  refine ⟨m, tr, h1, h2.sockets, h2.once, h2.life, fun e he => ?_⟩
  apply Classical.byContradiction
  intro hge
  have : e ∈ about e.socket tr := by
    unfold about
    rw [List.mem_filter]
    exact ⟨he, by simp⟩
  rw [h2.nothing_else _ (by omega)] at this
  cases this

/-- **C41**, in a line: `onBeforeDestroy_NonBlocking` is called for a socket of a destroyed coroutine as often as `onAfterCreate_NonBlocking` was, once each if there is a
listener, and by the same listener. -/
theorem C41_before_iff_after (os : List (Op L P)) {st : (Nat → Status) × Nat} (hl : legalRun (fun _ => .absent, 0) os = some st)
    {m : Mem L P} {tr : List (Ev L P)} (hr : run Mem.init os = some (m, tr)) {k n : Nat} {t : Bool} (hk : (acts os)[k]? = some (n, t))
    (hd : destroyed n os = true) (l : L) :
    (.beforeDestroy l k ∈ tr ↔ ∃ p t', .afterCreate l k p t' ∈ tr) := by
  obtain ⟨m', tr', h1, -, -, h2, -⟩ := C41_paired os hl
  rw [hr] at h1
  injection h1 with h1
  injection h1 with e1 e2
  subst e1; subst e2
  obtain ⟨a, -, -, h3⟩ := h2 k n t hk
  rw [hd] at h3
  have mem : ∀ e : Ev L P, e.socket = k → (e ∈ tr ↔ e ∈ about k tr) := by
    intro e he
    unfold about
    rw [List.mem_filter]
    simp [he]
  rw [mem _ rfl, h3]
  have : (∃ p t', Ev.afterCreate l k p t' ∈ tr) ↔ ∃ p t', Ev.afterCreate l k p t' ∈ about k tr := by
    constructor <;> rintro ⟨p, t', h⟩ <;> exact ⟨p, t', by rw [mem _ rfl] at *; assumption⟩
  rw [this, h3]
  cases a with
  | mk li c p =>
    cases li <;> cases t <;> cases ended n os <;> simp [asyncLife, afterCreated, beforeDestroyed]

/-- Three connections; the listener is replaced in between; the first coroutine runs to its end, the second one's `onAfterCreate_NonBlocking` throws, the third is
destroyed before its first step. -/
def sample : List (Op Nat String) := [.setListener (some 7), .handleConnection 100 "a", .handleConnection 200 "b", .setListener (some 8),
  .act 1 true, .act 0 false, .handleConnection 300 "c", .destroy 2, .destroy 1, .listened 0, .destroy 0]

example : (legalRun (fun _ => .absent, 0) sample).isSome = true ∧ (run Mem.init sample).map Prod.snd =
    some [.afterCreate 7 0 "b" true, .afterCreate 7 1 "a" false, .listenBegin 1, .beforeDestroy 7 0, .listenEnd 1, .beforeDestroy 7 1] := ⟨rfl, rfl⟩

end OatWS.AsyncServer
