import Verif.Model.ConnectionHandler
/-! # C40: socket instance listener calls are paired (threaded server) -/

namespace OatWS.Server

/-- The connections handed to the handler, in order: the listener installed at that moment, connection, parameters, and whether the construction throws. -/
def accepted (l : Option L) : List (Op L P) → List (Accepted L P)
  | [] => []
  | .setListener l' :: os => accepted l' os
  | .construct _ c p t :: os => ⟨l, c, p, t⟩ :: accepted l os
  | _ :: os => accepted l os

/-- Some `Task` object keeps socket `k` (and so the socket is alive). -/
def Kept (m : Mem L) (k : Nat) : Prop := ∃ i t, m.slots i = some t ∧ t.socket = some k

/-! ## The invariant -/

def phase : Status → Nat → List (Ev L P)
  | .running, k => [.listenBegin k]
  | .ran, k => [.listenBegin k, .listenEnd k]
  | _, _ => []

def At (acc : List (Accepted L P)) (tr : List (Ev L P)) (s : Status) (t : Option (Task L)) : Prop :=
  match s with
  | .free => t = none
  | .movedFrom => t = some Task.empty
  | s => ∃ k a, acc[k]? = some a ∧ t = some ⟨some a.connection, a.listener, some k⟩ ∧ about k tr = afterCreated a.listener k a.params false ++ phase s k

structure Inv (acc : List (Accepted L P)) (st : Nat → Status) (m : Mem L) (tr : List (Ev L P)) : Prop where
  sockets : m.sockets = acc.map (·.connection)
  slots : ∀ i, At acc tr (st i) (m.slots i)
  distinct : ∀ i j t u k, m.slots i = some t → m.slots j = some u → t.socket = some k → u.socket = some k → i = j
  whole : ∀ k a, acc[k]? = some a → Kept m k ∨ Whole a k (about k tr)
  future : ∀ k, acc.length ≤ k → about k tr = []

theorem about_append (k : Nat) (a b : List (Ev L P)) : about k (a ++ b) = about k a ++ about k b := List.filter_append ..

theorem about_same {k : Nat} {evs : List (Ev L P)} (h : ∀ e ∈ evs, e.socket = k) : about k evs = evs := by
  unfold about
  rw [List.filter_eq_self]
  intro e he
  simp [h e he]

theorem about_other {k : Nat} {evs : List (Ev L P)} (h : ∀ e ∈ evs, e.socket ≠ k) : about k evs = [] := by
  unfold about
  rw [List.filter_eq_nil_iff]
  intro e he
  simpa using h e he

theorem afterCreated_socket {l : Option L} {k : Nat} {p : P} {b : Bool} : ∀ e ∈ afterCreated l k p b, e.socket = k := by
  cases l <;> simp [afterCreated, Ev.socket]

theorem beforeDestroyed_socket {l : Option L} {k : Nat} : ∀ e ∈ beforeDestroyed (P := P) l k, e.socket = k := by
  cases l <;> simp [beforeDestroyed, Ev.socket]

/-- The task at an address that has one. -/
theorem Inv.task {acc : List (Accepted L P)} {st : Nat → Status} {m : Mem L} {tr : List (Ev L P)} (h : Inv acc st m tr) {i : Nat}
    (hs : st i = .fresh ∨ st i = .running ∨ st i = .ran) :
    ∃ k a, acc[k]? = some a ∧ m.slots i = some ⟨some a.connection, a.listener, some k⟩ ∧
      about k tr = afterCreated a.listener k a.params false ++ phase (st i) k := by
  have := h.slots i
  unfold At at this
  rcases hs with hs | hs | hs <;> rw [hs] at this <;> rw [hs] <;> exact this

theorem Inv.at_of_task {acc : List (Accepted L P)} {s : Status} (hs : s = .fresh ∨ s = .running ∨ s = .ran) {tr : List (Ev L P)} {t : Option (Task L)}
    (h : ∃ k a, acc[k]? = some a ∧ t = some ⟨some a.connection, a.listener, some k⟩ ∧ about k tr = afterCreated a.listener k a.params false ++ phase s k) :
    At acc tr s t := by
  rcases hs with rfl | rfl | rfl <;> exact h

/-- Events about another socket do not matter for an address. -/
theorem at_mono {acc acc' : List (Accepted L P)} {tr evs : List (Ev L P)} {s : Status} {t : Option (Task L)} (h : At acc tr s t)
    (hacc : ∀ (k : Nat) a, acc[k]? = some a → acc'[k]? = some a)
    (hev : ∀ k u, t = some u → u.socket = some k → about k evs = []) : At acc' (tr ++ evs) s t := by
  cases s with
  | free => exact h
  | movedFrom => exact h
  | _ =>
    obtain ⟨k, a, h1, h2, h3⟩ := h
    exact ⟨k, a, hacc k a h1, h2, by rw [about_append, h3, hev k _ h2 rfl, List.append_nil]⟩

/-- No two addresses have the same socket. -/
theorem Inv.other {acc : List (Accepted L P)} {st : Nat → Status} {m : Mem L} {tr : List (Ev L P)} (h : Inv acc st m tr) {slot k : Nat} {t : Task L}
    (h2 : m.slots slot = some t) (ht : t.socket = some k) {i : Nat} (hi : i ≠ slot) {u : Task L} {k' : Nat} (hu : m.slots i = some u)
    (hk : u.socket = some k') : k' ≠ k := by
  rintro rfl
  exact hi (h.distinct i slot u t k' hu h2 hk ht)

/-- `run` begins or ends. -/
theorem phase_inv {acc : List (Accepted L P)} {st : Nat → Status} {m : Mem L} {tr evs : List (Ev L P)} (h : Inv acc st m tr) {slot k : Nat} {a : Accepted L P}
    {s : Status} (h1 : acc[k]? = some a) (h2 : m.slots slot = some ⟨some a.connection, a.listener, some k⟩)
    (hs : s = .fresh ∨ s = .running ∨ s = .ran) (hev : ∀ e ∈ evs, e.socket = k)
    (h3 : about k (tr ++ evs) = afterCreated a.listener k a.params false ++ phase s k) :
    Inv acc (fun i => if i = slot then s else st i) m (tr ++ evs) := by
  have hoth : ∀ k', k' ≠ k → about k' evs = [] := fun k' hk' => about_other (fun e he => by rw [hev e he]; exact fun h => hk' h.symm)
  have hlt := (List.getElem?_eq_some_iff.mp h1).1
  refine ⟨h.sockets, fun i => ?_, h.distinct, fun k' a' hk' => ?_, fun k' hk' => ?_⟩
  · show At acc (tr ++ evs) (if i = slot then s else st i) (m.slots i)
    by_cases hi : i = slot
    · rw [if_pos hi, hi]
      exact Inv.at_of_task hs ⟨k, a, h1, h2, h3⟩
    · rw [if_neg hi]
      exact at_mono (h.slots i) (fun _ _ h => h) (fun k' u hu hk' => hoth k' (h.other h2 rfl hi hu hk'))
  · by_cases hkk : k' = k
    · subst hkk
      exact .inl ⟨slot, _, h2, rfl⟩
    · rw [about_append, hoth k' hkk, List.append_nil]
      exact h.whole k' a' hk'
  · rw [about_append, hoth k' (by omega), List.append_nil]
    exact h.future k' hk'

/-- The task is destroyed. -/
theorem destroy_inv {acc : List (Accepted L P)} {st : Nat → Status} {m : Mem L} {tr : List (Ev L P)} (h : Inv acc st m tr) {slot k : Nat} {a : Accepted L P}
    (h1 : acc[k]? = some a) (h2 : m.slots slot = some ⟨some a.connection, a.listener, some k⟩)
    (h3 : Whole a k (about k (tr ++ beforeDestroyed a.listener k))) :
    Inv acc (fun i => if i = slot then .free else st i) (m.set slot none) (tr ++ beforeDestroyed a.listener k) := by
  have hoth : ∀ k', k' ≠ k → about k' (beforeDestroyed (P := P) a.listener k) = [] := fun k' hk' =>
    about_other (fun e he => by rw [beforeDestroyed_socket e he]; exact fun h => hk' h.symm)
  have hlt := (List.getElem?_eq_some_iff.mp h1).1
  refine ⟨h.sockets, fun i => ?_, fun i j t u k' hi hj ht hu => ?_, fun k' a' hk' => ?_, fun k' hk' => ?_⟩
  · simp only [Mem.set]
    by_cases hi : i = slot
    · rw [if_pos hi, if_pos hi]; rfl
    · rw [if_neg hi, if_neg hi]
      exact at_mono (h.slots i) (fun _ _ h => h) (fun k' u hu hk' => hoth k' (h.other h2 rfl hi hu hk'))
  · simp only [Mem.set] at hi hj
    split at hi
    · cases hi
    · split at hj
      · cases hj
      · exact h.distinct i j t u k' hi hj ht hu
  · by_cases hkk : k' = k
    · subst hkk
      rw [h1] at hk'; injection hk' with hk'
      subst hk'
      exact .inr h3
    · rw [about_append, hoth k' hkk, List.append_nil]
      rcases h.whole k' a' hk' with ⟨i, t, q1, q2⟩ | q
      · refine .inl ⟨i, t, ?_, q2⟩
        simp only [Mem.set]
        rw [if_neg]
        · exact q1
        · rintro rfl
          rw [h2] at q1; injection q1 with q1; rw [← q1] at q2; injection q2 with q2; exact hkk q2.symm
      · exact .inr q
  · rw [about_append, hoth k' (by omega), List.append_nil]
    exact h.future k' hk'

/-- The task is moved. -/
theorem move_inv {acc : List (Accepted L P)} {st : Nat → Status} {m : Mem L} {tr : List (Ev L P)} (h : Inv acc st m tr) {src dst k : Nat} {a : Accepted L P}
    (hs : st src = .fresh) (h1 : acc[k]? = some a) (h2 : m.slots src = some ⟨some a.connection, a.listener, some k⟩)
    (h3 : about k tr = afterCreated a.listener k a.params false ++ phase (st src) k) (hne : src ≠ dst) (hd : ∀ t, m.slots dst = some t → t.socket = none) :
    Inv acc (fun i => if i = src then .movedFrom else if i = dst then .fresh else st i)
      ((m.set dst (some ⟨some a.connection, a.listener, some k⟩)).set src (some Task.empty)) tr := by
  have hslots : ∀ i, ((m.set dst (some ⟨some a.connection, a.listener, some k⟩)).set src (some Task.empty)).slots i =
      if i = src then some Task.empty else if i = dst then some ⟨some a.connection, a.listener, some k⟩ else m.slots i := fun i => rfl
  refine ⟨h.sockets, fun i => ?_, fun i j t u k' hi hj ht hu => ?_, fun k' a' hk' => ?_, h.future⟩
  · rw [hslots]
    by_cases hi : i = src
    · rw [if_pos hi, if_pos hi]; rfl
    · rw [if_neg hi, if_neg hi]
      by_cases hj : i = dst
      · rw [if_pos hj, if_pos hj]
        exact ⟨k, a, h1, rfl, by rw [h3, hs]⟩
      · rw [if_neg hj, if_neg hj]; exact h.slots i
  · rw [hslots] at hi hj
    have key : ∀ i t k', (if i = src then some Task.empty else if i = dst then some ⟨some a.connection, a.listener, some k⟩ else m.slots i) = some t →
        t.socket = some k' → (i = dst ∧ k' = k) ∨ (i ≠ src ∧ i ≠ dst ∧ m.slots i = some t) := by
      intro i t k' hi ht
      split at hi
      · injection hi with hi; rw [← hi] at ht; cases ht
      · rename_i q1
        split at hi
        · rename_i q; injection hi with hi; rw [← hi] at ht; injection ht with ht; exact .inl ⟨q, ht.symm⟩
        · rename_i q2; exact .inr ⟨q1, q2, hi⟩
    rcases key i t k' hi ht with ⟨q1, q2⟩ | ⟨q1, q2, q3⟩ <;> rcases key j u k' hj hu with ⟨r1, r2⟩ | ⟨r1, r2, r3⟩
    · rw [q1, r1]
    · exact absurd (h.distinct j src u _ k' r3 h2 hu (by rw [q2])) r1
    · exact absurd (h.distinct i src t _ k' q3 h2 ht (by rw [r2])) q1
    · exact h.distinct i j t u k' q3 r3 ht hu
  · rcases h.whole k' a' hk' with ⟨i, t, q1, q2⟩ | q
    · left
      by_cases hi : i = src
      · rw [hi, h2] at q1
        injection q1 with q1
        refine ⟨dst, t, ?_, q2⟩
        rw [hslots, if_neg (fun h => hne h.symm), if_pos rfl, q1]
      · refine ⟨i, t, ?_, q2⟩
        rw [hslots, if_neg hi, if_neg]
        · exact q1
        · rintro rfl
          rw [hd t q1] at q2; cases q2
    · exact .inr q

theorem step_inv {acc : List (Accepted L P)} {st st' : Nat → Status} {m : Mem L} {tr : List (Ev L P)} (h : Inv acc st m tr) (o : Op L P)
    (hl : legal st o = some st') :
    ∃ m' evs, step m o = some (m', evs) ∧ Inv (acc ++ accepted m.listener [o]) st' m' (tr ++ evs) ∧
      m'.listener = (match o with | .setListener l => l | _ => m.listener) := by
  cases o with
  | setListener l =>
    simp only [legal, Option.some.injEq] at hl
    subst hl
    refine ⟨_, _, rfl, ?_, rfl⟩
    simp only [accepted, List.append_nil]
    exact ⟨h.sockets, h.slots, h.distinct, h.whole, h.future⟩
  | construct slot c p throws =>
    rw [legal] at hl
    split at hl
    next hfree =>
      simp only [Option.some.injEq] at hl
      have hnone : m.slots slot = none := by have := h.slots slot; rw [hfree] at this; exact this
      have hlen : m.sockets.length = acc.length := by rw [h.sockets, List.length_map]
      simp only [accepted]
      -- the events
      have hev : ∀ b, ∀ e ∈ afterCreated m.listener acc.length p b, e.socket = acc.length := fun b => afterCreated_socket
      have hnew : (acc ++ [⟨m.listener, c, p, throws⟩])[acc.length]? = some ⟨m.listener, c, p, throws⟩ := by simp
      have hold : ∀ (k : Nat) a, acc[k]? = some a → (acc ++ [(⟨m.listener, c, p, throws⟩ : Accepted L P)])[k]? = some a := by
        intro k a hk
        rw [List.getElem?_append_left (List.getElem?_eq_some_iff.mp hk).1]; exact hk
      have hkeep : ∀ i u k, m.slots i = some u → u.socket = some k → k < acc.length := by
        intro i u k hi hu
        have := h.slots i
        rw [hi] at this
        cases hsi : st i <;> rw [hsi] at this
        · cases this
        · injection this with this; rw [this] at hu; cases hu
        all_goals
          obtain ⟨k', a, h1, h2, -⟩ := this
          injection h2 with h2
          rw [h2] at hu
          injection hu with hu
          subst hu
          exact (List.getElem?_eq_some_iff.mp h1).1
      cases throws with
      | true =>
        refine ⟨{ m with sockets := m.sockets ++ [c] }, afterCreated m.listener acc.length p true, ?_, ?_, rfl⟩
        · simp only [step, hnone, hlen, if_true]
          cases m.listener <;> rfl
        · have hst : st' = st := by
            rw [← hl]; funext i
            by_cases hi : i = slot
            · rw [if_pos hi, if_pos rfl, hi, hfree]
            · rw [if_neg hi]
          rw [hst]
          have hother : ∀ k, k ≠ acc.length → about k (afterCreated m.listener acc.length p true) = [] := fun k hk =>
            about_other (fun e he => by rw [hev true e he]; exact fun h => hk h.symm)
          refine ⟨by simp [h.sockets], fun i => ?_, h.distinct, fun k a hk => ?_, fun k hk => ?_⟩
          · exact at_mono (h.slots i) hold (fun k u hu hs => hother k (by have := hkeep i u k hu hs; omega))
          · by_cases hk' : k < acc.length
            · rw [List.getElem?_append_left hk'] at hk
              rcases h.whole k a hk with h1 | h1
              · exact .inl h1
              · right; rw [about_append, hother k (by omega), List.append_nil]; exact h1
            · have : k = acc.length := by
                have := (List.getElem?_eq_some_iff.mp hk).1
                simp at this; omega
              subst this
              rw [hnew] at hk
              injection hk with hk
              right
              rw [about_append, h.future _ (Nat.le_refl _), List.nil_append, about_same (hev true), ← hk]
              cases hli : m.listener with
              | none => have := Whole.notStarted (a := (⟨none, c, p, true⟩ : Accepted L P)) (k := acc.length); exact this
              | some l => exact Whole.threw l rfl rfl
          · rw [about_append, h.future k (by simp at hk; omega), hother k (by simp at hk; omega)]; rfl
      | false =>
        refine ⟨{ m with sockets := m.sockets ++ [c] }.set slot (some ⟨some c, m.listener, some acc.length⟩),
          afterCreated m.listener acc.length p false, ?_, ?_, rfl⟩
        · simp only [step, hnone, hlen]
          cases m.listener <;> rfl
        · have hother : ∀ k, k ≠ acc.length → about k (afterCreated m.listener acc.length p false) = [] := fun k hk =>
            about_other (fun e he => by rw [hev false e he]; exact fun h => hk h.symm)
          have hself : about acc.length (tr ++ afterCreated m.listener acc.length p false) = afterCreated m.listener acc.length p false := by
            rw [about_append, h.future _ (Nat.le_refl _), List.nil_append, about_same (hev false)]
          refine ⟨by simp [Mem.set, h.sockets], fun i => ?_, fun i j t u k hi hj ht hu => ?_, fun k a hk => ?_, fun k hk => ?_⟩
          · rw [← hl]
            simp only [Mem.set]
            by_cases hi : i = slot
            · rw [if_pos hi, if_pos hi, if_neg (by simp)]
              exact ⟨acc.length, _, hnew, rfl, by rw [hself]; simp [phase]⟩
            · rw [if_neg hi, if_neg hi]
              exact at_mono (h.slots i) hold (fun k u hu hs => hother k (by have := hkeep i u k hu hs; omega))
          · simp only [Mem.set] at hi hj
            by_cases h1 : i = slot <;> by_cases h2 : j = slot
            · rw [h1, h2]
            · rw [if_pos h1] at hi; rw [if_neg h2] at hj
              injection hi with hi
              rw [← hi] at ht; injection ht with ht
              have := hkeep j u k hj hu; omega
            · rw [if_neg h1] at hi; rw [if_pos h2] at hj
              injection hj with hj
              rw [← hj] at hu; injection hu with hu
              have := hkeep i t k hi ht; omega
            · rw [if_neg h1] at hi; rw [if_neg h2] at hj
              exact h.distinct i j t u k hi hj ht hu
          · by_cases hk' : k < acc.length
            · rw [List.getElem?_append_left hk'] at hk
              rcases h.whole k a hk with ⟨i, t, h1, h2⟩ | h1
              · refine .inl ⟨i, t, ?_, h2⟩
                simp only [Mem.set]
                rw [if_neg]
                · exact h1
                · rintro rfl; rw [hnone] at h1; cases h1
              · right; rw [about_append, hother k (by omega), List.append_nil]; exact h1
            · have : k = acc.length := by
                have := (List.getElem?_eq_some_iff.mp hk).1
                simp at this; omega
              subst this
              exact .inl ⟨slot, ⟨some c, m.listener, some acc.length⟩, by simp [Mem.set], rfl⟩
          · rw [about_append, h.future k (by simp at hk; omega), hother k (by simp at hk; omega)]; rfl
    next => cases hl
  | moveConstruct src dst =>
    rw [legal] at hl
    split at hl
    next hs =>
      simp only [Option.some.injEq] at hl
      obtain ⟨k, a, h1, h2, h3⟩ := h.task (.inl hs.1)
      have hd : m.slots dst = none := by have := h.slots dst; rw [hs.2] at this; exact this
      have hne : src ≠ dst := by rintro rfl; rw [hs.1] at hs; cases hs.2
      refine ⟨(m.set dst (some ⟨some a.connection, a.listener, some k⟩)).set src (some Task.empty), [], by simp only [step, h2, hd], ?_, rfl⟩
      simp only [accepted, List.append_nil]
      rw [← hl]
      exact move_inv h hs.1 h1 h2 h3 hne (by rw [hd]; nofun)
    next => cases hl
  | moveAssign src dst =>
    rw [legal] at hl
    split at hl
    next hs =>
      simp only [Option.some.injEq] at hl
      obtain ⟨k, a, h1, h2, h3⟩ := h.task (.inl hs.1)
      have hd : m.slots dst = some Task.empty := by have := h.slots dst; rw [hs.2] at this; exact this
      have hne : src ≠ dst := by rintro rfl; rw [hs.1] at hs; cases hs.2
      refine ⟨(m.set dst (some ⟨some a.connection, a.listener, some k⟩)).set src (some Task.empty), [], by simp only [step, h2, hd], ?_, rfl⟩
      simp only [accepted, List.append_nil]
      rw [← hl]
      exact move_inv h hs.1 h1 h2 h3 hne (by rw [hd]; rintro t ⟨⟩; rfl)
    next => cases hl
  | runBegin slot =>
    rw [legal] at hl
    split at hl
    next hs =>
      simp only [Option.some.injEq] at hl
      obtain ⟨k, a, h1, h2, h3⟩ := h.task (.inl hs)
      refine ⟨m, [.listenBegin k], by simp only [step, h2], ?_, rfl⟩
      simp only [accepted, List.append_nil]
      rw [← hl]
      refine phase_inv h h1 h2 (.inr (.inl rfl)) (by simp [Ev.socket]) ?_
      rw [about_append, h3, hs, about_same (by simp [Ev.socket])]
      simp [phase]
    next => cases hl
  | runEnd slot =>
    rw [legal] at hl
    split at hl
    next hs =>
      simp only [Option.some.injEq] at hl
      obtain ⟨k, a, h1, h2, h3⟩ := h.task (.inr (.inl hs))
      refine ⟨m, [.listenEnd k], by simp only [step, h2], ?_, rfl⟩
      simp only [accepted, List.append_nil]
      rw [← hl]
      refine phase_inv h h1 h2 (.inr (.inr rfl)) (by simp [Ev.socket]) ?_
      rw [about_append, h3, hs, about_same (by simp [Ev.socket])]
      simp [phase]
    next => cases hl
  | destroy slot =>
    rw [legal] at hl
    split at hl
    next hs =>
      simp only [Option.some.injEq] at hl
      simp only [accepted, List.append_nil]
      rw [← hl]
      rcases hs with hs | hs | hs
      · obtain ⟨k, a, h1, h2, h3⟩ := h.task (.inl hs)
        refine ⟨m.set slot none, beforeDestroyed a.listener k, ?_, ?_, rfl⟩
        · simp only [step, h2]
          cases a.listener <;> rfl
        · refine destroy_inv h h1 h2 ?_
          rw [about_append, h3, hs, about_same beforeDestroyed_socket]
          simp only [phase, List.append_nil]
          exact Whole.notStarted
      · obtain ⟨k, a, h1, h2, h3⟩ := h.task (.inr (.inr hs))
        refine ⟨m.set slot none, beforeDestroyed a.listener k, ?_, ?_, rfl⟩
        · simp only [step, h2]
          cases a.listener <;> rfl
        · refine destroy_inv h h1 h2 ?_
          rw [about_append, h3, hs, about_same beforeDestroyed_socket]
          simp only [phase]
          exact Whole.listened
      · have h2 : m.slots slot = some Task.empty := by have := h.slots slot; rw [hs] at this; exact this
        refine ⟨m.set slot none, [], by simp only [step, h2]; rfl, ?_, rfl⟩
        rw [List.append_nil]
        refine ⟨h.sockets, fun i => ?_, fun i j t u k hi hj ht hu => ?_, fun k a hk => ?_, h.future⟩
        · simp only [Mem.set]
          by_cases hi : i = slot
          · rw [if_pos hi, if_pos hi]; rfl
          · rw [if_neg hi, if_neg hi]; exact h.slots i
        · simp only [Mem.set] at hi hj
          split at hi
          · cases hi
          · split at hj
            · cases hj
            · exact h.distinct i j t u k hi hj ht hu
        · rcases h.whole k a hk with ⟨i, t, q1, q2⟩ | q
          · refine .inl ⟨i, t, ?_, q2⟩
            simp only [Mem.set]
            rw [if_neg]
            · exact q1
            · rintro rfl
              rw [h2] at q1; injection q1 with q1; rw [← q1] at q2; cases q2
          · exact .inr q
    next => cases hl

theorem inv_init : Inv (L := L) (P := P) [] noObjects Mem.init [] :=
  ⟨rfl, fun _ => rfl, fun _ _ _ _ _ h => (by cases h), fun _ _ h => (by simp at h), fun _ _ => rfl⟩

theorem run_inv {acc : List (Accepted L P)} {st st' : Nat → Status} {m : Mem L} {tr : List (Ev L P)} (h : Inv acc st m tr) (os : List (Op L P))
    (hl : legalRun st os = some st') :
    ∃ m' evs, run m os = some (m', evs) ∧ Inv (acc ++ accepted m.listener os) st' m' (tr ++ evs) := by
  induction os generalizing acc st m tr with
  | nil =>
    simp only [legalRun, Option.some.injEq] at hl
    subst hl
    refine ⟨m, [], rfl, ?_⟩
    simpa [accepted] using h
  | cons o os ih =>
    rw [legalRun] at hl
    cases ho : legal st o with
    | none => rw [ho] at hl; cases hl
    | some st1 =>
      rw [ho] at hl
      obtain ⟨m1, ev1, e1, h1, hlis⟩ := step_inv h o ho
      obtain ⟨m2, ev2, e2, h2⟩ := ih h1 hl
      refine ⟨m2, ev1 ++ ev2, by rw [run, e1]; simp only []; rw [e2], ?_⟩
      rw [← List.append_assoc]
      have : acc ++ accepted m.listener (o :: os) = acc ++ accepted m.listener [o] ++ accepted m1.listener os := by
        rw [hlis]
        cases o <;> simp [accepted]
      rw [this]
      exact h2

/-! ## C40 -/

/-- **C40.** Whatever the standard library does with the tasks (`legalRun`), for any number of connections, in any interleaving, and with the handler's
listener replaced at any time: nothing undefined happens; one socket is made per connection, on that connection; and at every moment every socket is
either still kept by a task, or its history is whole: `onAfterCreate` and `onBeforeDestroy` once each (of the listener that was installed when the
connection was accepted), with the whole of `listen()` in between if the thread was started (`Whole`). -/
theorem C40_paired (os : List (Op L P)) {st : Nat → Status} (hl : legalRun noObjects os = some st) :
    ∃ m tr, run (Mem.init (L := L)) os = some (m, tr) ∧ m.sockets = (accepted none os).map (·.connection) ∧
      ∀ k a, (accepted none os)[k]? = some a → Kept m k ∨ Whole a k (about k tr) := by
  obtain ⟨m, tr, h1, h2⟩ := run_inv inv_init os hl
  rw [List.nil_append, List.nil_append] at h2
  exact ⟨m, tr, h1, h2.sockets, h2.whole⟩

/-- **C40.** When all objects have been destroyed, every history is whole. -/
theorem C40_all_destroyed (os : List (Op L P)) {st : Nat → Status} (hl : legalRun noObjects os = some st) (hd : ∀ i, st i = .free ∨ st i = .movedFrom) :
    ∃ m tr, run (Mem.init (L := L)) os = some (m, tr) ∧ ∀ k a, (accepted none os)[k]? = some a → Whole a k (about k tr) := by
  obtain ⟨m, tr, h1, h2⟩ := run_inv inv_init os hl
  rw [List.nil_append, List.nil_append] at h2
  refine ⟨m, tr, h1, fun k a hk => ?_⟩
  rcases h2.whole k a hk with ⟨i, t, q1, q2⟩ | q
  · have := h2.slots i
    rw [q1] at this
    rcases hd i with hi | hi <;> rw [hi] at this
    · cases this
    · injection this with this; rw [this] at q2; cases q2
  · exact q

/-- **C40.** As long as a task keeps the socket, `onBeforeDestroy` has not been called, and `onAfterCreate` has (if there is a listener): so the socket given
to either is alive, and whoever has the reference from `onAfterCreate` may use it until `onBeforeDestroy` returns. -/
theorem C40_alive (os : List (Op L P)) {st : Nat → Status} (hl : legalRun noObjects os = some st) :
    ∃ m tr, run (Mem.init (L := L)) os = some (m, tr) ∧ ∀ k, Kept m k → ∃ a, (accepted none os)[k]? = some a ∧
      (about k tr = afterCreated a.listener k a.params false ∨ about k tr = afterCreated a.listener k a.params false ++ [.listenBegin k] ∨
        about k tr = afterCreated a.listener k a.params false ++ [.listenBegin k, .listenEnd k]) := by
  obtain ⟨m, tr, h1, h2⟩ := run_inv inv_init os hl
  rw [List.nil_append, List.nil_append] at h2
  refine ⟨m, tr, h1, ?_⟩
  rintro k ⟨i, t, q1, q2⟩
  have := h2.slots i
  rw [q1] at this
  cases hs : st i <;> rw [hs] at this
  · cases this
  · injection this with this; rw [this] at q2; cases q2
  all_goals
    obtain ⟨k', a, r1, r2, r3⟩ := this
    injection r2 with r2
    rw [r2] at q2
    injection q2 with q2
    subst q2
    refine ⟨a, r1, ?_⟩
    rw [r3]
    simp [phase]

/-! ## `handleConnection` -/

/-- The moves of `std::thread`: from address `base` to `base + 1`, ..., `base + n`. -/
def moves (base : Nat) : Nat → List (Op L P)
  | 0 => []
  | n + 1 => .moveConstruct base (base + 1) :: moves (base + 1) n

/-- One connection: the task is made at 0 and moved `n` times; the objects that were moved from are destroyed; the thread runs; the task is destroyed. -/
def handleConnection (c : Nat) (p : P) (n : Nat) : List (Op L P) :=
  [.construct 0 c p false] ++ moves 0 n ++ (List.range n).map .destroy ++ [.runBegin n, .runEnd n, .destroy n]

/-- The same, but the thread cannot be started. -/
def handleConnectionNoThread (c : Nat) (p : P) (n : Nat) : List (Op L P) :=
  [.construct 0 c p false] ++ moves 0 n ++ (List.range (n + 1)).map .destroy

theorem legalRun_append (st : Nat → Status) (a b : List (Op L P)) : legalRun st (a ++ b) = (legalRun st a).bind fun st' => legalRun st' b := by
  induction a generalizing st with
  | nil => rfl
  | cons o a ih =>
    rw [List.cons_append, legalRun, legalRun]
    cases legal st o with
    | none => rfl
    | some st' => exact ih st'

theorem moves_legal (base n : Nat) (st : Nat → Status) (hs : st base = .fresh) (hf : ∀ i, base < i → st i = .free) :
    legalRun st (moves (L := L) (P := P) base n) =
      some fun i => if i < base then st i else if i < base + n then .movedFrom else if i = base + n then .fresh else .free := by
  induction n generalizing base st with
  | zero =>
    rw [moves, legalRun]
    congr 1
    funext i
    by_cases h1 : i < base
    · rw [if_pos h1]
    · rw [if_neg h1, if_neg (by omega)]
      by_cases h2 : i = base + 0
      · rw [if_pos h2, h2]; exact hs
      · rw [if_neg h2, hf i (by omega)]
  | succ n ih =>
    rw [moves, legalRun, legal, if_pos ⟨hs, hf _ (by omega)⟩]
    simp only []
    rw [ih (base + 1) _ (by rw [if_neg (by omega), if_pos rfl]) (fun i hi => by rw [if_neg (by omega), if_neg (by omega)]; exact hf i (by omega))]
    congr 1
    funext i
    by_cases h1 : i < base
    · rw [if_pos (by omega), if_pos h1, if_neg (by omega), if_neg (by omega)]
    · rw [if_neg h1]
      by_cases h2 : i = base
      · rw [if_pos (by omega), if_pos h2, if_pos (by omega)]
      · rw [if_neg (by omega)]
        have e : base + 1 + n = base + (n + 1) := by omega
        rw [e]

theorem destroys_legal (n : Nat) (st : Nat → Status) (hs : ∀ i < n, st i = .movedFrom ∨ st i = .fresh) :
    legalRun st ((List.range n).map (Op.destroy (L := L) (P := P))) = some fun i => if i < n then .free else st i := by
  induction n with
  | zero => simp [legalRun]
  | succ n ih =>
    rw [List.range_succ, List.map_append, legalRun_append, ih (fun i hi => hs i (by omega))]
    simp only [Option.bind_some, List.map_cons, List.map_nil, legalRun, legal]
    rw [if_pos (by rw [if_neg (by omega)]; rcases hs n (by omega) with h | h <;> simp [h])]
    simp only [Option.some.injEq]
    funext i
    by_cases h : i = n
    · rw [if_pos h, if_pos (by omega)]
    · rw [if_neg h]
      by_cases h' : i < n
      · rw [if_pos h', if_pos (by omega)]
      · rw [if_neg h', if_neg (by omega)]

/-- **C40.** What `handleConnection` does is legal, and ends with all objects destroyed, however often the task is moved. -/
theorem C40_handleConnection_legal (c : Nat) (p : P) (n : Nat) :
    (legalRun (L := L) noObjects (handleConnection c p n) = some noObjects) ∧
    (legalRun (L := L) noObjects (handleConnectionNoThread c p n) = some noObjects) := by
  have h1 : legalRun noObjects [Op.construct (L := L) 0 c p false] = some fun i => if i = 0 then .fresh else .free := by
    simp [legalRun, legal, noObjects]
  have h2 := moves_legal (L := L) (P := P) 0 n (fun i => if i = 0 then Status.fresh else .free) rfl (fun i hi => if_neg (by omega))
  constructor
  · unfold handleConnection
    rw [legalRun_append, legalRun_append, legalRun_append, h1]
    simp only [Option.bind_some]
    rw [h2]
    simp only [Option.bind_some]
    rw [destroys_legal n _ (fun i hi => by left; rw [if_neg (by omega), if_pos (by omega)])]
    simp only [Option.bind_some, legalRun, legal]
    rw [if_pos (by simp)]
    simp only [if_true, true_or, or_true, Option.some.injEq, noObjects]
    funext i
    by_cases h : i = n
    · simp [h, noObjects]
    · simp only [if_neg h, Nat.not_lt_zero, if_false, Nat.zero_add, ite_self]
      split
      · rfl
      · rfl
  · unfold handleConnectionNoThread
    rw [legalRun_append, legalRun_append, h1]
    simp only [Option.bind_some]
    rw [h2]
    simp only [Option.bind_some]
    rw [destroys_legal (n + 1) _ (fun i hi => by
      by_cases h : i < n
      · left; rw [if_neg (by omega), if_pos (by omega)]
      · right; rw [if_neg (by omega), if_neg (by omega), if_pos (by omega)])]
    simp only [noObjects, Option.some.injEq]
    funext i
    split
    · rfl
    · rw [if_neg (by omega), if_neg (by omega), if_neg (by omega)]; rfl

/-- Two connections, interleaved, the first one's listener 7 replaced by 8 before the second one arrives; the second one's thread cannot be started. -/
def sample : List (Op Nat String) := [.setListener (some 7), .construct 0 100 "a" false, .moveConstruct 0 1, .setListener (some 8),
  .construct 2 200 "b" false, .runBegin 1, .moveConstruct 2 3, .destroy 0, .destroy 3, .runEnd 1, .destroy 2, .destroy 1]

example : (legalRun noObjects sample).isSome = true ∧ (run Mem.init sample).map Prod.snd =
    some [.afterCreate 7 0 "a" false, .afterCreate 8 1 "b" false, .listenBegin 0, .beforeDestroy 8 1, .listenEnd 0, .beforeDestroy 7 0] := ⟨rfl, rfl⟩

/-- A listener whose `onAfterCreate` throws. -/
example : (run Mem.init [.setListener (some 7), .construct 0 100 "a" true] : Option (Mem Nat × List (Ev Nat String))).map Prod.snd
    = some [.afterCreate 7 0 "a" true] := rfl

end OatWS.Server
