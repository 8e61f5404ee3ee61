import Verif.Model.ConnectionIO
import Verif.Props.ThreadedServer
import Verif.Props.AsyncServer
/-! # C64: what the handlers do with a connection; C65: the CPUs of worker threads -/

namespace OatWS.Server

variable {L P O : Type}

theorem lastMode_append (c : Nat) (d : Dir) (a b : List (IoEv L P)) :
    lastMode c d (a ++ b) = match lastMode c d b with | some m => some m | none => lastMode c d a := by
  induction a with
  | nil => cases h : lastMode c d b <;> simp [lastMode, h]
  | cons e a ih =>
    simp only [List.cons_append, lastMode, ih]
    cases lastMode c d b <;> rfl

theorem lastMode_evs (c : Nat) (d : Dir) (evs : List (Ev L P)) : lastMode c d (evs.map IoEv.ev) = none := by
  induction evs with
  | nil => rfl
  | cons e evs ih => simp [lastMode, ih]

theorem ops_append (a b : List (Act O)) : ops (a ++ b) = ops a ++ ops b := by
  induction a with
  | nil => rfl
  | cons x a ih => cases x <;> simp [ops, ih]

/-- Both directions are in the mode. -/
def BothModes (x : IOMode) (tr : List (IoEv L P)) (c : Nat) : Prop := lastMode c .input tr = some x ∧ lastMode c .output tr = some x

theorem BothModes.same {x : IOMode} {tr more : List (IoEv L P)} {c : Nat} (h : BothModes x tr c) (h1 : lastMode c .input more = none)
    (h2 : lastMode c .output more = none) : BothModes x (tr ++ more) c := by
  refine ⟨?_, ?_⟩ <;> rw [lastMode_append]
  · rw [h1]; exact h.1
  · rw [h2]; exact h.2

/-- Switching other connections' modes, or this one's to the same, changes nothing. -/
theorem BothModes.switched {x : IOMode} {tr : List (IoEv L P)} {c : Nat} (c' : Nat) (h : BothModes x tr c ∨ c = c') :
    BothModes x (tr ++ [.mode c' .input x, .mode c' .output x]) c := by
  refine ⟨?_, ?_⟩ <;> rw [lastMode_append] <;> by_cases e : c' = c
  · simp [lastMode, e]
  · rcases h with h | h
    · simp [lastMode, e, h.1]
    · exact absurd h.symm e
  · simp [lastMode, e]
  · rcases h with h | h
    · simp [lastMode, e, h.2]
    · exact absurd h.symm e

/-! ## Threaded server -/

/-- The connections handed over. -/
def connections (os : List (Op L P)) : List Nat := (accepted none os).map (·.connection)

/-- The listener installed after the operations. -/
def listenerAfter (l : Option L) : List (Op L P) → Option L
  | [] => l
  | .setListener l' :: os => listenerAfter l' os
  | _ :: os => listenerAfter l os

theorem accepted_append (l : Option L) (a b : List (Op L P)) : accepted l (a ++ b) = accepted l a ++ accepted (listenerAfter l a) b := by
  induction a generalizing l with
  | nil => rfl
  | cons o a ih => cases o <;> simp [accepted, listenerAfter, ih]

theorem listenerAfter_append (l : Option L) (a b : List (Op L P)) : listenerAfter l (a ++ b) = listenerAfter (listenerAfter l a) b := by
  induction a generalizing l with
  | nil => rfl
  | cons o a ih => cases o <;> simp [listenerAfter, ih]

/-- Every event about a socket so far came when both directions of its connection were in the mode. -/
def Before (x : IOMode) (conn : Nat → Option Nat) (tr : List (IoEv L P)) : Prop :=
  ∀ as e bs, tr = as ++ .ev e :: bs → ∃ c, conn e.socket = some c ∧ BothModes x as c

/-- More events. -/
theorem Before.append {x : IOMode} {conn conn' : Nat → Option Nat} {tr : List (IoEv L P)} (h : Before x conn tr)
    (hc : ∀ k c, conn k = some c → conn' k = some c) (pre : List (IoEv L P)) (hpre : ∀ e, IoEv.ev e ∉ pre) (evs : List (Ev L P))
    (hev : ∀ e ∈ evs, ∃ c, conn' e.socket = some c ∧ BothModes x (tr ++ pre) c) : Before x conn' (tr ++ (pre ++ evs.map .ev)) := by
  intro as e bs he
  rw [← List.append_assoc, List.append_eq_append_iff] at he
  rcases he with ⟨ms, h1, h2⟩ | ⟨ms, h1, h2⟩
  · -- among the new events
    have hm : (IoEv.ev e : IoEv L P) ∈ evs.map IoEv.ev := by rw [h2]; simp
    obtain ⟨e', h3, h4⟩ := List.mem_map.mp hm
    injection h4 with h4
    subst h4
    obtain ⟨c, h5, h6⟩ := hev e' h3
    refine ⟨c, h5, ?_⟩
    rw [h1]
    have : ∀ d, lastMode c d ms = none := by
      intro d
      have := lastMode_evs c d evs
      rw [h2, lastMode_append] at this
      revert this
      cases lastMode c d (.ev e' :: bs) <;> simp
    exact h6.same (this _) (this _)
  · cases ms with
    | nil =>
      -- the first of the new events
      simp only [List.nil_append] at h2
      have hm : (IoEv.ev e : IoEv L P) ∈ evs.map IoEv.ev := by rw [← h2]; simp
      obtain ⟨e', h3, h4⟩ := List.mem_map.mp hm
      injection h4 with h4
      subst h4
      obtain ⟨c, h5, h6⟩ := hev e' h3
      refine ⟨c, h5, ?_⟩
      rw [List.append_nil] at h1
      rw [← h1]
      exact h6
    | cons y ms =>
      -- an old event
      rw [List.cons_append] at h2
      injection h2 with h2 h3
      subst h2
      rw [List.append_eq_append_iff] at h1
      rcases h1 with ⟨ns, h4, h5⟩ | ⟨ns, h4, h5⟩
      · exact absurd (by rw [h5]; simp) (hpre e)
      · cases ns with
        | nil => exact absurd (by rw [← List.nil_append pre, ← h5]; simp) (hpre e)
        | cons z ns =>
          rw [List.cons_append] at h5
          injection h5 with h5 h6
          subst h5
          obtain ⟨c, h7, h8⟩ := h as e ns h4
          exact ⟨c, hc _ _ h7, h8⟩

structure IoInv (done : List (Act (Op L P))) (st : Nat → Status) (m : Mem L) (tr : List (IoEv L P)) : Prop where
  base : ∃ tr0, Inv (accepted none (ops done)) st m tr0
  listener : m.listener = listenerAfter none (ops done)
  modes : ∀ c ∈ connections (ops done), BothModes .blocking tr c
  before : Before .blocking (fun k => (connections (ops done))[k]?) tr

theorem Inv.event {acc : List (Accepted L P)} {st : Nat → Status} {m : Mem L} {tr evs : List (Ev L P)} (h : Inv acc st m (tr ++ evs)) {e : Ev L P} (he : e ∈ evs) :
    e.socket < acc.length := by
  apply Classical.byContradiction
  intro hge
  have : e ∈ about e.socket (tr ++ evs) := by
    unfold about
    rw [List.mem_filter]
    exact ⟨List.mem_append_right _ he, by simp⟩
  rw [h.future _ (by omega)] at this
  cases this

theorem ioStep_inv {done : List (Act (Op L P))} {st st' : Nat → Status} {m : Mem L} {tr : List (IoEv L P)} (h : IoInv done st m tr) (a : Act (Op L P))
    (hl : legalRun st (ops [a]) = some st') (ho : ∀ c d x, a = .outside c d x → c ∉ connections (ops done)) :
    ∃ m' evs, ioStep m a = some (m', evs) ∧ IoInv (done ++ [a]) st' m' (tr ++ evs) := by
  cases a with
  | outside c d x =>
    simp only [ops, legalRun, Option.some.injEq] at hl
    subst hl
    have e0 : ops (done ++ [Act.outside c d x]) = ops done := by rw [ops_append]; simp [ops]
    refine ⟨m, _, rfl, ?_⟩
    have hm : ∀ c' ∈ connections (ops done), ∀ d', lastMode c' d' [(IoEv.mode c d x : IoEv L P)] = none := by
      intro c' hc' d'
      have : c ≠ c' := by rintro rfl; exact ho _ _ _ rfl hc'
      simp [lastMode, this]
    refine ⟨by rw [e0]; exact h.base, by rw [e0]; exact h.listener, ?_, ?_⟩
    · rw [e0]
      exact fun c' hc' => (h.modes c' hc').same (hm c' hc' _) (hm c' hc' _)
    · rw [e0]
      have := h.before.append (fun _ _ h => h) [.mode c d x] (by simp) [] (fun e he => by cases he)
      simpa using this
  | op o =>
    obtain ⟨tr0, hb⟩ := h.base
    simp only [ops, legalRun] at hl
    cases hlo : legal st o with
    | none => rw [hlo] at hl; cases hl
    | some st1 =>
      rw [hlo] at hl
      simp only [Option.some.injEq] at hl
      subst hl
      obtain ⟨m', evs, h1, h2, h3⟩ := step_inv hb o hlo
      have e0 : ops (done ++ [Act.op o]) = ops done ++ [o] := by rw [ops_append]; simp [ops]
      have e1 : accepted none (ops done ++ [o]) = accepted none (ops done) ++ accepted m.listener [o] := by rw [accepted_append, h.listener]
      have e2 : connections (ops done ++ [o]) = connections (ops done) ++ (accepted m.listener [o]).map (·.connection) := by
        rw [connections, e1, List.map_append]; rfl
      -- the modes after the prelude
      have hm : ∀ c ∈ connections (ops done ++ [o]), BothModes .blocking (tr ++ prelude o) c := by
        intro c hc
        rw [e2, List.mem_append] at hc
        cases o with
        | construct slot c' p t =>
          exact BothModes.switched c' (hc.imp (h.modes c) (fun hc => by simpa [accepted] using hc))
        | _ =>
          rcases hc with hc | hc
          · simpa [prelude] using h.modes c hc
          · simp [accepted] at hc
      refine ⟨m', prelude o ++ evs.map .ev, by simp only [ioStep, h1], ?_⟩
      refine ⟨⟨tr0 ++ evs, by rw [e0, e1]; exact h2⟩, ?_, ?_, ?_⟩
      · rw [e0, listenerAfter_append, ← h.listener, h3]
        cases o <;> rfl
      · rw [e0]
        intro c hc
        rw [← List.append_assoc]
        exact (hm c hc).same (lastMode_evs ..) (lastMode_evs ..)
      · rw [e0]
        refine h.before.append (fun k c hk => ?_) (prelude o) (by cases o <;> simp [prelude]) evs (fun e he => ?_)
        · rw [e2, List.getElem?_append_left (List.getElem?_eq_some_iff.mp hk).1]; exact hk
        · have hlt := h2.event he
          rw [← e1] at hlt
          have hlt' : e.socket < (connections (ops done ++ [o])).length := by simpa [connections] using hlt
          exact ⟨_, List.getElem?_eq_getElem hlt', hm _ (List.getElem_mem hlt')⟩

theorem ioRun_inv {done : List (Act (Op L P))} {st st' : Nat → Status} {m : Mem L} {tr : List (IoEv L P)} (h : IoInv done st m tr) (as : List (Act (Op L P)))
    (hl : legalRun st (ops as) = some st') (ho : LeftAlone connections (done ++ as)) :
    ∃ m' evs, ioRun m as = some (m', evs) ∧ IoInv (done ++ as) st' m' (tr ++ evs) := by
  induction as generalizing done st m tr with
  | nil =>
    simp only [ops, legalRun, Option.some.injEq] at hl
    subst hl
    exact ⟨m, [], rfl, by simpa using h⟩
  | cons a as ih =>
    have e : done ++ a :: as = done ++ [a] ++ as := by simp
    have hla : ∃ st1, legalRun st (ops [a]) = some st1 ∧ legalRun st1 (ops as) = some st' := by
      cases a with
      | outside c d x => exact ⟨st, rfl, hl⟩
      | op o =>
        simp only [ops, legalRun] at hl ⊢
        cases hlo : legal st o with
        | none => rw [hlo] at hl; cases hl
        | some st1 => rw [hlo] at hl; exact ⟨st1, rfl, hl⟩
    obtain ⟨st1, hl1, hl2⟩ := hla
    obtain ⟨m1, ev1, h1, h2⟩ := ioStep_inv h a hl1 (by rintro c d x rfl; exact ho done c d x as rfl)
    obtain ⟨m2, ev2, h3, h4⟩ := ih h2 hl2 (by rw [← e]; exact ho)
    refine ⟨m2, ev1 ++ ev2, by rw [ioRun, h1]; simp only []; rw [h3], ?_⟩
    rw [← List.append_assoc, e]
    exact h4

theorem ioInv_init : IoInv (L := L) (P := P) [] noObjects Mem.init [] :=
  ⟨⟨[], inv_init⟩, rfl, fun c h => by simp [connections, ops, accepted] at h, fun as e bs h => by simp at h⟩

/-- **C64**, threaded server, I/O modes. For any number of connections, in any interleaving, whatever modes the connections were in before and whatever others do
to connections they have not (yet) handed over: at every event of a socket (`onAfterCreate`, the beginning and end of `listen()`, `onBeforeDestroy`) both
directions of its connection are in blocking mode; and they stay so. -/
theorem C64_blocking (as : List (Act (Op L P))) {st : Nat → Status} (hl : legalRun noObjects (ops as) = some st) (ho : LeftAlone connections as) :
    ∃ m tr, ioRun (Mem.init (L := L)) as = some (m, tr) ∧
      (∀ before e after, tr = before ++ .ev e :: after → ∃ a, (accepted none (ops as))[e.socket]? = some a ∧
        lastMode a.connection .input before = some .blocking ∧ lastMode a.connection .output before = some .blocking) ∧
      ∀ a ∈ accepted none (ops as), lastMode a.connection .input tr = some .blocking ∧ lastMode a.connection .output tr = some .blocking := by
  obtain ⟨m, tr, h1, h2⟩ := ioRun_inv ioInv_init as hl ho
  rw [List.nil_append] at h2
  refine ⟨m, tr, h1, fun before e after he => ?_, fun a ha => h2.modes _ (List.mem_map_of_mem ha)⟩
  obtain ⟨c, h3, h4⟩ := h2.before before e after he
  simp only [connections, List.getElem?_map, Option.map_eq_some_iff] at h3
  obtain ⟨a, h5, rfl⟩ := h3
  exact ⟨a, h5, h4⟩

/-- **C64**, threaded server, lifetime. The handler's objects keep a connection exactly as long as a socket on it exists; and when all of them have been
destroyed they keep none. -/
theorem C64_kept (os : List (Op L P)) {st : Nat → Status} (hl : legalRun noObjects os = some st) :
    ∃ m tr, run (Mem.init (L := L)) os = some (m, tr) ∧
      (∀ c, m.holds c ↔ ∃ k a, (accepted none os)[k]? = some a ∧ a.connection = c ∧ Kept m k) ∧
      ((∀ i, st i = .free ∨ st i = .movedFrom) → ∀ c, ¬ m.holds c) := by
  obtain ⟨m, tr, h1, h2⟩ := run_inv inv_init os hl
  rw [List.nil_append, List.nil_append] at h2
  have h2 : Inv (accepted none os) st m tr := h2
  have key : ∀ i t, m.slots i = some t → (t.connection = none ∧ t.socket = none) ∨
      ((st i ≠ .free ∧ st i ≠ .movedFrom) ∧ ∃ k a, (accepted none os)[k]? = some a ∧ t.connection = some a.connection ∧ t.socket = some k) := by
    intro i t hi
    have := h2.slots i
    rw [hi] at this
    cases hs : st i <;> rw [hs] at this
    · cases this
    · injection this with this; subst this; exact .inl ⟨rfl, rfl⟩
    all_goals
      obtain ⟨k, a, h3, h4, -⟩ := this
      injection h4 with h4
      subst h4
      exact .inr ⟨⟨nofun, nofun⟩, k, a, h3, rfl, rfl⟩
  have sock : ∀ (k : Nat) (a : Accepted L P), (accepted none os)[k]? = some a → m.sockets[k]? = some a.connection := by
    intro k a h; rw [h2.sockets, List.getElem?_map, h]; rfl
  refine ⟨m, tr, h1, fun c => ⟨?_, ?_⟩, ?_⟩
  · rintro ⟨i, t, hi, ht⟩
    rcases key i t hi with ⟨k1, k2⟩ | ⟨-, k, a, k1, k2, k3⟩
    · rw [k1, k2] at ht; rcases ht with ht | ⟨k, ht, -⟩ <;> cases ht
    · refine ⟨k, a, k1, ?_, i, t, hi, k3⟩
      rcases ht with ht | ⟨k', ht, hc⟩
      · rw [k2] at ht; injection ht
      · rw [k3] at ht; injection ht with ht; subst ht
        rw [sock k a k1] at hc; injection hc
  · rintro ⟨k, a, h3, rfl, i, t, h4, h5⟩
    exact ⟨i, t, h4, .inr ⟨k, h5, sock k a h3⟩⟩
  · rintro hd c ⟨i, t, hi, ht⟩
    rcases key i t hi with ⟨k1, k2⟩ | ⟨⟨k1, k2⟩, -⟩
    · rw [k1, k2] at ht; rcases ht with ht | ⟨k, ht, -⟩ <;> cases ht
    · rcases hd i with h | h
      · exact k1 h
      · exact k2 h

/-! ## An example: two connections, in various modes before, the first handed over while the second is still elsewhere -/

def ioSample : List (Act (Op Nat String)) :=
  [.outside 100 .input .asynchronous, .op (.setListener (some 7)), .op (.construct 0 100 "a" false), .outside 200 .output .asynchronous,
   .op (.moveConstruct 0 1), .op (.runBegin 1), .op (.destroy 0), .op (.construct 2 200 "b" true), .op (.runEnd 1), .op (.destroy 1)]

example : (legalRun noObjects (ops ioSample)).isSome = true ∧ (ioRun Mem.init ioSample).map Prod.snd =
    some [.mode 100 .input .asynchronous, .mode 100 .input .blocking, .mode 100 .output .blocking, .ev (.afterCreate 7 0 "a" false),
      .mode 200 .output .asynchronous, .ev (.listenBegin 0), .mode 200 .input .blocking, .mode 200 .output .blocking, .ev (.afterCreate 7 1 "b" true),
      .ev (.listenEnd 0), .ev (.beforeDestroy 7 0)] := ⟨rfl, rfl⟩

/-- A decidable form of `LeftAlone`. -/
theorem leftAlone_of {handedOver : List O → List Nat} {as : List (Act O)}
    (h : ∀ i, i < as.length → ∀ c d m, as[i]? = some (.outside c d m) → c ∉ handedOver (ops (as.take i))) : LeftAlone handedOver as := by
  rintro before c d m after rfl
  have := h before.length (by simp) c d m (by simp)
  simpa using this

example : LeftAlone connections ioSample := by
  apply leftAlone_of
  intro i hi c d m h
  have hi : i < 10 := hi
  match i with
  | 0 => simp [ops, connections, accepted]
  | 3 => cases h; decide
  | 1 | 2 | 4 | 5 | 6 | 7 | 8 | 9 => cases h

end OatWS.Server

namespace OatWS.AsyncServer
open Server

variable {L P O : Type}

/-! ## Async server -/

/-- The connections handed over. -/
def connections (os : List (Op L P)) : List Nat := (handed none os).map (·.connection)

structure IoInv (done : List (Act (Op L P))) (st : (Nat → Status) × Nat) (m : Mem L P) (tr : List (IoEv L P)) : Prop where
  base : ∃ tr0, Inv (ops done) st m tr0
  modes : ∀ c ∈ connections (ops done), BothModes .asynchronous tr c
  before : Before .asynchronous (fun k => m.sockets[k]?) tr

theorem Inv.event {hs : List (Op L P)} {st : (Nat → Status) × Nat} {m : Mem L P} {tr evs : List (Ev L P)} (h : Inv hs st m (tr ++ evs)) {e : Ev L P} (he : e ∈ evs) :
    ∃ c, m.sockets[e.socket]? = some c ∧ c ∈ connections hs := by
  have hlt : e.socket < (acts hs).length := by
    apply Classical.byContradiction
    intro hge
    have : e ∈ about e.socket (tr ++ evs) := by
      unfold about
      rw [List.mem_filter]
      exact ⟨List.mem_append_right _ he, by simp⟩
    rw [h.nothing_else _ (by omega)] at this
    cases this
  obtain ⟨a, h1, h2, -⟩ := h.life e.socket _ _ (List.getElem?_eq_getElem hlt)
  exact ⟨_, h2, List.mem_map_of_mem (List.mem_of_getElem? h1)⟩

theorem step_sockets {m m' : Mem L P} {o : Op L P} {evs : List (Ev L P)} (h : step m o = some (m', evs)) : ∃ more, m'.sockets = m.sockets ++ more := by
  cases o with
  | setListener l => simp only [step, Option.some.injEq, Prod.mk.injEq] at h; rw [← h.1]; exact ⟨[], by simp⟩
  | handleConnection c p => simp only [step, Option.some.injEq, Prod.mk.injEq] at h; rw [← h.1]; exact ⟨[], by simp [Mem.set]⟩
  | act n t =>
    simp only [step] at h
    split at h
    · cases h
    · split at h <;> split at h <;> simp only [Option.some.injEq, Prod.mk.injEq] at h <;> rw [← h.1] <;> exact ⟨_, rfl⟩
  | listened n =>
    simp only [step] at h
    split at h
    · simp only [Option.some.injEq, Prod.mk.injEq] at h; rw [← h.1]; exact ⟨[], by simp⟩
    · cases h
  | destroy n =>
    simp only [step] at h
    split at h
    · cases h
    · split at h <;> simp only [Option.some.injEq, Prod.mk.injEq] at h <;> rw [← h.1] <;> exact ⟨[], by simp [Mem.set]⟩

theorem ioStep_inv {done : List (Act (Op L P))} {st st' : (Nat → Status) × Nat} {m : Mem L P} {tr : List (IoEv L P)} (h : IoInv done st m tr) (a : Act (Op L P))
    (hl : legalRun st (ops [a]) = some st') (ho : ∀ c d x, a = .outside c d x → c ∉ connections (ops done)) :
    ∃ m' evs, ioStep m a = some (m', evs) ∧ IoInv (done ++ [a]) st' m' (tr ++ evs) := by
  cases a with
  | outside c d x =>
    simp only [ops, legalRun, Option.some.injEq] at hl
    subst hl
    have e0 : ops (done ++ [Act.outside c d x]) = ops done := by rw [ops_append]; simp [ops]
    refine ⟨m, _, rfl, ?_⟩
    have hm : ∀ c' ∈ connections (ops done), ∀ d', lastMode c' d' [(IoEv.mode c d x : IoEv L P)] = none := by
      intro c' hc' d'
      have : c ≠ c' := by rintro rfl; exact ho _ _ _ rfl hc'
      simp [lastMode, this]
    refine ⟨by rw [e0]; exact h.base, ?_, ?_⟩
    · rw [e0]
      exact fun c' hc' => (h.modes c' hc').same (hm c' hc' _) (hm c' hc' _)
    · have := h.before.append (fun _ _ h => h) [.mode c d x] (by simp) [] (fun e he => by cases he)
      simpa using this
  | op o =>
    obtain ⟨tr0, hb⟩ := h.base
    simp only [ops, legalRun] at hl
    cases hlo : legal st o with
    | none => rw [hlo] at hl; cases hl
    | some st1 =>
      rw [hlo] at hl
      simp only [Option.some.injEq] at hl
      subst hl
      obtain ⟨m', evs, h1, h2⟩ := step_inv hb o hlo
      have e0 : ops (done ++ [Act.op o]) = ops done ++ [o] := by rw [ops_append]; simp [ops]
      have e2 : connections (ops done ++ [o]) = connections (ops done) ++ (handed (listenerAfter none (ops done)) [o]).map (·.connection) := by
        rw [connections, handed_append, List.map_append]; rfl
      have hm : ∀ c ∈ connections (ops done ++ [o]), BothModes .asynchronous (tr ++ prelude o) c := by
        intro c hc
        rw [e2, List.mem_append] at hc
        cases o with
        | handleConnection c' p =>
          exact BothModes.switched c' (hc.imp (h.modes c) (fun hc => by simpa [handed] using hc))
        | _ =>
          rcases hc with hc | hc
          · simpa [prelude] using h.modes c hc
          · simp [handed] at hc
      refine ⟨m', prelude o ++ evs.map .ev, by simp only [ioStep, h1], ?_⟩
      refine ⟨⟨tr0 ++ evs, by rw [e0]; exact h2⟩, ?_, ?_⟩
      · rw [e0]
        intro c hc
        rw [← List.append_assoc]
        exact (hm c hc).same (lastMode_evs ..) (lastMode_evs ..)
      · obtain ⟨more, hmore⟩ := step_sockets h1
        refine h.before.append (fun k c hk => ?_) (prelude o) (by cases o <;> simp [prelude]) evs (fun e he => ?_)
        · rw [hmore, List.getElem?_append_left (List.getElem?_eq_some_iff.mp hk).1]; exact hk
        · obtain ⟨c, h5, h6⟩ := h2.event he
          exact ⟨c, h5, hm c h6⟩

theorem ioRun_inv {done : List (Act (Op L P))} {st st' : (Nat → Status) × Nat} {m : Mem L P} {tr : List (IoEv L P)} (h : IoInv done st m tr)
    (as : List (Act (Op L P))) (hl : legalRun st (ops as) = some st') (ho : LeftAlone connections (done ++ as)) :
    ∃ m' evs, ioRun m as = some (m', evs) ∧ IoInv (done ++ as) st' m' (tr ++ evs) := by
  induction as generalizing done st m tr with
  | nil =>
    simp only [ops, legalRun, Option.some.injEq] at hl
    subst hl
    exact ⟨m, [], rfl, by simpa using h⟩
  | cons a as ih =>
    have e : done ++ a :: as = done ++ [a] ++ as := by simp
    have hla : ∃ st1, legalRun st (ops [a]) = some st1 ∧ legalRun st1 (ops as) = some st' := by
      cases a with
      | outside c d x => exact ⟨st, rfl, hl⟩
      | op o =>
        simp only [ops, legalRun] at hl ⊢
        cases hlo : legal st o with
        | none => rw [hlo] at hl; cases hl
        | some st1 => rw [hlo] at hl; exact ⟨st1, rfl, hl⟩
    obtain ⟨st1, hl1, hl2⟩ := hla
    obtain ⟨m1, ev1, h1, h2⟩ := ioStep_inv h a hl1 (by rintro c d x rfl; exact ho done c d x as rfl)
    obtain ⟨m2, ev2, h3, h4⟩ := ih h2 hl2 (by rw [← e]; exact ho)
    refine ⟨m2, ev1 ++ ev2, by rw [ioRun, h1]; simp only []; rw [h3], ?_⟩
    rw [← List.append_assoc, e]
    exact h4

theorem ioInv_init : IoInv (L := L) (P := P) [] (fun _ => .absent, 0) Mem.init [] :=
  ⟨⟨[], inv_init⟩, fun c h => by simp [connections, ops, handed] at h, fun as e bs h => by simp at h⟩

/-- **C64**, async server, I/O modes. As `C64_blocking`: at every event of a socket both directions of its connection are in asynchronous mode, and they stay so; and
they are so from the moment `handleConnection` is called, before the coroutine's first step. -/
theorem C64_asynchronous (as : List (Act (Op L P))) {st : (Nat → Status) × Nat} (hl : legalRun (fun _ => .absent, 0) (ops as) = some st)
    (ho : LeftAlone connections as) :
    ∃ m tr, ioRun (Mem.init (L := L) (P := P)) as = some (m, tr) ∧
      (∀ before e after, tr = before ++ .ev e :: after → ∃ (n : Nat) (t : Bool) (a : Handed L P), (acts (ops as))[e.socket]? = some (n, t) ∧
        (handed none (ops as))[n]? = some a ∧
        lastMode a.connection .input before = some .asynchronous ∧ lastMode a.connection .output before = some .asynchronous) ∧
      ∀ a ∈ handed none (ops as), lastMode a.connection .input tr = some .asynchronous ∧ lastMode a.connection .output tr = some .asynchronous := by
  obtain ⟨m, tr, h1, h2⟩ := ioRun_inv ioInv_init as hl ho
  rw [List.nil_append, List.nil_append] at h2
  refine ⟨m, tr, h1, fun before e after he => ?_, fun a ha => h2.modes _ (List.mem_map_of_mem ha)⟩
  obtain ⟨c, h3, h4⟩ := h2.before before e after he
  obtain ⟨tr0, hb⟩ := h2.base
  have hlt := (List.getElem?_eq_some_iff.mp h3).1
  rw [hb.sockets] at hlt
  obtain ⟨a, h5, h6, -⟩ := hb.life e.socket _ _ (List.getElem?_eq_getElem hlt)
  have h3 : m.sockets[e.socket]? = some c := h3
  rw [h6] at h3
  injection h3 with h3
  rw [← h3] at h4
  exact ⟨_, _, a, List.getElem?_eq_getElem hlt, h5, h4⟩

/-- A coroutine that is not there (any more) has been destroyed. -/
theorem absent_destroyed (hs os : List (Op L P)) {st st' : (Nat → Status) × Nat} (h : ∀ n, n < st.2 → st.1 n = .absent → destroyed n hs = true)
    (hl : legalRun st os = some st') : ∀ n, n < st'.2 → st'.1 n = .absent → destroyed n (hs ++ os) = true := by
  induction os generalizing hs st with
  | nil =>
    simp only [legalRun, Option.some.injEq] at hl
    subst hl
    simpa using h
  | cons o os ih =>
    rw [legalRun] at hl
    cases hlo : legal st o with
    | none => rw [hlo] at hl; cases hl
    | some st1 =>
      rw [hlo] at hl
      have e : hs ++ o :: os = hs ++ [o] ++ os := by simp
      rw [e]
      refine ih (hs ++ [o]) ?_ hl
      intro n hn ha
      rw [destroyed_append, Bool.or_eq_true]
      cases o with
      | setListener l => simp only [legal, Option.some.injEq] at hlo; subst hlo; exact .inl (h n hn ha)
      | handleConnection c p =>
        simp only [legal, Option.some.injEq] at hlo
        subst hlo
        dsimp only at hn ha
        split at ha
        · cases ha
        · exact .inl (h n (by omega) ha)
      | act i t =>
        simp only [legal] at hlo
        split at hlo
        · simp only [Option.some.injEq] at hlo
          subst hlo
          dsimp only at hn ha
          split at ha
          · cases t <;> cases ha
          · exact .inl (h n hn ha)
        · cases hlo
      | listened i =>
        simp only [legal] at hlo
        split at hlo
        · simp only [Option.some.injEq] at hlo
          subst hlo
          dsimp only at hn ha
          split at ha
          · cases ha
          · exact .inl (h n hn ha)
        · cases hlo
      | destroy i =>
        simp only [legal] at hlo
        split at hlo
        · simp only [Option.some.injEq] at hlo
          subst hlo
          dsimp only at hn ha
          split at ha
          next hi => right; simp [destroyed, hi]
          · exact .inl (h n hn ha)
        · cases hlo

/-- **C64**, async server, lifetime. The handler's objects keep a connection exactly as long as a coroutine it was handed over for has not been destroyed. -/
theorem C64_kept_async (os : List (Op L P)) {st : (Nat → Status) × Nat} (hl : legalRun (fun _ => .absent, 0) os = some st) :
    ∃ m tr, run (Mem.init (L := L) (P := P)) os = some (m, tr) ∧
      ∀ c, m.holds c ↔ ∃ (n : Nat) (a : Handed L P), (handed none os)[n]? = some a ∧ a.connection = c ∧ destroyed n os = false := by
  obtain ⟨m, tr, h1, h2⟩ := run_inv inv_init os hl
  rw [List.nil_append, List.nil_append] at h2
  have habs := absent_destroyed [] os (by simp) hl
  rw [List.nil_append] at habs
  refine ⟨m, tr, h1, fun c => ⟨?_, ?_⟩⟩
  · rintro ⟨n, t, hn, ht⟩
    have hat := h2.status n
    rw [hn] at hat
    cases hs : st.1 n <;> rw [hs] at hat
    · cases hat
    · obtain ⟨a, h3, h4, -, -, h5⟩ := hat
      injection h4 with h4
      subst h4
      rcases ht with ht | ⟨k, ht, -⟩
      · exact ⟨n, a, h3, ht, h5⟩
      · cases ht
    · obtain ⟨a, k, h3, h4, h6, -, h5⟩ := hat
      injection h4 with h4
      subst h4
      rcases ht with ht | ⟨k', ht, hc⟩
      · exact ⟨n, a, h3, ht, h5⟩
      · injection ht with ht
        subst ht
        obtain ⟨a', h7, h8, -⟩ := h2.life _ _ _ h6
        rw [h3] at h7
        injection h7 with h7
        subst h7
        rw [h8] at hc
        injection hc with hc
        exact ⟨n, a, h3, hc, h5⟩
    · obtain ⟨a, k, t, h3, h4, h6, h5⟩ := hat
      injection h4 with h4
      subst h4
      rcases ht with ht | ⟨k', ht, hc⟩
      · exact ⟨n, a, h3, ht, h5⟩
      · injection ht with ht
        subst ht
        obtain ⟨a', h7, h8, -⟩ := h2.life _ _ _ h6
        rw [h3] at h7
        injection h7 with h7
        subst h7
        rw [h8] at hc
        injection hc with hc
        exact ⟨n, a, h3, hc, h5⟩
  · rintro ⟨n, a, h3, rfl, h4⟩
    have hlt : n < st.2 := by rw [← h2.handed_count]; exact (List.getElem?_eq_some_iff.mp h3).1
    have hat := h2.status n
    cases hs : st.1 n <;> rw [hs] at hat
    · rw [habs n hlt hs] at h4; cases h4
    · obtain ⟨a', h5, h6, -⟩ := hat
      rw [h3] at h5; injection h5 with h5; subst h5
      exact ⟨n, _, h6, .inl rfl⟩
    · obtain ⟨a', k, h5, h6, -⟩ := hat
      rw [h3] at h5; injection h5 with h5; subst h5
      exact ⟨n, _, h6, .inl rfl⟩
    · obtain ⟨a', k, t, h5, h6, -⟩ := hat
      rw [h3] at h5; injection h5 with h5; subst h5
      exact ⟨n, _, h6, .inl rfl⟩

def ioSample : List (Act (Op Nat String)) :=
  [.outside 100 .input .blocking, .op (.setListener (some 7)), .op (.handleConnection 100 "a"), .outside 200 .output .blocking, .op (.act 0 false),
   .op (.handleConnection 200 "b"), .op (.listened 0), .op (.act 1 true), .op (.destroy 0), .op (.destroy 1)]

example : (legalRun (fun _ => .absent, 0) (ops ioSample)).isSome = true ∧ (ioRun Mem.init ioSample).map Prod.snd =
    some [.mode 100 .input .blocking, .mode 100 .input .asynchronous, .mode 100 .output .asynchronous, .mode 200 .output .blocking,
      .ev (.afterCreate 7 0 "a" false), .ev (.listenBegin 0), .mode 200 .input .asynchronous, .mode 200 .output .asynchronous, .ev (.listenEnd 0),
      .ev (.afterCreate 7 1 "b" true), .ev (.beforeDestroy 7 0), .ev (.beforeDestroy 7 1)] := ⟨rfl, rfl⟩

example : LeftAlone connections ioSample := by
  apply leftAlone_of
  intro i hi c d m h
  have hi : i < 10 := hi
  match i with
  | 0 => simp [ops, connections, handed]
  | 3 => cases h; decide
  | 1 | 2 | 4 | 5 | 6 | 7 | 8 | 9 => cases h

end OatWS.AsyncServer

namespace OatWS.Server

/-! ## C65 -/

/-- **C65.** On a machine with `n ≥ 2` CPUs a worker thread is bound to all of them but the last; on a machine with one CPU, to that one: never to a CPU that is not
there, and never to none. -/
theorem C65_cpus (n : Int) (h : 1 ≤ n) :
    (∀ cpu, (cpuRange n).1 ≤ cpu ∧ cpu ≤ (cpuRange n).2 ↔ 0 ≤ cpu ∧ (cpu < n - 1 ∨ cpu = 0)) := by
  intro cpu
  simp only [cpuRange]
  split <;> omega

/-- **C65**, what is left out: if the number of CPUs is not known (`getHardwareConcurrency()` returns 0) the range asked for is empty: first 0, last -1. -/
theorem C65_unknown : cpuRange 0 = (0, -1) := rfl

example : cpuRange 8 = (0, 6) ∧ cpuRange 2 = (0, 0) ∧ cpuRange 1 = (0, 0) := by decide

end OatWS.Server
