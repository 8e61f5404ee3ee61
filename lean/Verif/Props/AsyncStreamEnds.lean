import Verif.Props.AsyncStream
import Verif.Props.AsyncLive
/-! # C90: coroutines that write frames themselves wait for nothing but the connection, and come to an end -/

namespace OatWS.Streams
open Async

abbrev Meas := Nat × Nat × Nat × Nat

/-- What the frame can still do without the connection. -/
def Stage.meas : Stage → Nat
  | .start _ pieces => pieces.length + 3
  | .header _ co pieces => pieces.length + 2 + (rank [.writeFrame co]).2
  | .payload _ _ _ pieces => pieces.length + 1

/-- What the task can still do without the connection. -/
def XTask.meas : XTask → Meas
  | .plain (.run t) => (1, (rank t.stack).1, (rank t.stack).2, 0)
  | .plain _ => (0, 0, 0, 0)
  | .streaming s => (1, (weights s.rest).1, (weights s.rest).2, s.stage.meas)

def Meas.Less (x y : Meas) : Prop := (inferInstance : WellFoundedRelation Meas).rel x y

theorem less_alive {y : Meas} {b c d : Nat} {y' : Nat × Nat × Nat} (h : y = (1, y')) : Meas.Less (0, b, c, d) y := by
  subst h
  exact Prod.Lex.left _ _ Nat.one_pos

theorem less_rank {x y : Rank} (n m : Nat) (h : Rank.Less x y) : Meas.Less (1, x.1, x.2, n) (1, y.1, y.2, m) := by
  refine Prod.Lex.right _ ?_
  rcases h with h | ⟨h1, h2⟩
  · exact Prod.Lex.left _ _ h
  · rw [h1]
    exact Prod.Lex.right _ (Prod.Lex.left _ _ h2)

theorem less_last {x y : Rank} {n m : Nat} (h1 : x.1 ≤ y.1) (h2 : x.2 ≤ y.2) (h : n < m) : Meas.Less (1, x.1, x.2, n) (1, y.1, y.2, m) := by
  refine Prod.Lex.right _ ?_
  rcases Nat.lt_or_ge x.1 y.1 with h3 | h3
  · exact Prod.Lex.left _ _ h3
  rw [Nat.le_antisymm h1 h3]
  refine Prod.Lex.right _ ?_
  rcases Nat.lt_or_ge x.2 y.2 with h4 | h4
  · exact Prod.Lex.left _ _ h4
  rw [Nat.le_antisymm h2 h4]
  exact Prod.Lex.right _ h

theorem less_of_outcome {o : Outcome} {t : Task} (h : o.Less t.stack) : Meas.Less (XTask.plain o).meas (XTask.plain (.run t)).meas := by
  cases o with
  | run t' => exact less_rank 0 0 h
  | blocked => exact h.elim
  | finished => exact less_alive rfl
  | failed e => exact less_alive rfl
  | ub u => exact less_alive rfl

theorem writeInline_shorter {left : List UInt8} {o : OutStream} (h : left ≠ []) : (writeInline left o).1 = .blocked ∨ (writeInline left o).2.sched.length < o.sched.length := by
  obtain ⟨wr, sched⟩ := o
  cases left with
  | nil => exact absurd rfl h
  | cons b bs =>
    cases sched with
    | nil => exact .inl rfl
    | cons io sched =>
      right
      cases io with
      | upTo m =>
        show (if (b :: bs).drop (min (m + 1) (b :: bs).length) = [] then _ else _ : Io (List UInt8) × OutStream).2.sched.length < _
        split <;> exact Nat.lt_succ_self _
      | retry => exact Nat.lt_succ_self _
      | zero => exact Nat.lt_succ_self _
      | broken => exact Nat.lt_succ_self _

theorem writeInline_failed_ne {left : List UInt8} {o out : OutStream} (h : writeInline left o = (.failed, out)) : left ≠ [] := by
  rintro rfl
  cases h

theorem left_setOut {w : World} {out : OutStream} (h : out.sched.length < w.st.sock.out.sched.length) : (w.setOut out).left < w.left := by
  show w.st.inp.sched.length + out.sched.length < w.st.inp.sched.length + w.st.sock.out.sched.length
  omega

theorem writeFrame_error_left {env : Env} {co : WriteFrameCo} {l l' : Local} {w w' : World} {e : AErr} (h : writeFrameStep env co l w = (.error e, l', w')) : w'.left < w.left := by
  have hd := does_writeFrame env co l w
  rcases hd with ⟨-, h1, -⟩ | ⟨hs, -⟩ | ⟨h1, -⟩
  · rw [h] at h1; exact h1
  · exfalso
    obtain ⟨pc, hdr, sc, left⟩ := co
    have hl : ∀ again cont, writeStep left l w again cont = (.error e, l', w') → left ≠ [] ∨ cont = .error e := by
      intro again cont e1
      unfold writeStep at e1
      split at e1 <;> injection e1 with e1 e2
      · cases e1
      · exact .inr e1
      · rename_i e3; exact .inl (writeInline_failed_ne e3)
      · cases e1
    cases pc with
    | act =>
      rcases hl _ _ h with h | h
      · simp [Co.stops, Co.reading, Co.writing, h] at hs
      · cases h
    | writeMessageLen =>
      rcases hl _ _ h with h | h
      · simp [Co.stops, Co.reading, Co.writing, h] at hs
      · cases h
    | writeMask =>
      rcases hl _ _ h with h | h
      · simp [Co.stops, Co.reading, Co.writing, h] at hs
      · cases h
    | onBbWritten =>
      dsimp only [writeFrameStep] at h
      split at h
      · cases h
      · split at h <;> cases h
    | onLenWritten =>
      dsimp only [writeFrameStep] at h
      split at h <;> cases h
  · rw [h] at h1; cases h1

theorem rank_stops_zero {c : Co} {cs : List Co} (h : c.stops = true) : rank (c :: cs) = (0, 0) := by
  show (if c.stops then (0, 0) else weights (c :: cs)) = _
  rw [h]; rfl

theorem rank_goes {c : Co} {cs : List Co} (h : c.stops = false) : rank (c :: cs) = weights (c :: cs) := by
  show (if c.stops then (0, 0) else weights (c :: cs)) = _
  rw [h]; rfl

/-- A step of a frame uses the connection, or comes nearer to its next use. -/
theorem stream_down {env : Env} {s : Stream} {w w' : World} {x : XTask} (h : StreamStep env s w x w') : w'.left < w.left ∨ (w'.left = w.left ∧ Meas.Less x.meas (XTask.streaming s).meas) := by
  obtain ⟨fin, opcode, message, stage, caller, below, loc⟩ := s
  cases h with
  | @begin h0 hh pieces co _ _ e1 e2 =>
    cases e1
    right
    have h := sendFrameHeaderAsync_does env h0 fin opcode pieces.flatten.length w
    rw [show sendFrameHeaderAsync env h0 fin opcode pieces.flatten.length w = _ from e2] at h
    refine ⟨by unfold World.left; rw [h.2.1, h.2.2], less_last (Nat.le_refl _) (Nat.le_refl _) ?_⟩
    show pieces.length + 2 + (rank [.writeFrame co]).2 < pieces.length + 3
    rw [rank_stops_zero h.1]
    exact Nat.lt_succ_self _
  | @header hh pieces co co' l _ _ e1 e2 =>
    cases e1
    rcases does_writeFrame env co loc w with ⟨-, h1, -⟩ | ⟨hs, h1, h2, h3⟩ | ⟨h1, -⟩
    · rw [show writeFrameStep env co loc w = _ from e2] at h1; exact .inl h1
    · rw [show writeFrameStep env co loc w = _ from e2] at h1 h2 h3
      right
      refine ⟨by unfold World.left; rw [show w'.st.inp.sched = _ from h1, show w'.st.sock.out.sched = _ from h2], less_last (Nat.le_refl _) (Nat.le_refl _) ?_⟩
      show pieces.length + 2 + (rank [.writeFrame co']).2 < pieces.length + 2 + (rank [.writeFrame co]).2
      apply Nat.add_lt_add_left
      rw [rank_goes hs]
      rcases h3 with h3 | h3
      · rw [rank_stops_zero h3]
        have := weight_pos (.writeFrame co)
        show 0 < Co.sendWeight (.writeFrame co) + 0
        have hz : Co.recvWeight (.writeFrame co) = 0 := rfl
        omega
      · refine Nat.lt_of_le_of_lt (rank_le _).2 ?_
        rcases h3 with h3 | ⟨-, h3⟩
        · exact absurd h3 (Nat.lt_irrefl 0)
        · exact h3
    · rw [show writeFrameStep env co loc w = _ from e2] at h1; cases h1
  | @headerDone hh pieces co l _ _ e1 e2 =>
    cases e1
    rcases does_writeFrame env co loc w with ⟨-, h1, -⟩ | ⟨hs, h1, h2, -⟩ | ⟨h1, -⟩
    · rw [show writeFrameStep env co loc w = _ from e2] at h1; exact .inl h1
    · rw [show writeFrameStep env co loc w = _ from e2] at h1 h2
      right
      refine ⟨by unfold World.left; rw [show w'.st.inp.sched = _ from h1, show w'.st.sock.out.sched = _ from h2], less_last (Nat.le_refl _) (Nat.le_refl _) ?_⟩
      show pieces.length + 1 < pieces.length + 2 + (rank [.writeFrame co]).2
      omega
    · rw [show writeFrameStep env co loc w = _ from e2] at h1; cases h1
  | @headerFailed hh pieces co e l _ w1 _ o e1 e2 e3 =>
    cases e1
    left
    have : w'.left = w1.left := by
      have := unwind_st e (Stream.rest ⟨fin, opcode, message, .header hh co pieces, caller, below, loc⟩) loc w1
      rw [show unwind e _ loc w1 = _ from e3] at this
      exact left_of_st this
    rw [this]
    exact writeFrame_error_left e2
  | @next hh n piece pieces _ e1 =>
    cases e1
    exact .inr ⟨rfl, less_last (Nat.le_refl _) (Nat.le_refl _) (Nat.lt_succ_self _)⟩
  | @write hh n left left' pieces out _ e1 e2 e3 =>
    left
    refine left_setOut ?_
    rcases writeInline_shorter (o := w.st.sock.out) e2 with h | h
    · rcases e3 with e3 | e3 <;> (rw [e3] at h; cases h)
    · rcases e3 with e3 | e3 <;> (rw [e3] at h; exact h)
  | @writeFailed hh n left pieces out _ _ o e1 e2 e3 =>
    cases e1
    left
    have : w'.left = (w.setOut out).left := by
      have := unwind_st .io (Stream.rest ⟨fin, opcode, message, .payload hh n left pieces, caller, below, loc⟩) loc (w.setOut out)
      rw [show unwind .io _ loc _ = _ from e3] at this
      exact left_of_st this
    rw [this]
    refine left_setOut ?_
    rcases writeInline_shorter (o := w.st.sock.out) (writeInline_failed_ne e2) with h | h
    · rw [e2] at h; cases h
    · rw [e2] at h; exact h
  | @done hh n _ e1 =>
    cases e1
    exact .inr ⟨rfl, less_last (rank_le _).1 (rank_le _).2 (Nat.succ_pos _)⟩

/-- One of the tasks comes nearer. -/
inductive XOneDown : List XTask → List XTask → Prop
  | head {x x' : XTask} {ts : List XTask} : Meas.Less x'.meas x.meas → XOneDown (x' :: ts) (x :: ts)
  | tail {x : XTask} {ts ts' : List XTask} : XOneDown ts' ts → XOneDown (x :: ts') (x :: ts)

theorem xOneDown_acc (ts : List XTask) : Acc XOneDown ts := by
  induction ts with
  | nil => exact ⟨_, fun q h => by cases h⟩
  | cons x ts ih =>
    have hq : Acc (fun a b : XTask => Meas.Less a.meas b.meas) x := InvImage.accessible XTask.meas ((inferInstance : WellFoundedRelation Meas).wf.apply _)
    induction hq generalizing ts with
    | intro q _ ihq =>
      induction ih with
      | intro ts hts iht =>
        refine ⟨_, fun x hx => ?_⟩
        cases hx with
        | head h => exact ihq _ h ts ⟨_, hts⟩
        | tail h => exact iht _ h

theorem xOneDown_set {ts : List XTask} {i : Nat} {x x' : XTask} (h : ts[i]? = some x) (hl : Meas.Less x'.meas x.meas) : XOneDown (ts.set i x') ts := by
  induction ts generalizing i with
  | nil => cases h
  | cons q ts ih =>
    cases i with
    | zero =>
      injection h with h
      subst h
      exact .head hl
    | succ i => exact .tail (ih h)

theorem xstep_down {env : Env} {p q : XPool} {i : Nat} (h : XPool.Step env p i q) : q.world.left < p.world.left ∨ (q.world.left = p.world.left ∧ XOneDown q.tasks p.tasks) := by
  cases h with
  | @plain ts w w' _ t o e1 e2 e3 =>
    have := step_does env t w
    rw [e2] at this
    rcases this with ⟨h1, _⟩ | ⟨h1, h2⟩ | ⟨h1, _⟩
    · exact .inl h1
    · exact .inr ⟨h1, xOneDown_set e1 (less_of_outcome h2)⟩
    · exact absurd h1 e3
  | @choose ts w _ u below l fin opcode h0 pieces catches ops e1 e2 e3 =>
    refine .inr ⟨rfl, xOneDown_set e1 ?_⟩
    refine less_rank (x := weights (.user { u with ops := ops, catching := catches } :: below)) (y := rank (.user u :: below)) _ 0 ?_
    rw [rank_goes (c := .user u) rfl]
    refine .inr ⟨rfl, ?_⟩
    show 2 * ops.length + 1 + (weights below).2 < 2 * u.ops.length + 1 + (weights below).2
    rw [e2, List.length_cons]
    omega
  | @stream ts w w' _ s x e1 e2 =>
    rcases stream_down e2 with h | ⟨h1, h2⟩
    · exact .inl h
    · exact .inr ⟨h1, xOneDown_set e1 h2⟩

theorem xpool_acc (env : Env) (p : XPool) : Acc (fun q p => ∃ i, XPool.Step env p i q) p := by
  suffices ∀ n (p : XPool), p.world.left = n → Acc (fun q p => ∃ i, XPool.Step env p i q) p from this _ p rfl
  intro n
  induction n using Nat.strongRecOn with
  | ind n ihn =>
    suffices ∀ ts, Acc XOneDown ts → ∀ p : XPool, p.tasks = ts → p.world.left = n → Acc (fun q p => ∃ i, XPool.Step env p i q) p from fun p h => this _ (xOneDown_acc _) p rfl h
    intro ts hts
    induction hts with
    | intro ts _ ih =>
      rintro p rfl hn
      refine ⟨_, ?_⟩
      rintro q ⟨i, hq⟩
      rcases xstep_down hq with h | ⟨h1, h2⟩
      · exact ihn _ (by omega) q rfl
      · exact ih _ h2 q rfl (by omega)

/-- **C90** (nothing goes on for ever). As C67: there is no infinite execution (the connection becomes ready finitely often), whatever coroutines write themselves, and in whatever pieces. -/
theorem C90_finite (env : Env) (f : Nat → XPool) : ¬ ∀ n, ∃ i, XPool.Step env (f n) i (f (n + 1)) := by
  intro h
  have go : ∀ p, Acc (fun q p => ∃ i, XPool.Step env p i q) p → ∀ n, p = f n → False := by
    intro p hp
    induction hp with
    | intro p _ ih =>
      rintro n rfl
      exact ih _ (h n) (n + 1) rfl
  exact go _ (xpool_acc env (f 0)) 0 rfl

theorem x_never_blocked {env : Env} {p p' : XPool} (hs : XPool.Steps env p p') (hp : ∀ x ∈ p.tasks, x ≠ .plain .blocked) : ∀ x ∈ p'.tasks, x ≠ .plain .blocked := by
  induction hs with
  | refl => exact hp
  | @tail q r i _ h ih =>
    intro x hx
    cases h with
    | @plain ts w w' _ t o e1 e2 e3 =>
      rcases List.mem_or_eq_of_mem_set hx with hx | rfl
      · exact ih x hx
      · intro e; cases e; exact e3 rfl
    | choose e1 e2 e3 =>
      rcases List.mem_or_eq_of_mem_set hx with hx | rfl
      · exact ih x hx
      · intro e; cases e
    | @stream ts w w' _ s x' e1 e2 =>
      rcases List.mem_or_eq_of_mem_set hx with hx | rfl
      · exact ih x hx
      · intro e
        subst e
        generalize ho : XTask.plain Outcome.blocked = y at e2
        cases e2 with
        | begin => cases ho
        | header => cases ho
        | headerDone => cases ho
        | headerFailed _ _ e3 =>
          cases ho
          exact unwind_not_blocked _ _ _ _ (congrArg Prod.fst e3)
        | next => cases ho
        | write => cases ho
        | writeFailed _ _ e3 =>
          cases ho
          exact unwind_not_blocked _ _ _ _ (congrArg Prod.fst e3)
        | done => cases ho

/-- The task waits for the connection, which will never become ready: an ordinary task, or one in the middle of a frame it writes itself. -/
def XWaits (w : World) (x : XTask) : Prop := (∃ o, x = .plain o ∧ WaitsFor w o) ∨ (∃ s, x = .streaming s ∧ w.st.sock.out.sched = [])

/-- **C90** (no deadlock). As C67: each task has ended, or it can make its next step at once, whatever the others are doing, or it waits for the connection, which will never become ready; also those that are
in the middle of a frame they write themselves. -/
theorem C90_no_deadlock (env : Env) (p p' : XPool) (hp : ∀ x ∈ p.tasks, x ≠ .plain .blocked) (hs : XPool.Steps env p p') (i : Nat) (x : XTask) (hx : p'.tasks[i]? = some x) :
    (∃ o, x = .plain o ∧ Ended o) ∨ (∃ q, XPool.Step env p' i q) ∨ XWaits p'.world x := by
  cases x with
  | streaming s =>
    by_cases hw : p'.world.st.sock.out.sched = []
    · exact .inr (.inr (.inr ⟨s, rfl, hw⟩))
    · exact .inr (.inl (C90_goes_on env p' i s hx hw))
  | plain o =>
    cases o with
    | run t =>
      rcases can_or_waits env p'.world t with ⟨t', o', w', e, he, hb⟩ | h
      · cases e
        exact .inr (.inl ⟨_, .plain hx he hb⟩)
      · exact .inr (.inr (.inl ⟨_, rfl, h⟩))
    | finished => exact .inl ⟨_, rfl, .inl rfl⟩
    | failed e => exact .inl ⟨_, rfl, .inr (.inl ⟨e, rfl⟩)⟩
    | ub u => exact .inl ⟨_, rfl, .inr (.inr ⟨u, rfl⟩)⟩
    | blocked => exact absurd rfl (x_never_blocked hs hp _ (List.mem_of_getElem? hx))

theorem XPool.Steps.trans {env : Env} {p q r : XPool} (h1 : XPool.Steps env p q) (h2 : XPool.Steps env q r) : XPool.Steps env p r := by
  induction h2 with
  | refl => exact h1
  | tail _ h ih => exact .tail ih h

/-- **C90** (everything finishes). As C67: if the executor goes on with the tasks as long as it can, then each task ends or comes to wait for the connection; if that takes bytes all the time, no frame is left
unfinished. -/
theorem C90_finish (env : Env) (p p' : XPool) (hp : ∀ x ∈ p.tasks, x ≠ .plain .blocked) (hs : XPool.Steps env p p') :
    ∃ p'', XPool.Steps env p' p'' ∧ (∀ x ∈ p''.tasks, (∃ o, x = .plain o ∧ Ended o) ∨ XWaits p''.world x) ∧ (p''.world.st.sock.out.sched ≠ [] → ∀ x ∈ p''.tasks, x.Plain) := by
  have ha := xpool_acc env p'
  induction ha with
  | intro p' _ ih =>
    by_cases hc : ∃ p2 i, XPool.Step env p' i p2
    · obtain ⟨p2, i, h2⟩ := hc
      obtain ⟨p3, h3, h4⟩ := ih p2 ⟨i, h2⟩ (.tail hs h2)
      exact ⟨p3, (XPool.Steps.tail .refl h2).trans h3, h4⟩
    · have key : ∀ x ∈ p'.tasks, (∃ o, x = .plain o ∧ Ended o) ∨ XWaits p'.world x := by
        intro x hx
        obtain ⟨i, hi⟩ := List.getElem?_of_mem hx
        rcases C90_no_deadlock env p p' hp hs i x hi with h | ⟨q, h⟩ | h
        · exact .inl h
        · exact absurd ⟨q, i, h⟩ hc
        · exact .inr h
      refine ⟨p', .refl, key, fun hw x hx => ?_⟩
      cases x with
      | plain o => trivial
      | streaming s =>
        rcases key _ hx with ⟨o, e, -⟩ | ⟨o, e, -⟩ | ⟨-, -, h⟩
        · cases e
        · cases e
        · exact hw h

/-- The hypotheses of `C90_no_deadlock` and `C90_finish` are met by an execution in the middle of a frame (`exMidway`), which can go on to one where both tasks have ended or wait. -/
example : (∀ x ∈ exTalker.tasks, x ≠ .plain .blocked) ∧ XPool.Steps Fixture.env exTalker exMidway.2 ∧ streamingNow exMidway.2 = [false, true] ∧
    ∃ p'', XPool.Steps Fixture.env exMidway.2 p'' ∧ ∀ x ∈ p''.tasks, (∃ o, x = .plain o ∧ Ended o) ∨ XWaits p''.world x := by
  have hb : ∀ x ∈ exTalker.tasks, x ≠ .plain .blocked := by
    intro x hx
    simp only [exTalker, List.mem_cons, List.not_mem_nil, or_false] at hx
    rcases hx with rfl | rfl <;> (intro e; cases e)
  have hst : ∀ {p q : XPool} {log : List Entry}, XPool.Logged Fixture.env p log q → XPool.Steps Fixture.env p q := by
    intro p q log h
    induction h with
    | refl => exact .refl
    | tail _ h2 _ _ _ ih => exact .tail ih h2
  have hl : XPool.Logged Fixture.env exTalker exMidway.1 exMidway.2 := xrunA_logged _ .refl
  have hv := exMidway_view
  injection hv with h1 h2
  obtain ⟨p'', h3, h4, -⟩ := C90_finish Fixture.env exTalker exMidway.2 hb (hst hl)
  exact ⟨hb, hst hl, h1, p'', h3, h4⟩

end OatWS.Streams
