import Verif.Proofs.HandleFrame
/-! The listen loop. -/

namespace OatWS
open RFC6455

/-! ### Every frame uses up part of the schedule (any listener) -/

theorem loop_sched (env : Env) (h : Header) (short cap) (sched bytes s p acc) :
    (readPayloadLoop env h short cap sched bytes s p acc).2.inp.sched.length ≤ sched.length := by
  induction sched generalizing bytes s p acc with
  | nil =>
    unfold readPayloadLoop
    split <;> simp
  | cons o sched ih =>
    unfold readPayloadLoop
    split
    · simp only []
      generalize (if s.config.readBufferSize > h.payloadLength - p then h.payloadLength - p
        else s.config.readBufferSize) = want
      split
      · simp
      · split
        · split
          · simp
          · split
            · exact Nat.le_succ_of_le (ih _ _ _ _)
            · split
              · exact Nat.le_succ_of_le (ih _ _ _ _)
              all_goals simp
        · exact Nat.le_succ_of_le (ih _ _ _ _)
        · simp
        · simp
    · simp

/-- The program does not extend the input schedule. -/
def Shrinks {α} (m : P St α) : Prop := ∀ st, (m st).2.inp.sched.length ≤ st.inp.sched.length

theorem Shrinks.pure {α} (a : α) : Shrinks (Pure.pure a : P St α) := fun _ => Nat.le_refl _
theorem Shrinks.fail {α} (e : Err) : Shrinks (P.fail e : P St α) := fun _ => Nat.le_refl _
theorem Shrinks.get : Shrinks (P.get : P St St) := fun _ => Nat.le_refl _

theorem Shrinks.bind {α β} {m : P St α} {f : α → P St β} (h : Shrinks m) (h' : ∀ a, Shrinks (f a)) :
    Shrinks (m >>= f) := by
  intro s
  have h1 := h s
  rw [P.bind_def, P.bind_apply]
  rcases hm : m s with ⟨(a | _ | _ | _), s'⟩ <;> rw [hm] at h1 <;> simp only []
  · exact Nat.le_trans (h' a s') h1
  all_goals exact h1

theorem Shrinks.ite {α} {c : Prop} [Decidable c] {a b : P St α} (ha : Shrinks a) (hb : Shrinks b) :
    Shrinks (if c then a else b) := by
  split
  · exact ha
  · exact hb

theorem Shrinks.lift {α} (m : P Sock α) : Shrinks (liftSock m) := fun _ => Nat.le_refl _

theorem readPayload_shrinks (env h short) : Shrinks (readPayload env h short) := by
  unfold readPayload
  refine .ite (.fail _) (Shrinks.bind Shrinks.get fun st => .ite (.fail _) (Shrinks.bind ?_ fun acc => Shrinks.bind ?_ fun _ => .pure _))
  · intro st; exact loop_sched ..
  · unfold endMarker; exact .ite (.lift _) (.pure _)

theorem handleFrame_shrinks (env h) : Shrinks (handleFrame env h) := by
  unfold handleFrame
  refine .ite (Shrinks.bind Shrinks.get fun st => .ite (.fail _) (Shrinks.bind (readPayload_shrinks env h _) fun _ => .pure _)) ?_
  refine .ite (Shrinks.bind (Shrinks.lift _) fun b => .ite (Shrinks.bind (readPayload_shrinks env h _) fun _ => .pure _) (.fail _)) ?_
  refine .ite (Shrinks.bind (Shrinks.lift _) fun b => .ite (Shrinks.bind (readPayload_shrinks env h _) fun _ => .pure _) (.fail _)) ?_
  refine .ite (Shrinks.bind (readPayload_shrinks env h _) fun _ => .lift _) ?_
  refine .ite (Shrinks.bind (readPayload_shrinks env h _) fun _ => .lift _) ?_
  exact .ite (Shrinks.bind (readPayload_shrinks env h _) fun _ => .lift _) (.fail _)

/-- A frame that was handled used at least one low-level read and at least two bytes. -/
theorem iterateFrame_progress (env : Env) (h : Header) (st : St) {h' st'} (he : iterateFrame env h st = (.ret h', st')) :
    st'.inp.sched.length < st.inp.sched.length := by
  have e : iterateFrame env h st = P.bind (readFrameHeader env h)
      (fun h => P.bind (handleFrame env h) fun _ => Pure.pure h) st := rfl
  rw [e, P.bind_apply] at he
  rcases (readFrameHeader_reads env h st).outcome with ⟨k, hd, h1, sc, hk, e, hp, hh, hs1, hs2, hheal⟩ |
    ⟨k, x, sc, hk, hsl, e, hx, hp, hall⟩
  · rw [e] at he
    simp only [] at he
    have hs := handleFrame_shrinks env h1 (st.read k sc)
    have hk0 : 0 < k := by
      rcases Nat.eq_zero_or_pos k with rfl | h0
      · have := hp []
        simp [parseHdr] at this
      · exact h0
    rw [P.bind_apply] at he
    rcases hr : handleFrame env h1 (st.read k sc) with ⟨(a | _ | _ | _), s'⟩ <;> rw [hr] at he hs
    · have : st' = s' := by injection he with _ h2; exact h2.symm
      rw [this]
      exact Nat.lt_of_le_of_lt hs (hs2 hk0)
    all_goals (injection he with h1 h2; cases h1)
  · rw [e] at he
    rcases hx with ⟨rfl, _⟩ | ⟨er, _, rfl⟩
    · injection he with h1 h2; cases h1
    · injection he with h1 h2; cases h1

/-- The fuel of `listenLoop` is only a proof device: any amount above the number of low-level reads left gives the same
run. -/
theorem listenLoop_fuel (env : Env) (h : Header) (fuel fuel' : Nat) (st : St) (h1 : st.inp.sched.length < fuel)
    (h2 : st.inp.sched.length < fuel') : listenLoop env fuel h st = listenLoop env fuel' h st := by
  induction fuel generalizing h fuel' st with
  | zero => omega
  | succ fuel ih =>
    cases fuel' with
    | zero => omega
    | succ fuel' =>
      unfold listenLoop
      rcases hi : iterateFrame env h st with ⟨(h' | _ | _ | _), st'⟩
      · simp only []
        have := iterateFrame_progress env h st hi
        split
        · exact ih h' fuel' st' (by omega) (by omega)
        · rfl
      all_goals rfl

/-! ### Refinement -/

/-- What is proved of a whole run of the listen loop started in `st`. -/
structure Listened (env : Env) (o : Bool) (B : Nat) (st : St) (k : Nat) (ds : List Delivery) (r : Reason)
    (evs : List Event) (x : Exit Unit) (st' : St) : Prop where
  le : k ≤ st.inp.bytes.length
  bytes : st'.inp.bytes = st.inp.bytes.drop k
  receives : Receives o (st.inp.bytes.take k) ds r
  renders : RendersFor st.sock.listener B evs ds
  sock : SockAdd st.sock evs st'.sock
  ends : EndsLike r x
  stopped : r = .stopped → st'.sock.listening = false
  all : r = .incomplete → Healthy st.inp.bytes.length st.inp.sched → k = st.inp.bytes.length
  noBlock : r = .incomplete → Healthy (st.inp.bytes.length + 1) st.inp.sched → x ≠ .block
  user : r = .interrupted → st.sock.listener.isSome = true ∧ ¬ env.Returns

theorem listenLoop_receives (env : Env) (ht : env.Tame) (B : Nat) (hB : 0 < B) (fuel : Nat) (h : Header) (st : St)
    (hf : st.inp.sched.length < fuel) (hs : st.sock.config.readBufferSize = B) (o : Bool)
    (ho : OpenIs o st.sock.lastOpcode) :
    ∃ k ds r evs x st', listenLoop env fuel h st = (x, st') ∧ Listened env o B st k ds r evs x st' := by
  induction fuel generalizing h st o with
  | zero => omega
  | succ fuel ih =>
    unfold listenLoop
    obtain ⟨k, ds, fe, evs, st', x, g1, g2, g3, g4, g5, g6, g7, g8⟩ := iterateFrame_handles env ht h st B hB hs o ho
    have hprog := fun h' (he : iterateFrame env h st = (.ret h', st')) => iterateFrame_progress env h st he
    rw [g2] at hprog ⊢
    cases fe with
    | next o' =>
      obtain ⟨⟨h', rfl, hop⟩, g9, g10⟩ := g8
      simp only []
      by_cases hl : st'.sock.listening = true
      · rw [if_pos ⟨fun e => hop (congrArg some e), hl⟩]
        obtain ⟨k', ds', r, evs', x, st2, e, hL⟩ := ih h' st' (by have := hprog h' rfl; omega)
          (by rw [g7.config]; exact hs) o' g9
        refine ⟨k + k', ds ++ ds', r, evs ++ evs', x, st2, e, ?_⟩
        have hle := hL.le
        rw [g3, List.length_drop] at hle
        have hsub : st'.inp.bytes.length = st.inp.bytes.length - k := by rw [g3, List.length_drop]
        constructor
        · omega
        · rw [hL.bytes, g3, List.drop_drop]
        · rw [List.take_add, ← g3]; exact Receives.more g5 hL.receives
        · have := hL.renders
          rw [g7.listener] at this
          exact g6.append this
        · exact g7.trans hL.sock
        · exact hL.ends
        · exact hL.stopped
        · intro hr hh
          have := hL.all hr (g10 0 hh)
          omega
        · intro hr hh
          exact hL.noBlock hr (g10 1 hh)
        · intro hr
          have := hL.user hr
          rw [g7.listener] at this
          exact this
      · rw [if_neg (fun e => hl e.2)]
        exact ⟨k, ds, .stopped, evs, .ret (), st', rfl, g1, g3, .stop g5, g6, g7, rfl, fun _ => by simpa using hl,
          nofun, nofun, nofun⟩
    | over r =>
      cases r with
      | closed =>
        obtain ⟨⟨h', rfl, hop⟩, g9⟩ := g8
        have hop' : h'.opcode = OPCODE_CLOSE := by
          rcases hop with hop | hop
          · cases hop
          · injection hop
        simp only []
        rw [if_neg (fun e => e.1 hop')]
        exact ⟨k, ds, .closed, evs, .ret (), st', rfl, g1, g3, .last g5, g6, g7, rfl, nofun,
          nofun, nofun, nofun⟩
      | stopped => exact absurd g8 (by simp [FrameExit])
      | incomplete =>
        obtain ⟨hx, hall⟩ := g8
        rcases hx with ⟨rfl, hnb⟩ | ⟨er, her, rfl⟩
        · exact ⟨k, ds, .incomplete, evs, .block, st', rfl, g1, g3, .last g5, g6, g7, .inl rfl, nofun,
            fun _ => hall, fun _ hh => absurd hh hnb, nofun⟩
        · exact ⟨k, ds, .incomplete, evs, .throw er, st', rfl, g1, g3, .last g5, g6, g7, .inr ⟨er, her, rfl⟩,
            nofun, fun _ => hall, fun _ _ => by simp, nofun⟩
      | badControl =>
        cases g8
        exact ⟨k, ds, .badControl, evs, _, st', rfl, g1, g3, .last g5, g6, g7, rfl, nofun,
          nofun, nofun, nofun⟩
      | badContinuation =>
        cases g8
        exact ⟨k, ds, .badContinuation, evs, _, st', rfl, g1, g3, .last g5, g6, g7, rfl, nofun,
          nofun, nofun, nofun⟩
      | badStart =>
        cases g8
        exact ⟨k, ds, .badStart, evs, _, st', rfl, g1, g3, .last g5, g6, g7, rfl, nofun,
          nofun, nofun, nofun⟩
      | badOpcode =>
        cases g8
        exact ⟨k, ds, .badOpcode, evs, _, st', rfl, g1, g3, .last g5, g6, g7, rfl, nofun,
          nofun, nofun, nofun⟩
      | interrupted =>
        obtain ⟨hx, hl⟩ := g8
        cases x with
        | ret a => exact absurd rfl (hx a)
        | throw er => exact ⟨k, ds, .interrupted, evs, .throw er, st', rfl, g1, g3, .last g5, g6, g7,
            by simp [EndsLike], nofun, nofun, nofun, fun _ => hl⟩
        | block => exact ⟨k, ds, .interrupted, evs, .block, st', rfl, g1, g3, .last g5, g6, g7,
            by simp [EndsLike], nofun, nofun, nofun, fun _ => hl⟩
        | ub u => exact ⟨k, ds, .interrupted, evs, .ub u, st', rfl, g1, g3, .last g5, g6, g7,
            by simp [EndsLike], nofun, nofun, nofun, fun _ => hl⟩

/-- `listen` without its catch clauses. -/
theorem listenBody_receives (env : Env) (ht : env.Tame) (B : Nat) (hB : 0 < B) (h : Header) (st : St)
    (hs : st.sock.config.readBufferSize = B) (o : Bool) (ho : OpenIs o st.sock.lastOpcode) :
    ∃ k ds r evs x st', listenBody env h st = (x, st') ∧
      Listened env o B { st with sock := { st.sock with listening := true } } k ds r evs x st' := by
  exact listenLoop_receives env ht B hB (st.inp.sched.length + 1) h
    { st with sock := { st.sock with listening := true } } (Nat.lt_succ_self _) hs o ho

end OatWS
