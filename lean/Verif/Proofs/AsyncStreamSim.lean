import Verif.Proofs.AsyncStream
import Verif.Proofs.AsyncProcessAlone
/-!
# A frame that a coroutine writes itself, step by step, and the send it stands for
-/

namespace OatWS.Streams
open Async

/-- Any number of steps of one task, and their record. -/
inductive TSteps (r : Prop) (env : Env) (i : Nat) : Outcome → World → List Entry → Outcome → World → Prop
  | refl {o : Outcome} {w : World} : TSteps r env i o w [] o w
  | head {t : Task} {o o' : Outcome} {w w' w'' : World} {bs : List UInt8} {es : List Entry} : (r → t.ready w = true) → step env t w = (o, w') → o ≠ .blocked →
      w'.st.sock.out.written = w.st.sock.out.written ++ bs → TSteps r env i o w' es o' w'' → TSteps r env i (.run t) w (entryOf env i t w w' bs :: es) o' w''

theorem TSteps.one {r : Prop} {env : Env} {i : Nat} {t : Task} {o : Outcome} {w w' : World} {bs : List UInt8} {es : List Entry} (h1 : r → t.ready w = true) (h2 : step env t w = (o, w'))
    (h3 : o ≠ .blocked) (h4 : w'.st.sock.out.written = w.st.sock.out.written ++ bs) (h5 : [entryOf env i t w w' bs] = es) : TSteps r env i (.run t) w es o w' := by
  subst h5
  exact TSteps.head h1 h2 h3 h4 TSteps.refl

/-- The coroutine of a header, without an unused key. -/
def bare (c : WriteFrameCo) : WriteFrameCo := { c with hdr := butUnused c.hdr }

def bareAct : Act → Act
  | .goto (.writeFrame c) => .goto (.writeFrame (bare c))
  | a => a

theorem butUnused_mask (h : Header) : (butUnused h).hasMask = h.hasMask := by unfold butUnused; split <;> rfl
theorem butUnused_len (h : Header) : (butUnused h).payloadLength = h.payloadLength := by unfold butUnused; split <;> rfl

theorem writeStep_bare (left : List UInt8) (l : Local) (w : World) (f g : List UInt8 → Co) (a b : Act) (hf : ∀ x, bareAct (.goto (f x)) = .goto (g x)) (ha : bareAct a = b) :
    writeStep left l w g b = (bareAct (writeStep left l w f a).1, (writeStep left l w f a).2) := by
  unfold writeStep
  rcases writeInline left w.st.sock.out with ⟨r, o⟩
  cases r <;> simp only [hf, ha] <;> rfl

theorem writeFrameStep_bare (env : Env) (c : WriteFrameCo) (l : Local) (w : World) : writeFrameStep env (bare c) l w = (bareAct (writeFrameStep env c l w).1, (writeFrameStep env c l w).2) := by
  have hh : (bare c).hdr.hasMask = c.hdr.hasMask := butUnused_mask _
  have hl : (bare c).hdr.payloadLength = c.hdr.payloadLength := butUnused_len _
  unfold writeFrameStep
  have hp : (bare c).pc = c.pc := rfl
  rw [hp]
  cases hc : c.pc <;> dsimp only
  · exact writeStep_bare _ _ _ _ _ _ _ (fun _ => rfl) rfl
  · rw [show (bare c).scenario = c.scenario from rfl, hl]
    by_cases h1 : c.scenario = 2
    · rw [if_pos h1, if_pos h1]; rfl
    · rw [if_neg h1, if_neg h1]
      by_cases h2 : c.scenario = 3
      · rw [if_pos h2, if_pos h2]; rfl
      · rw [if_neg h2, if_neg h2]; rfl
  · exact writeStep_bare _ _ _ _ _ _ _ (fun _ => rfl) rfl
  · rw [hh]
    by_cases h1 : c.hdr.hasMask = true
    · rw [if_pos h1, if_pos h1]
      have : butUnused c.hdr = c.hdr := by unfold butUnused; rw [if_pos h1]
      simp only [bareAct, bare, this]
    · rw [if_neg h1, if_neg h1]; rfl
  · exact writeStep_bare _ _ _ _ _ _ _ (fun _ => rfl) rfl

theorem writeStep_loc (left : List UInt8) (l : Local) (w : World) (f : List UInt8 → Co) (a : Act) : (writeStep left l w f a).2.1 = l := by
  unfold writeStep
  rcases writeInline left w.st.sock.out with ⟨r, o⟩
  cases r <;> rfl

theorem writeFrameStep_loc (env : Env) (c : WriteFrameCo) (l : Local) (w : World) : (writeFrameStep env c l w).2.1 = l := by
  unfold writeFrameStep
  split
  · exact writeStep_loc ..
  · split
    · rfl
    · split <;> rfl
  · exact writeStep_loc ..
  · split <;> rfl
  · exact writeStep_loc ..

/-- What a write gives is appended. -/
theorem writeInline_written (left : List UInt8) (o : OutStream) : ∃ bs, (writeInline left o).2.written = o.written ++ bs := by
  unfold writeInline
  split
  · exact ⟨[], by simp⟩
  · exact ⟨[], by simp⟩
  · split
    · dsimp only
      split
      · exact ⟨_, rfl⟩
      · exact ⟨_, rfl⟩
    · exact ⟨[], by simp⟩
    · exact ⟨[], by simp⟩
    · exact ⟨[], by simp⟩

theorem ready_writeFrame (c : WriteFrameCo) (rest : List Co) (l : Local) (w : World) : (⟨.writeFrame c :: rest, l⟩ : Task).ready w = true := rfl
theorem ready_sendFrame (c : SendFrameCo) (rest : List Co) (l : Local) (w : World) : (⟨.sendFrame c :: rest, l⟩ : Task).ready w = true := rfl
theorem ready_user (c : UserCo) (rest : List Co) (l : Local) (w : World) : (⟨.user c :: rest, l⟩ : Task).ready w = true := rfl

theorem ready_sch (t : Task) (w : World) (s : List IoOutcome) : t.ready (w.sch s) = t.ready w := rfl

/-- A step of the coroutine that writes the header, for the task that called `sendOneFrameAsync`. -/
theorem header_sim {env : Env} {co : WriteFrameCo} {l l' : Local} {w w' : World} {a : Act} (h : writeFrameStep env co l w = (a, l', w')) (hb : a ≠ .blocked) (s' : List IoOutcome) :
    l' = l ∧ ∃ s, writeFrameStep env (bare co) l (w.sch s) = (bareAct a, l, w'.sch s') := by
  have hl : l' = l := by have := writeFrameStep_loc env co l w; rw [h] at this; exact this
  subst hl
  have hb' : bareAct a ≠ .blocked := by
    intro e
    cases a with
    | goto c => cases c <;> cases e
    | _ => first | exact hb rfl | cases e
  have h2 : writeFrameStep env (bare co) l' w = (bareAct a, l', w') := by rw [writeFrameStep_bare, h]
  exact ⟨rfl, writeFrameStep_sch env (bare co) l' w h2 hb' s'⟩

theorem pieceBytes_append (h : Header) (n : Nat) (a b : List UInt8) : pieceBytes h n (a ++ b) = pieceBytes h n a ++ pieceBytes h (n + a.length) b := by
  unfold pieceBytes
  split
  · exact xorMask_append ..
  · rfl

theorem pieceBytes_nil (h : Header) (n : Nat) : pieceBytes h n [] = [] := by unfold pieceBytes; split <;> rfl

theorem pieceBytes_butUnused (h : Header) (n : Nat) (a : List UInt8) : pieceBytes (butUnused h) n a = pieceBytes h n a := by
  unfold pieceBytes butUnused
  by_cases hm : h.hasMask = true
  · rw [if_pos hm]
  · rw [if_neg hm, if_neg hm, if_neg hm]

theorem pieceBytes_eq_nil {h : Header} {n : Nat} {a : List UInt8} (e : pieceBytes h n a = []) : a = [] := by
  cases a with
  | nil => rfl
  | cons b bs =>
    unfold pieceBytes at e
    split at e
    · simp [xorMask] at e
    · exact e

/-- `sendFrameHeaderAsync` with any header object. -/
theorem sendFrameHeaderAsync_bare {env : Env} {h0 h : Header} {fin : Bool} {opcode : UInt8} {n : Int} {w w' : World} {co : WriteFrameCo}
    (e : sendFrameHeaderAsync env h0 fin opcode n w = (h, .writeFrame co, w')) :
    sendFrameHeaderAsync env default fin opcode n w = (butUnused h, .writeFrame (bare co), w') := by
  unfold sendFrameHeaderAsync at e ⊢
  by_cases hm : w.st.sock.config.maskOutgoingMessages = true
  · simp only [if_pos hm, newWriteFrame, Prod.mk.injEq, Co.writeFrame.injEq] at e ⊢
    obtain ⟨e1, e2, e3⟩ := e
    subst e1 e2
    refine ⟨?_, ?_, e3⟩
    · unfold butUnused; simp only [if_pos hm]
    · unfold bare butUnused; simp only [if_pos hm]
  · simp only [if_neg hm, newWriteFrame, Prod.mk.injEq, Co.writeFrame.injEq] at e ⊢
    obtain ⟨e1, e2, e3⟩ := e
    subst e1 e2
    refine ⟨?_, ?_, e3⟩
    · unfold butUnused; simp only [if_neg hm]
    · unfold bare butUnused; simp only [if_neg hm]; rfl

theorem sendFrameHeaderAsync_written {env : Env} {h0 : Header} {fin : Bool} {opcode : UInt8} {n : Int} {w : World} :
    (sendFrameHeaderAsync env h0 fin opcode n w).2.2.st.sock.out.written = w.st.sock.out.written := by
  unfold sendFrameHeaderAsync
  by_cases hm : w.st.sock.config.maskOutgoingMessages = true
  · simp only [if_pos hm]; rfl
  · simp only [if_neg hm]

/-- A write of a piece, seen as a write of all that is left. -/
theorem writeInline_longer {left left' more : List UInt8} {w : World} {o : OutStream} (hne : left ≠ [])
    (h : writeInline left w.st.sock.out = (.again left', o) ∨ writeInline left w.st.sock.out = (.done left', o)) (s' : List IoOutcome) :
    ∃ s, (left' ++ more ≠ [] → writeInline (left ++ more) (w.sch s).st.sock.out = (.again (left' ++ more), ⟨o.written, s'⟩)) ∧
      (left' ++ more = [] → writeInline (left ++ more) (w.sch s).st.sock.out = (.done [], ⟨o.written, s'⟩)) := by
  cases left with
  | nil => exact absurd rfl hne
  | cons b bs =>
    unfold writeInline at h
    cases hs : w.st.sock.out.sched with
    | nil => rw [hs] at h; rcases h with h | h <;> cases h
    | cons x sched =>
      rw [hs] at h
      cases x with
      | retry =>
        refine ⟨.retry :: s', ?_, ?_⟩
        · intro _
          rcases h with h | h
          · cases h; rfl
          · cases h
        · intro e
          rcases h with h | h
          · cases h; simp at e
          · cases h
      | zero => rcases h with h | h <;> cases h
      | broken => rcases h with h | h <;> cases h
      | upTo m =>
        dsimp only at h
        generalize hk : min (m + 1) (b :: bs).length = k at h
        have hk1 : 1 ≤ k := by rw [← hk, List.length_cons]; omega
        have hk2 : k ≤ (b :: bs).length := by rw [← hk]; exact Nat.min_le_right ..
        have hl : left' = (b :: bs).drop k ∧ o.written = w.st.sock.out.written ++ (b :: bs).take k := by
          by_cases hd : (b :: bs).drop k = []
          · rw [if_pos hd] at h
            rcases h with h | h
            · cases h
            · cases h; exact ⟨hd.symm, rfl⟩
          · rw [if_neg hd] at h
            rcases h with h | h
            · cases h; exact ⟨rfl, rfl⟩
            · cases h
        have hmin : min (k - 1 + 1) (b :: (bs ++ more)).length = k := by
          rw [List.length_cons, List.length_append]; rw [List.length_cons] at hk2; omega
        have hdrop : (b :: (bs ++ more)).drop k = left' ++ more := by
          rw [hl.1, ← List.cons_append, List.drop_append_of_le_length hk2]
        have htake : (b :: (bs ++ more)).take k = (b :: bs).take k := by
          rw [← List.cons_append, List.take_append_of_le_length hk2]
        refine ⟨.upTo (k - 1) :: s', ?_, ?_⟩
        · intro e
          unfold writeInline
          simp only [List.cons_append, sch_sched, sch_written, hmin, hdrop, htake, if_neg e, hl.2]
        · intro e
          unfold writeInline
          simp only [List.cons_append, sch_sched, sch_written, hmin, hdrop, htake, if_pos e, hl.2]

/-- A write that fails. -/
theorem writeInline_fails {left more : List UInt8} {w : World} {o : OutStream} (h : writeInline left w.st.sock.out = (.failed, o)) (s' : List IoOutcome) :
    left ≠ [] ∧ ∃ s, writeInline (left ++ more) (w.sch s).st.sock.out = (.failed, ⟨o.written, s'⟩) := by
  cases left with
  | nil => unfold writeInline at h; cases h
  | cons b bs =>
    refine ⟨by simp, ?_⟩
    unfold writeInline at h
    cases hs : w.st.sock.out.sched with
    | nil => rw [hs] at h; cases h
    | cons x sched =>
      rw [hs] at h
      cases x with
      | upTo m => dsimp only at h; split at h <;> cases h
      | retry => cases h
      | zero => cases h; exact ⟨.zero :: s', rfl⟩
      | broken => cases h; exact ⟨.broken :: s', rfl⟩

theorem unwind_sendFrame (e : AErr) (c : SendFrameCo) (cs : List Co) (l : Local) (w : World) : unwind e (.sendFrame c :: cs) l w = unwind e cs l w := rfl

theorem unwind_not_blocked (e : AErr) (cs : List Co) (l : Local) (w : World) : (unwind e cs l w).1 ≠ .blocked := by
  induction cs generalizing w with
  | nil => intro h; cases h
  | cons c cs ih =>
    cases c with
    | user u =>
      simp only [unwind]
      split
      · intro h; cases h
      · exact ih w
    | _ => simp only [unwind]; exact ih _

theorem unwind_written (e : AErr) (cs : List Co) (l : Local) (w : World) : (unwind e cs l w).2.st.sock.out.written = w.st.sock.out.written := by
  induction cs generalizing w with
  | nil => rfl
  | cons c cs ih =>
    cases c with
    | user u =>
      simp only [unwind]
      split
      · rfl
      · exact ih w
    | _ => simp only [unwind]; rw [ih]; rfl

theorem writeFrameStep_written (env : Env) (c : WriteFrameCo) (l : Local) (w : World) : ∃ bs, (writeFrameStep env c l w).2.2.st.sock.out.written = w.st.sock.out.written ++ bs := by
  have hw : ∀ (left : List UInt8) (f : List UInt8 → Co) (a : Act), ∃ bs, (writeStep left l w f a).2.2.st.sock.out.written = w.st.sock.out.written ++ bs := by
    intro left f a
    obtain ⟨bs, hb⟩ := writeInline_written left w.st.sock.out
    refine ⟨bs, ?_⟩
    unfold writeStep
    rcases hr : writeInline left w.st.sock.out with ⟨r, o⟩
    rw [hr] at hb
    cases r <;> exact hb
  unfold writeFrameStep
  split
  · exact hw ..
  · split
    · exact ⟨[], by simp⟩
    · split <;> exact ⟨[], by simp⟩
  · exact hw ..
  · split <;> exact ⟨[], by simp⟩
  · exact hw ..

theorem step_call {env : Env} {c c' : Co} {cs rest : List Co} {l l' : Local} {w w' : World} (h : coStep env c l w = (.call cs c', l', w')) :
    step env ⟨c :: rest, l⟩ w = (.run ⟨cs ++ c' :: rest, l'⟩, w') := by unfold step; dsimp only; rw [h]
theorem step_goto {env : Env} {c c' : Co} {rest : List Co} {l l' : Local} {w w' : World} (h : coStep env c l w = (.goto c', l', w')) :
    step env ⟨c :: rest, l⟩ w = (.run ⟨c' :: rest, l'⟩, w') := by unfold step; dsimp only; rw [h]
theorem step_finish {env : Env} {c d : Co} {rest : List Co} {l l' : Local} {w w' : World} (h : coStep env c l w = (.finish, l', w')) :
    step env ⟨c :: d :: rest, l⟩ w = (.run ⟨d :: rest, l'⟩, destroy c w') := by unfold step; dsimp only; rw [h]
theorem step_error {env : Env} {c : Co} {e : AErr} {rest : List Co} {l l' : Local} {w w' : World} (h : coStep env c l w = (.error e, l', w')) :
    step env ⟨c :: rest, l⟩ w = unwind e rest l' (destroy c w') := by unfold step; dsimp only; rw [h]

theorem coStep_sendFrame (env : Env) (c : SendFrameCo) (l : Local) (w : World) : coStep env (.sendFrame c) l w = sendFrameStep env c l w := rfl
theorem asSend_streaming (s : Stream) : (XTask.streaming s).asSend = s.asSend := rfl

def isFinish : Act → Bool
  | .finish => true
  | _ => false

def isError : Act → Bool
  | .error _ => true
  | _ => false

theorem entryOf_writeFrame {env : Env} {c : WriteFrameCo} {rest : List Co} {l : Local} {w w' : World} {a : Act} {x : Local × World} (i : Nat) (bs : List UInt8)
    (h : writeFrameStep env c l w = (a, x)) (hr : w'.st.sock.rngPos = w.st.sock.rngPos) : entryOf env i ⟨.writeFrame c :: rest, l⟩ w w' bs = ⟨i, none, bs, none, false, isError a⟩ := by
  have hf : (⟨.writeFrame c :: rest, l⟩ : Task).fails env w = isError a := by
    show (match writeFrameStep env c l w with | (.error _, _) => true | _ => false) = _
    rw [h]; cases a <;> rfl
  unfold entryOf drewAt
  rw [hf, if_pos hr]; rfl

theorem entryOf_sendFrame {env : Env} {c : SendFrameCo} {rest : List Co} {l : Local} {w w' : World} {a : Act} {x : Local × World} (i : Nat) (bs : List UInt8)
    (h : sendFrameStep env c l w = (a, x)) : entryOf env i ⟨.sendFrame c :: rest, l⟩ w w' bs = ⟨i, none, bs, drewAt w.st.sock w'.st.sock, isFinish a, isError a⟩ := by
  have hf : (⟨.sendFrame c :: rest, l⟩ : Task).fails env w = isError a := by
    show (match sendFrameStep env c l w with | (.error _, _) => true | _ => false) = _
    rw [h]; cases a <;> rfl
  have hc : (⟨.sendFrame c :: rest, l⟩ : Task).completes env w = isFinish a := by
    show (match sendFrameStep env c l w with | (.finish, _) => true | _ => false) = _
    rw [h]; cases a <;> rfl
  unfold entryOf
  rw [hf, hc]; rfl

theorem drewAt_same {s s' : Sock} (h : s'.rngPos = s.rngPos) : drewAt s s' = none := by unfold drewAt; rw [if_pos h]

theorem writeFrameStep_rng (env : Env) (c : WriteFrameCo) (l : Local) (w : World) : (writeFrameStep env c l w).2.2.st.sock.rngPos = w.st.sock.rngPos := by
  have hw : ∀ (left : List UInt8) (f : List UInt8 → Co) (a : Act), (writeStep left l w f a).2.2.st.sock.rngPos = w.st.sock.rngPos := by
    intro left f a
    unfold writeStep
    rcases writeInline left w.st.sock.out with ⟨r, o⟩
    cases r <;> rfl
  unfold writeFrameStep
  split
  · exact hw ..
  · split
    · rfl
    · split <;> rfl
  · exact hw ..
  · split <;> rfl
  · exact hw ..

theorem unwind_rng (e : AErr) (cs : List Co) (l : Local) (w : World) : (unwind e cs l w).2.st.sock.rngPos = w.st.sock.rngPos := by
  induction cs generalizing w with
  | nil => rfl
  | cons c cs ih =>
    cases c with
    | user u =>
      simp only [unwind]
      split
      · rfl
      · exact ih w
    | _ => simp only [unwind]; rw [ih]; rfl

/-- One step of a frame written by a coroutine: steps of the send it stands for. -/
theorem stream_sim (r : Prop) (i : Nat) {env : Env} {s : Stream} {w w' : World} {x : XTask} {bs : List UInt8} (h : StreamStep env s w x w') (hc : s.Consistent)
    (hb : w'.st.sock.out.written = w.st.sock.out.written ++ bs) (s' : List IoOutcome) :
    ∃ s0, TSteps r env i s.asSend (w.sch s0) (recordOf env i (.streaming s) x w w' bs) x.asSend (w'.sch s') := by
  obtain ⟨hlen, hst⟩ := hc
  cases h with
  | @begin h0 h pieces co _ _ e1 e2 =>
    rw [e1] at hst
    dsimp only at hst
    have e3 := sendFrameHeaderAsync_bare e2
    have e4 : sendFrameHeaderAsync env default s.fin s.opcode pieces.flatten.length (w.sch s') = (butUnused h, .writeFrame (bare co), w'.sch s') := by
      rw [sendFrameHeaderAsync_sch, e3]
    refine ⟨s', ?_⟩
    rw [asSend_streaming]
    unfold Stream.asSend recordOf
    dsimp only
    rw [e1]
    dsimp only
    rw [hst] at e4
    have e5 : sendFrameStep env { fin := s.fin, opcode := s.opcode, message := some s.message } s.loc (w.sch s') = (.call [.writeFrame (bare co)] (.sendFrame
        { pc := if s.message = [] then .done else .prepareWriteMessage, fin := s.fin, opcode := s.opcode, message := some s.message, hdr := butUnused h }), s.loc, w'.sch s') := by
      cases hm : s.message with
      | nil =>
        rw [hm] at e4
        unfold sendFrameStep
        dsimp only
        rw [show ((0 : Int)) = ((([] : List UInt8).length : Nat) : Int) from rfl]
        erw [e4]
        rfl
      | cons b bs =>
        rw [hm] at e4
        unfold sendFrameStep
        dsimp only
        erw [e4]
        rfl
    exact TSteps.one (fun _ => ready_sendFrame ..) (step_call (cs := [.writeFrame (bare co)]) e5) (fun h => by cases h) hb (by rw [entryOf_sendFrame i bs e5]; rfl)
  | @header h pieces co co' l _ _ e1 e2 =>
    obtain ⟨rfl, s0, e3⟩ := header_sim e2 (fun h => by cases h) s'
    have hr := writeFrameStep_rng env co s.loc w
    rw [e2] at hr
    refine ⟨s0, ?_⟩
    rw [asSend_streaming]
    unfold Stream.asSend recordOf
    dsimp only
    rw [e1]
    dsimp only
    exact TSteps.one (fun _ => ready_writeFrame ..) (step_goto (show writeFrameStep env _ _ _ = _ from e3)) (fun h => by cases h) hb
      (by erw [entryOf_writeFrame (c := bare co) i bs e3 hr]; rfl)
  | @headerDone h pieces co l _ _ e1 e2 =>
    rw [e1] at hst
    dsimp only at hst
    obtain ⟨rfl, s0, e3⟩ := header_sim e2 (fun h => by cases h) s'
    have hr := writeFrameStep_rng env co s.loc w
    rw [e2] at hr
    refine ⟨s0, ?_⟩
    rw [asSend_streaming]
    unfold Stream.asSend recordOf
    dsimp only
    rw [e1]
    dsimp only
    have ht : (Stage.payload h 0 [] pieces).toWrite = pieceBytes (butUnused h) 0 s.message := by
      show [] ++ pieceBytes h 0 pieces.flatten = _
      rw [hst, pieceBytes_butUnused]; rfl
    rw [ht]
    have hen := fun rest => entryOf_writeFrame (c := bare co) (rest := rest) (w' := w'.sch s') i bs e3 hr
    rw [show isError (bareAct .finish) = false from rfl] at hen
    rw [← hen (.sendFrame { pc := if s.message = [] then .done else .prepareWriteMessage, fin := s.fin, opcode := s.opcode, message := some s.message, hdr := butUnused h } :: s.rest)]
    refine TSteps.head (bs := bs) (fun _ => ready_writeFrame ..) (step_finish (show writeFrameStep env _ _ _ = _ from e3)) (fun h => by cases h) hb ?_
    by_cases hm : s.message = []
    · rw [if_pos hm, if_pos (by rw [hm, pieceBytes_nil])]
      refine TSteps.one (fun _ => ready_sendFrame ..) (step_finish (l' := s.loc) (w' := w'.sch s') rfl) (fun h => by cases h) (bs := []) (by simp [destroy]) ?_
      rw [entryOf_sendFrame i [] (a := .finish) (x := (s.loc, w'.sch s')) rfl, drewAt_same rfl]
      simp [hm, isFinish, isError]
    · rw [if_neg hm, if_neg (fun e => hm (pieceBytes_eq_nil e))]
      have e5 : sendFrameStep env { pc := .prepareWriteMessage, fin := s.fin, opcode := s.opcode, message := some s.message, hdr := butUnused h } s.loc (w'.sch s') =
          (.goto (.sendFrame { pc := .writeMessage, fin := s.fin, opcode := s.opcode, message := some s.message, hdr := butUnused h, left := pieceBytes (butUnused h) 0 s.message }),
            s.loc, w'.sch s') := by
        unfold sendFrameStep pieceBytes
        dsimp only [Option.getD_some]
        by_cases hk : (butUnused h).hasMask = true
        · rw [if_pos hk, if_pos hk, if_neg (by omega)]
        · rw [if_neg hk, if_neg hk]
      refine TSteps.one (fun _ => ready_sendFrame ..) (step_goto (l' := s.loc) (w' := w'.sch s') e5) (fun h => by cases h) (bs := []) (by simp [destroy]) ?_
      rw [entryOf_sendFrame i [] e5, drewAt_same rfl]
      simp [hm, isFinish, isError]
  | @headerFailed h pieces co e l _ w1 _ o e1 e2 e3 =>
    obtain ⟨rfl, s0, e4⟩ := header_sim e2 (fun h => by cases h) s'
    have hr := writeFrameStep_rng env co s.loc w
    rw [e2] at hr
    have hr2 := unwind_rng e s.rest s.loc w1
    rw [e3] at hr2
    have hn := unwind_not_blocked e s.rest s.loc w1
    rw [e3] at hn
    refine ⟨s0, ?_⟩
    show TSteps r env i s.asSend _ _ o _
    unfold Stream.asSend recordOf
    dsimp only
    rw [e1]
    dsimp only
    refine TSteps.one (fun _ => ready_writeFrame ..) (w' := w'.sch s') ?_ hn hb (by erw [entryOf_writeFrame (c := bare co) i bs e4 (hr2.trans hr)]; rfl)
    refine (step_error (c := .writeFrame (bare co)) (e := e) (l' := s.loc) (w' := w1.sch s') e4).trans ?_
    show unwind e s.rest s.loc (w1.sch s') = _
    rw [unwind_sch, e3]
  | @next h n piece pieces _ e1 =>
    refine ⟨s', ?_⟩
    rw [asSend_streaming]
    have : s.asSend = Stream.asSend { s with stage := .payload h (n + piece.length) (pieceBytes h n piece) pieces } := by
      unfold Stream.asSend
      rw [e1]
      dsimp only
      have : (Stage.payload h n [] (piece :: pieces)).toWrite = (Stage.payload h (n + piece.length) (pieceBytes h n piece) pieces).toWrite := by
        show [] ++ pieceBytes h n (piece ++ pieces.flatten) = _
        rw [pieceBytes_append]; rfl
      rw [this]
      rfl
    rw [this]
    unfold recordOf
    dsimp only
    rw [e1]
    exact TSteps.refl
  | @write h n left left' pieces out _ e1 e2 e3 =>
    obtain ⟨s0, ha, hd⟩ := writeInline_longer (more := pieceBytes h n pieces.flatten) e2 e3 s'
    refine ⟨s0, ?_⟩
    rw [asSend_streaming]
    unfold Stream.asSend recordOf
    dsimp only
    rw [e1]
    dsimp only
    have ht : (Stage.payload h n left pieces).toWrite = left ++ pieceBytes h n pieces.flatten := rfl
    have ht' : (Stage.payload h n left' pieces).toWrite = left' ++ pieceBytes h n pieces.flatten := rfl
    rw [if_neg (by rw [ht]; simp [e2])]
    obtain ⟨b0, left0, rfl⟩ : ∃ b0 left0, left = b0 :: left0 := by
      cases left with
      | nil => exact absurd rfl e2
      | cons b0 left0 => exact ⟨_, _, rfl⟩
    dsimp only
    by_cases hz : left' ++ pieceBytes h n pieces.flatten = []
    · rw [if_pos (by rw [ht']; exact hz), ht', decide_eq_true hz]
      have e5 : sendFrameStep env { pc := .writeMessage, fin := s.fin, opcode := s.opcode, message := some s.message, hdr := butUnused h, left := (Stage.payload h n (b0 :: left0) pieces).toWrite } s.loc (w.sch s0) = (.finish, s.loc, (w.setOut out).sch s') := by
        unfold sendFrameStep writeStep
        dsimp only
        rw [ht, hd hz]
        rfl
      refine TSteps.one (fun _ => ready_sendFrame ..) (step_finish (l' := s.loc) (w' := (w.setOut out).sch s') e5) (fun h => by cases h) hb ?_
      rw [entryOf_sendFrame i bs e5, drewAt_same (s := (w.sch s0).st.sock) (s' := ((w.setOut out).sch s').st.sock) rfl]; rfl
    · rw [if_neg (by rw [ht']; exact hz), ht', decide_eq_false hz]
      have e5 : sendFrameStep env { pc := .writeMessage, fin := s.fin, opcode := s.opcode, message := some s.message, hdr := butUnused h, left := (Stage.payload h n (b0 :: left0) pieces).toWrite } s.loc (w.sch s0) = (.goto (.sendFrame
            { pc := .writeMessage, fin := s.fin, opcode := s.opcode, message := some s.message, hdr := butUnused h, left := left' ++ pieceBytes h n pieces.flatten }), s.loc, (w.setOut out).sch s') := by
        unfold sendFrameStep writeStep
        dsimp only
        rw [ht, ha hz]
        rfl
      refine TSteps.one (fun _ => ready_sendFrame ..) (step_goto (l' := s.loc) (w' := (w.setOut out).sch s') e5) (fun h => by cases h) hb ?_
      rw [entryOf_sendFrame i bs e5, drewAt_same (s := (w.sch s0).st.sock) (s' := ((w.setOut out).sch s').st.sock) rfl]; rfl
  | @writeFailed h n left pieces out _ _ o e1 e2 e3 =>
    obtain ⟨hne, s0, e4⟩ := writeInline_fails (more := pieceBytes h n pieces.flatten) e2 s'
    have hr := unwind_rng .io s.rest s.loc (w.setOut out)
    rw [e3] at hr
    have hn := unwind_not_blocked .io s.rest s.loc (w.setOut out)
    rw [e3] at hn
    refine ⟨s0, ?_⟩
    show TSteps r env i s.asSend _ _ o _
    unfold Stream.asSend recordOf
    dsimp only
    rw [e1]
    dsimp only
    have ht : (Stage.payload h n left pieces).toWrite = left ++ pieceBytes h n pieces.flatten := rfl
    rw [if_neg (by rw [ht]; simp [hne])]
    obtain ⟨b0, left0, rfl⟩ : ∃ b0 left0, left = b0 :: left0 := by
      cases left with
      | nil => exact absurd rfl hne
      | cons b0 left0 => exact ⟨_, _, rfl⟩
    dsimp only
    have e5 : sendFrameStep env { pc := .writeMessage, fin := s.fin, opcode := s.opcode, message := some s.message, hdr := butUnused h, left := (Stage.payload h n (b0 :: left0) pieces).toWrite } s.loc (w.sch s0) = (.error .io, s.loc, (w.setOut out).sch s') := by
      unfold sendFrameStep writeStep
      dsimp only
      rw [ht, e4]
      rfl
    refine TSteps.one (fun _ => ready_sendFrame ..) (w' := w'.sch s') ?_ hn hb ?_
    · refine (step_error (c := .sendFrame { pc := .writeMessage, fin := s.fin, opcode := s.opcode, message := some s.message, hdr := butUnused h, left := (Stage.payload h n (b0 :: left0) pieces).toWrite }) (e := .io) (l' := s.loc) (w' := (w.setOut out).sch s') e5).trans ?_
      show unwind .io s.rest s.loc ((w.setOut out).sch s') = _
      rw [unwind_sch, e3]
    · rw [entryOf_sendFrame i bs e5, drewAt_same (s := (w.sch s0).st.sock) (s' := (w'.sch s').st.sock) hr]; rfl
  | @done h n _ e1 =>
    refine ⟨s', ?_⟩
    show TSteps r env i s.asSend _ _ (.run ⟨s.rest, s.loc⟩) _
    have : s.asSend = .run ⟨s.rest, s.loc⟩ := by
      unfold Stream.asSend
      rw [e1]
      dsimp only
      rw [if_pos (by show [] ++ pieceBytes h n [] = []; rw [pieceBytes_nil]; rfl)]
    rw [this]
    unfold recordOf
    dsimp only
    rw [e1]
    exact TSteps.refl

/-- All frames being written are consistent. -/
def XTask.Ok : XTask → Prop
  | .plain _ => True
  | .streaming s => s.Consistent

theorem streamStep_ok {env : Env} {s : Stream} {w w' : World} {x : XTask} (h : StreamStep env s w x w') (hc : s.Consistent) : x.Ok := by
  obtain ⟨hlen, hst⟩ := hc
  cases h with
  | «begin» e1 e2 => rw [e1] at hst; exact ⟨hlen, hst⟩
  | header e1 e2 => rw [e1] at hst; exact ⟨hlen, hst⟩
  | headerDone e1 e2 => exact ⟨hlen, trivial⟩
  | headerFailed e1 e2 => trivial
  | next e1 => exact ⟨hlen, trivial⟩
  | write e1 e2 e3 => exact ⟨hlen, trivial⟩
  | writeFailed e1 e2 e3 => trivial
  | done e1 => trivial

theorem step_ok {env : Env} {p p' : XPool} {i : Nat} (h : XPool.Step env p i p') (hp : ∀ x ∈ p.tasks, x.Ok) : ∀ x ∈ p'.tasks, x.Ok := by
  cases h with
  | plain e1 e2 e3 =>
    intro x hx
    rcases List.mem_or_eq_of_mem_set hx with hx | rfl
    · exact hp x hx
    · trivial
  | choose e1 e2 e3 =>
    intro x hx
    rcases List.mem_or_eq_of_mem_set hx with hx | rfl
    · exact hp x hx
    · exact ⟨e3, rfl⟩
  | stream e1 e2 =>
    intro x hx
    rcases List.mem_or_eq_of_mem_set hx with hx | rfl
    · exact hp x hx
    · exact streamStep_ok e2 (hp _ (List.mem_of_getElem? e1))

/-- One step of any task: steps of the task it stands for. -/
theorem task_sim (r : Prop) {env : Env} {p p' : XPool} {i : Nat} {x x' : XTask} {bs : List UInt8} (h : XPool.Step env p i p') (hp : ∀ x ∈ p.tasks, x.Ok)
    (hx : p.tasks[i]? = some x) (hx' : p'.tasks[i]? = some x') (hr : r → ∀ t, x = .plain (.run t) → t.ready p.world = true)
    (hb : p'.world.st.sock.out.written = p.world.st.sock.out.written ++ bs) (s' : List IoOutcome) :
    p'.tasks = p.tasks.set i x' ∧ ∃ s, TSteps r env i x.asSend (p.world.sch s) (recordOf env i x x' p.world p'.world bs) x'.asSend (p'.world.sch s') := by
  have hi : i < p.tasks.length := by
    rcases Nat.lt_or_ge i p.tasks.length with h | h
    · exact h
    · rw [List.getElem?_eq_none h] at hx; cases hx
  cases h with
  | @plain ts w w' _ t o e1 e2 e3 =>
    dsimp only at *
    rw [e1] at hx
    cases hx
    rw [List.getElem?_set_self hi] at hx'
    cases hx'
    obtain ⟨s, hs, hsame⟩ := step_sch env t w e2 e3 s'
    refine ⟨rfl, s, TSteps.one (fun h => hr h t rfl) hs e3 hb ?_⟩
    show [entryOf env i t (w.sch s) (w'.sch s') bs] = [entryOf env i t w w' bs]
    have h1 : t.completes env (w.sch s) = t.completes env w ∧ t.fails env (w.sch s) = t.fails env w := by
      unfold Task.completes Task.fails
      obtain ⟨stack, loc⟩ := t
      cases stack with
      | nil => exact ⟨rfl, rfl⟩
      | cons c rest =>
        cases c with
        | sendFrame c =>
          rcases hc : coStep env (.sendFrame c) loc w with ⟨a, l, w1⟩
          rcases hc' : coStep env (.sendFrame c) loc (w.sch s) with ⟨a', l', w1'⟩
          have : a' = a := by have := hsame _ _ rfl; dsimp only at this; rw [hc, hc'] at this; exact this
          subst this
          dsimp only
          rw [hc, hc']
          cases a' <;> exact ⟨rfl, rfl⟩
        | writeFrame c =>
          rcases hc : coStep env (.writeFrame c) loc w with ⟨a, l, w1⟩
          rcases hc' : coStep env (.writeFrame c) loc (w.sch s) with ⟨a', l', w1'⟩
          have : a' = a := by have := hsame _ _ rfl; dsimp only at this; rw [hc, hc'] at this; exact this
          subst this
          dsimp only
          rw [hc, hc']
          cases a' <;> exact ⟨rfl, rfl⟩
        | _ => exact ⟨rfl, rfl⟩
    unfold entryOf
    rw [h1.1, h1.2]
    rfl
  | @choose ts w _ u below l fin opcode h0 pieces catches ops e1 e2 e3 =>
    dsimp only at *
    rw [e1] at hx
    cases hx
    rw [List.getElem?_set_self hi] at hx'
    cases hx'
    refine ⟨rfl, s', TSteps.one (fun _ => ready_user ..) (bs := bs) ?_ (fun h => by cases h) hb ?_⟩
    · unfold step
      dsimp only
      have hu : coStep env (.user u) l (w.sch s') = (.call [sendAsync env (.oneFrame fin opcode (some pieces.flatten))] (.user { u with ops := ops, catching := catches }), l, w.sch s') := by
        show userStep env u l (w.sch s') = _
        unfold userStep
        rw [e2]
      rw [hu]
      rfl
    · show [entryOf env i _ _ _ bs] = [_]
      unfold entryOf
      rw [drewAt_same rfl]
      rfl
  | @stream ts w w' _ s x e1 e2 =>
    dsimp only at *
    rw [e1] at hx
    cases hx
    rw [List.getElem?_set_self hi] at hx'
    cases hx'
    exact ⟨rfl, stream_sim r i e2 (hp _ (List.mem_of_getElem? e1)) hb s'⟩

end OatWS.Streams
