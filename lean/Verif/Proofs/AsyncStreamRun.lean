import Verif.Proofs.AsyncStreamLift
import Verif.Spec.Rest
/-!
# Steps of frames written by coroutines, computed
-/

namespace OatWS.Streams
open Async

/-- The next step of a frame that a coroutine writes, if it does not have to wait. -/
def streamNext (env : Env) (s : Stream) (w : World) : Option (XTask × World) :=
  match s.stage with
  | .start h0 pieces =>
    match sendFrameHeaderAsync env h0 s.fin s.opcode pieces.flatten.length w with
    | (h, .writeFrame co, w') => some (.streaming { s with stage := .header h co pieces }, w')
    | _ => none
  | .header h co pieces =>
    match writeFrameStep env co s.loc w with
    | (.goto (.writeFrame co'), _, w') => some (.streaming { s with stage := .header h co' pieces }, w')
    | (.finish, _, w') => some (.streaming { s with stage := .payload h 0 [] pieces }, w')
    | (.error e, _, w') => some (.plain (unwind e s.rest s.loc w').1, (unwind e s.rest s.loc w').2)
    | _ => none
  | .payload h n [] (piece :: pieces) => some (.streaming { s with stage := .payload h (n + piece.length) (pieceBytes h n piece) pieces }, w)
  | .payload _ _ [] [] => some (.plain (.run ⟨s.rest, s.loc⟩), w)
  | .payload h n (b :: bs) pieces =>
    match writeInline (b :: bs) w.st.sock.out with
    | (.again left, out) => some (.streaming { s with stage := .payload h n left pieces }, w.setOut out)
    | (.done left, out) => some (.streaming { s with stage := .payload h n left pieces }, w.setOut out)
    | (.failed, out) => some (.plain (unwind .io s.rest s.loc (w.setOut out)).1, (unwind .io s.rest s.loc (w.setOut out)).2)
    | (.blocked, _) => none

theorem streamNext_sound {env : Env} {s : Stream} {w w' : World} {x : XTask} (h : streamNext env s w = some (x, w')) : StreamStep env s w x w' := by
  unfold streamNext at h
  split at h
  · rename_i h0 pieces e1
    split at h
    · rename_i e2; cases h; exact .begin e1 e2
    · cases h
  · rename_i e1
    split at h
    · rename_i e2; cases h; exact .header e1 e2
    · rename_i e2; cases h; exact .headerDone e1 e2
    · rename_i e2; cases h; exact .headerFailed e1 e2 rfl
    · cases h
  · rename_i e1; cases h; exact .next e1
  · rename_i e1; cases h; exact .done e1
  · rename_i e1
    split at h
    · rename_i e2; cases h; exact .write e1 (by simp) (.inl e2)
    · rename_i e2; cases h; exact .write e1 (by simp) (.inr e2)
    · rename_i e2; cases h; exact .writeFailed e1 e2 rfl
    · cases h

theorem writeInline_ready {left : List UInt8} {o : OutStream} (h : o.sched ≠ []) : (writeInline left o).1 ≠ .blocked := by
  unfold writeInline
  split
  · intro e; cases e
  · rename_i e; exact absurd e h
  · split
    · dsimp only; split <;> (intro e; cases e)
    · intro e; cases e
    · intro e; cases e
    · intro e; cases e

theorem writeStep_ready {left : List UInt8} {l : Local} {w : World} {f : List UInt8 → WriteFrameCo} {a : Act} (h : w.st.sock.out.sched ≠ [])
    (ha : (∃ c, a = .goto (.writeFrame c)) ∨ a = .finish) :
    (∃ c, (writeStep left l w (fun g => .writeFrame (f g)) a).1 = .goto (.writeFrame c)) ∨ (writeStep left l w (fun g => .writeFrame (f g)) a).1 = .finish ∨
      ∃ e, (writeStep left l w (fun g => .writeFrame (f g)) a).1 = .error e := by
  have hb := writeInline_ready (left := left) h
  unfold writeStep
  rcases hw : writeInline left w.st.sock.out with ⟨r, o⟩
  rw [hw] at hb
  cases r with
  | again g => exact .inl ⟨_, rfl⟩
  | done g =>
    rcases ha with ha | ha
    · exact .inl ha
    · exact .inr (.inl ha)
  | failed => exact .inr (.inr ⟨_, rfl⟩)
  | blocked => exact absurd rfl hb

theorem writeFrameStep_ready {env : Env} {co : WriteFrameCo} {l : Local} {w : World} (h : w.st.sock.out.sched ≠ []) :
    (∃ c, (writeFrameStep env co l w).1 = .goto (.writeFrame c)) ∨ (writeFrameStep env co l w).1 = .finish ∨ ∃ e, (writeFrameStep env co l w).1 = .error e := by
  unfold writeFrameStep
  cases co.pc with
  | act => exact writeStep_ready h (.inl ⟨_, rfl⟩)
  | onBbWritten =>
    dsimp only
    split
    · exact .inl ⟨_, rfl⟩
    · split <;> exact .inl ⟨_, rfl⟩
  | writeMessageLen => exact writeStep_ready h (.inl ⟨_, rfl⟩)
  | onLenWritten =>
    dsimp only
    split
    · exact .inl ⟨_, rfl⟩
    · exact .inr (.inl rfl)
  | writeMask => exact writeStep_ready h (.inr rfl)

/-- As long as the connection takes bytes, the frame goes on. -/
theorem streamNext_ready {env : Env} {s : Stream} {w : World} (h : w.st.sock.out.sched ≠ []) : ∃ x w', streamNext env s w = some (x, w') := by
  unfold streamNext
  split
  · rename_i h0 pieces _
    have : ∃ h co w', sendFrameHeaderAsync env h0 s.fin s.opcode pieces.flatten.length w = (h, .writeFrame co, w') := by
      unfold sendFrameHeaderAsync newWriteFrame
      by_cases hm : w.st.sock.config.maskOutgoingMessages = true
      · simp only [if_pos hm]; exact ⟨_, _, _, rfl⟩
      · simp only [if_neg hm]; exact ⟨_, _, _, rfl⟩
    obtain ⟨h', co, w', e⟩ := this
    rw [e]
    exact ⟨_, _, rfl⟩
  · rename_i h0 co pieces _
    have := writeFrameStep_ready (env := env) (co := co) (l := s.loc) h
    rcases hw : writeFrameStep env co s.loc w with ⟨a, l, w'⟩
    rw [hw] at this
    rcases this with ⟨c, e⟩ | e | ⟨c, e⟩ <;> dsimp only at e <;> subst e <;> exact ⟨_, _, rfl⟩
  · exact ⟨_, _, rfl⟩
  · exact ⟨_, _, rfl⟩
  · rename_i b bs _ _
    have := writeInline_ready (left := b :: bs) h
    rcases hw : writeInline (b :: bs) w.st.sock.out with ⟨r, o⟩
    rw [hw] at this
    cases r with
    | blocked => exact absurd rfl this
    | _ => exact ⟨_, _, rfl⟩

theorem streamStep_written {env : Env} {s : Stream} {w w' : World} {x : XTask} (h : StreamStep env s w x w') : ∃ bs, w'.st.sock.out.written = w.st.sock.out.written ++ bs := by
  cases h with
  | «begin» e1 e2 =>
    refine ⟨[], ?_⟩
    have := congrArg (fun x => x.2.2.st.sock.out.written) e2
    dsimp only at this
    rw [← this, sendFrameHeaderAsync_written, List.append_nil]
  | @header h pieces co co' l _ _ e1 e2 => obtain ⟨bs, hb⟩ := writeFrameStep_written env co s.loc w; rw [e2] at hb; exact ⟨bs, hb⟩
  | @headerDone h pieces co l _ _ e1 e2 => obtain ⟨bs, hb⟩ := writeFrameStep_written env co s.loc w; rw [e2] at hb; exact ⟨bs, hb⟩
  | @headerFailed h pieces co e l _ w1 _ o e1 e2 e3 =>
    obtain ⟨bs, hb⟩ := writeFrameStep_written env co s.loc w
    rw [e2] at hb
    have hw := unwind_written e s.rest s.loc w1
    rw [e3] at hw
    exact ⟨bs, hw.trans hb⟩
  | next e1 => exact ⟨[], by simp⟩
  | @write h n left left' pieces out _ e1 e2 e3 =>
    obtain ⟨bs, hb⟩ := writeInline_written left w.st.sock.out
    rcases e3 with e | e <;> · rw [e] at hb; exact ⟨bs, hb⟩
  | @writeFailed h n left pieces out _ _ o e1 e2 e3 =>
    obtain ⟨bs, hb⟩ := writeInline_written left w.st.sock.out
    rw [e2] at hb
    have hw := unwind_written .io s.rest s.loc (w.setOut out)
    rw [e3] at hw
    exact ⟨bs, hw.trans hb⟩
  | done e1 => exact ⟨[], by simp⟩

end OatWS.Streams
