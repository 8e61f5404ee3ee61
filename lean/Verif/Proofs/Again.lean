import Verif.Props.Refuse
import Verif.Props.Fragments
import Verif.Proofs.Truncate
/-! What is left of the connection's readiness when a frame has been handled or refused (any listener). -/

namespace OatWS
open RFC6455

/-- The program ended by itself and not because the connection had nothing more to read. -/
def Exit.Fed {α} : Exit α → Prop
  | .ret _ => True
  | .throw e => ¬ e.isRead
  | _ => False

/-- The low-level reads that moved data are paid for by the bytes consumed. -/
def Thrifty {α} (m : P St α) : Prop := ∀ st, (m st).1.Fed → ∀ j, Healthy (st.inp.bytes.length + j) st.inp.sched →
  Healthy ((m st).2.inp.bytes.length + j) (m st).2.inp.sched

theorem Thrifty.pure {α} (a : α) : Thrifty (Pure.pure a : P St α) := fun _ _ _ h => h
theorem Thrifty.fail {α} (e : Err) : Thrifty (P.fail e : P St α) := fun _ _ _ h => h
theorem Thrifty.get : Thrifty (P.get : P St St) := fun _ _ _ h => h

theorem Thrifty.bind {α β} {m : P St α} {f : α → P St β} (h : Thrifty m) (h' : ∀ a, Thrifty (f a)) : Thrifty (m >>= f) := by
  intro s
  have h1 := h s
  rw [P.bind_def, P.bind_apply]
  rcases hm : m s with ⟨(a | _ | _ | _), s'⟩ <;> rw [hm] at h1 <;> simp only []
  · exact fun hf j hj => h' a s' hf j (h1 trivial j hj)
  all_goals exact h1

theorem Thrifty.ite {α} {c : Prop} [Decidable c] {a b : P St α} (ha : Thrifty a) (hb : Thrifty b) :
    Thrifty (if c then a else b) := by
  split
  · exact ha
  · exact hb

theorem Thrifty.lift {α} (m : P Sock α) : Thrifty (liftSock m) := fun _ _ _ h => h

theorem loop_thrifty (env : Env) (h : Header) (short cap) (sched bytes s p acc)
    (hf : (readPayloadLoop env h short cap sched bytes s p acc).1.Fed) (j : Nat) (hj : Healthy (bytes.length + j) sched) :
    Healthy ((readPayloadLoop env h short cap sched bytes s p acc).2.inp.bytes.length + j)
      (readPayloadLoop env h short cap sched bytes s p acc).2.inp.sched := by
  revert hf
  induction sched generalizing bytes s p acc with
  | nil =>
    unfold readPayloadLoop
    split
    · exact fun hf => hf.elim
    · exact fun _ => hj
  | cons o sched ih =>
    unfold readPayloadLoop
    split
    · simp only []
      generalize (if s.config.readBufferSize > h.payloadLength - p then h.payloadLength - p
        else s.config.readBufferSize) = want
      split
      · exact fun hf => hf.elim
      · split
        · rename_i bs bytes' hr
          obtain ⟨n, rfl, hbs, hb', hpos, _, hle⟩ := lowRead_data hr
          have hj' := hj.upTo
          split
          · exact fun hf => hf.elim
          · have hl : bytes'.length = bytes.length - bs.length := by rw [hb', List.length_drop]
            have hj2 : Healthy (bytes'.length + j) sched := hj'.mono (by omega)
            split
            · exact ih _ _ _ _ hj2
            · split
              · exact ih _ _ _ _ hj2
              all_goals exact fun _ => hj2
        · rename_i hr
          rw [lowRead_other hr (by simp)]
          have ho := lowRead_retry hr
          subst ho
          exact ih _ _ _ _ hj.retry
        · exact fun hf => absurd trivial hf
        · exact fun hf => absurd trivial hf
    · exact fun _ => hj

theorem readPayload_thrifty (env h short) : Thrifty (readPayload env h short) := by
  unfold readPayload
  refine .ite (.fail _) (Thrifty.get.bind fun st => .ite (.fail _) (Thrifty.bind ?_ fun acc => Thrifty.bind ?_ fun _ => .pure _))
  · intro st hf j hj; exact loop_thrifty _ _ _ _ _ _ _ _ _ hf j hj
  · unfold endMarker; exact .ite (.lift _) (.pure _)

theorem handleFrame_thrifty (env h) : Thrifty (handleFrame env h) := by
  unfold handleFrame
  refine .ite (Thrifty.get.bind fun st => .ite (.fail _) ((readPayload_thrifty env h _).bind fun _ => .pure _)) ?_
  refine .ite ((Thrifty.lift _).bind fun b => .ite ((readPayload_thrifty env h _).bind fun _ => .pure _) (.fail _)) ?_
  refine .ite ((Thrifty.lift _).bind fun b => .ite ((readPayload_thrifty env h _).bind fun _ => .pure _) (.fail _)) ?_
  refine .ite ((readPayload_thrifty env h _).bind fun _ => .lift _) ?_
  refine .ite ((readPayload_thrifty env h _).bind fun _ => .lift _) ?_
  exact .ite ((readPayload_thrifty env h _).bind fun _ => .lift _) (.fail _)

theorem iterateFrame_thrifty (env h) : Thrifty (iterateFrame env h) := by
  unfold iterateFrame
  refine Thrifty.bind ?_ fun h => (handleFrame_thrifty env h).bind fun _ => .pure _
  intro st hf j hj
  rcases (readFrameHeader_reads env h st).outcome with ⟨k, hd, h1, sc, hk, e, hp, hh, hs1, hs2, hheal⟩ |
    ⟨k, x, sc, hk, hsl, e, hx, hp, hall⟩
  · rw [e]
    simp only [St.read_bytes, St.read_sched, List.length_drop]
    exact hheal j hj
  · rw [e] at hf
    rcases hx with ⟨rfl, _⟩ | ⟨er, her, rfl⟩
    · exact hf.elim
    · exact absurd her hf

theorem listenLoop_thrifty (env : Env) (fuel : Nat) (h : Header) : Thrifty (listenLoop env fuel h) := by
  induction fuel generalizing h with
  | zero => exact fun _ hf => hf.elim
  | succ fuel ih =>
    intro st
    unfold listenLoop
    have h1 := iterateFrame_thrifty env h st
    rcases hi : iterateFrame env h st with ⟨(h' | _ | _ | _), st'⟩ <;> rw [hi] at h1 <;> simp only []
    · split
      · exact fun hf j hj => ih h' st' hf j (h1 trivial j hj)
      · exact fun _ => h1 trivial
    all_goals exact h1

/-- The frames at the front of the stream are handled one after the other. -/
theorem listenLoop_frames (env : Env) (ht : env.Tame) (hp : env.Passive) (l B : Nat) (hB : 0 < B) (o o' : Bool) (fs : List Frame)
    (ha : AcceptedAll o fs o') (tail : List UInt8) (fuel : Nat) (h : Header) (st : St) (hf : st.inp.sched.length < fuel)
    (hl : st.sock.listener = some l) (hs : st.sock.config.readBufferSize = B) (ho : OpenIs o st.sock.lastOpcode)
    (hh : Healthy (st.inp.bytes.length + 1) st.inp.sched) (hb : st.inp.bytes = wireOf fs ++ tail) (hlis : st.sock.listening = true) :
    ∃ fuel' h' st' evs, listenLoop env fuel h st = listenLoop env fuel' h' st' ∧ st'.inp.sched.length < fuel' ∧
      st'.inp.bytes = tail ∧ st'.sock.listener = some l ∧ st'.sock.config.readBufferSize = B ∧ OpenIs o' st'.sock.lastOpcode ∧
      Healthy (tail.length + 1) st'.inp.sched ∧ st'.sock.listening = true ∧ st'.sock.trace = st.sock.trace ++ evs ∧
      FramesEvents l B fs evs := by
  induction ha generalizing fuel h st with
  | nil =>
    have hb : st.inp.bytes = tail := by rw [hb]; rfl
    exact ⟨fuel, h, st, [], rfl, hf, hb, hl, hs, ho, by rw [← hb]; exact hh, hlis, by simp, rfl⟩
  | @cons o f fs o' hv hacc h8 ha' ih =>
    cases fuel with
    | zero => omega
    | succ fuel =>
      rw [wireOf_cons, List.append_assoc] at hb
      have hi := interpretFrame_accepted o f hv hacc (wireOf fs ++ tail)
      rw [if_neg h8, ← hb] at hi
      obtain ⟨evs, x, st', e, hb', hr, htr, hfe⟩ := iterateFrame_over env ht hp.returns B hB h st hs o ho hh _ _ _ _ hi hb
      obtain ⟨⟨h', rfl, hop⟩, ho', hheal⟩ := hfe
      rw [hl] at hr
      have hfr : FrameEvents l B f evs := Renders.frame hacc hr
      have hprog := iterateFrame_progress env h st e
      obtain ⟨k, ds, fe, evs2, st2, x, _, e2, _, _, _, _, g7, _⟩ := iterateFrame_handles env ht h st B hB hs o ho
      rw [e] at e2
      injection e2 with _ e2
      subst e2
      have hlis' : st'.sock.listening = true := by
        have := (passiveRel hp).iterateFrame h st
        rw [e] at this
        exact this.trans hlis
      obtain ⟨fuel', h2, st2, evs3, q1, q2, q3, q4, q5, q6, q7, q8, q9, q10⟩ := ih fuel h' st' (by omega)
        (by rw [g7.listener]; exact hl) (by rw [g7.config]; exact hs) ho' (hheal 1 hh) hb' hlis'
      refine ⟨fuel', h2, st2, evs ++ evs3, ?_, q2, q3, q4, q5, q6, q7, q8, by rw [q9, htr, List.append_assoc], evs, evs3, rfl, hfr, q10⟩
      rw [← q1]
      conv => lhs; unfold listenLoop
      rw [e]
      simp only []
      rw [if_pos ⟨fun e => hop (congrArg some e), hlis'⟩]

theorem listenBody_thrifty (env : Env) (h : Header) : Thrifty (listenBody env h) :=
  fun st => listenLoop_thrifty env (st.inp.sched.length + 1) h { st with sock := { st.sock with listening := true } }

end OatWS
