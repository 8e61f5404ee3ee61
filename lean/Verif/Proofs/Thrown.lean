import Verif.Spec.Again
import Verif.Proofs.Again
/-! Where exceptions come from, and what they leave behind. -/

namespace OatWS
open RFC6455

/-- Exceptions of the program that are not its own come out of the last callback. -/
def Blames {α} (env : Env) (m : P St α) : Prop := ∀ st e st', m st = (.throw e, st') → e.ofCallback → Threw env e st'.sock

variable {env : Env}

theorem Blames.pure {α} (a : α) : Blames env (Pure.pure a : P St α) := fun _ _ _ h => by cases h
theorem Blames.get : Blames env (P.get : P St St) := fun _ _ _ h => by cases h

theorem Blames.fail {α} {e : Err} (h : ¬ e.ofCallback) : Blames env (P.fail e : P St α) := by
  intro st e' st' he hc
  injection he with he _
  injection he with he
  subst he
  exact absurd hc h

theorem Blames.bind {α β} {m : P St α} {f : α → P St β} (h : Blames env m) (h' : ∀ a, Blames env (f a)) : Blames env (m >>= f) := by
  intro st e st' he hc
  rw [P.bind_def, P.bind_apply] at he
  rcases hm : m st with ⟨(a | e1 | _ | _), s'⟩ <;> rw [hm] at he <;> simp only [] at he
  · exact h' a s' e st' he hc
  · injection he with h1 h2
    injection h1 with h1
    subst h1 h2
    exact h st _ _ hm hc
  all_goals cases he

theorem Blames.ite {α} {c : Prop} [Decidable c] {a b : P St α} (ha : Blames env a) (hb : Blames env b) : Blames env (if c then a else b) := by
  split
  · exact ha
  · exact hb

theorem callListener_threw {mk : Nat → Event} {s : Sock} {e : Err} {s' : Sock} (he : callListener env mk s = (.throw e, s')) : Threw env e s' := by
  unfold callListener at he
  split at he
  · cases he
  · rename_i l _
    simp only [] at he
    have := runUserOps_trace (env := env) (env.react (s.trace ++ [mk l])) { s with trace := s.trace ++ [mk l] }
    rw [he] at this
    refine ⟨{ s with trace := s.trace ++ [mk l] }, ?_⟩
    rw [show s'.trace = s.trace ++ [mk l] from this]
    exact he

theorem Blames.call (mk : Nat → Event) : Blames env (liftSock (callListener env mk)) := by
  intro st e st' he _
  unfold liftSock at he
  rcases hc : callListener env mk st.sock with ⟨x, s⟩
  rw [hc] at he
  simp only [] at he
  injection he with h1 h2
  subst h1 h2
  exact callListener_threw hc

theorem Blames.check (h : Header) : Blames env (liftSock (checkForContinuation h)) := by
  intro st e st' he _
  unfold liftSock checkForContinuation at he
  simp only [] at he
  repeat' split at he
  all_goals first | (cases he; done) | skip
  all_goals (rename_i hc; repeat' split at hc)
  all_goals (cases hc; cases he)

theorem loop_blames (h : Header) (short cap) (sched bytes s p acc e st')
    (he : readPayloadLoop env h short cap sched bytes s p acc = (.throw e, st')) (hc : e.ofCallback) : Threw env e st'.sock := by
  revert he
  induction sched generalizing bytes s p acc with
  | nil =>
    unfold readPayloadLoop
    split <;> (intro he; cases he)
  | cons o sched ih =>
    unfold readPayloadLoop
    split
    · simp only []
      generalize (if s.config.readBufferSize > h.payloadLength - p then h.payloadLength - p
        else s.config.readBufferSize) = want
      split
      · intro he; cases he
      · split
        · split
          · intro he; cases he
          · split
            · exact ih _ _ _ _
            · split
              · exact ih _ _ _ _
              · rename_i hcl
                intro he
                injection he with h1 h2
                injection h1 with h1
                subst h1 h2
                exact callListener_threw hcl
              all_goals (intro he; cases he)
        · exact ih _ _ _ _
        all_goals
          intro he
          injection he with h1 _
          injection h1 with h1
          subst h1
          exact absurd trivial hc.1
    · intro he; cases he

theorem readPayload_blames (h short) : Blames env (readPayload env h short) := by
  unfold readPayload
  refine .ite (.fail fun h => h.2.1 trivial) (Blames.get.bind fun st => .ite (.fail fun h => h.2.2 rfl) (Blames.bind ?_ fun acc => Blames.bind ?_ fun _ => .pure _))
  · intro st e st' he hc; exact loop_blames _ _ _ _ _ _ _ _ _ _ he hc
  · unfold endMarker; exact .ite (.call _) (.pure _)

theorem handleFrame_blames (h) : Blames env (handleFrame env h) := by
  unfold handleFrame
  refine .ite (Blames.get.bind fun st => .ite (.fail fun h => h.2.1 trivial) ((readPayload_blames h _).bind fun _ => .pure _)) ?_
  refine .ite ((Blames.check _).bind fun b => .ite ((readPayload_blames h _).bind fun _ => .pure _) (.fail fun h => h.2.1 trivial)) ?_
  refine .ite ((Blames.check _).bind fun b => .ite ((readPayload_blames h _).bind fun _ => .pure _) (.fail fun h => h.2.1 trivial)) ?_
  refine .ite ((readPayload_blames h _).bind fun _ => .call _) ?_
  refine .ite ((readPayload_blames h _).bind fun _ => .call _) ?_
  exact .ite ((readPayload_blames h _).bind fun _ => .call _) (.fail fun h => h.2.1 trivial)

theorem iterateFrame_blames (h) : Blames env (iterateFrame env h) := by
  unfold iterateFrame
  refine Blames.bind ?_ fun h => (handleFrame_blames h).bind fun _ => .pure _
  intro st e st' he hc
  rcases (readFrameHeader_reads env h st).outcome with ⟨k, hd, h1, sc, hk, e1, _⟩ | ⟨k, x, sc, hk, hsl, e1, hx, hp, hall⟩
  · rw [e1] at he; cases he
  · rw [e1] at he
    injection he with h1 _
    subst h1
    rcases hx with ⟨hx, _⟩ | ⟨er, her, hx⟩
    · cases hx
    · injection hx with hx; subst hx; exact absurd her hc.1

/-- Whatever comes of a frame that is accepted: the fragmentation state afterwards is that behind the frame. -/
theorem iterateFrame_openAny (env : Env) (h : Header) (st : St) (o : Bool) (ho : OpenIs o st.sock.lastOpcode) (g : Frame) (hv : g.Valid) (hacc : Accepted o g)
    (rest : List UInt8) (hb : st.inp.bytes = g.encode ++ rest) (hx : (iterateFrame env h st).1.Fed) :
    OpenIs (openAfterFrame o g) (iterateFrame env h st).2.sock.lastOpcode := by
  rcases iterateFrame_header env h st with ⟨k, hd, h2, sc, _, hk, hh, hi⟩ | ⟨k, x, sc, _, hi, _, hx', _⟩
  · have hp := parseHdr_encode g hv rest
    rw [← hb] at hp
    obtain ⟨rfl, _⟩ := header_rest hp hk
    have hl := handleFrame_last env h2 (st.read k sc)
    have hsame : (iterateFrame env h st).2 = (handleFrame env h2 (st.read k sc)).2 := by
      rw [hi, P.bind_apply]
      rcases handleFrame env h2 (st.read k sc) with ⟨(_ | _ | _ | _), s'⟩ <;> rfl
    rw [hsame, hl]
    have hop : h2.opcode.toNat = g.opcode := hh.opcode
    have hfin : h2.fin = g.fin := hh.fin
    have e1 : h2.opcode = 1 ↔ g.opcode = 1 := by rw [← hop]; exact ⟨fun e => by rw [e]; rfl, fun e => UInt8.toNat_inj.mp e⟩
    have e2 : h2.opcode = 2 ↔ g.opcode = 2 := by rw [← hop]; exact ⟨fun e => by rw [e]; rfl, fun e => UInt8.toNat_inj.mp e⟩
    simp only [e1, e2, hop, hfin]
    show OpenIs _ (if (g.opcode = 1 ∨ g.opcode = 2) ∧ ¬ (st.sock.lastOpcode = 1 ∨ st.sock.lastOpcode = 2) then
        (if g.fin then -1 else (g.opcode : Int)) else st.sock.lastOpcode)
    unfold openAfterFrame
    by_cases c : g.opcode = 1 ∨ g.opcode = 2
    · have hof : o = false := by
        rcases hacc with ⟨_, hm⟩ | ⟨hc, _⟩
        · unfold mayStart at hm; rw [if_neg (by omega)] at hm; exact hm
        · unfold isControlOpcode at hc; omega
      subst hof
      have ho' : st.sock.lastOpcode = -1 := ho
      rw [if_pos c, if_pos ⟨c, by omega⟩]
      cases g.fin
      · exact (by omega : (g.opcode : Int) = 1 ∨ (g.opcode : Int) = 2)
      · rfl
    · rw [if_neg c, if_neg (fun x => c x.1)]; exact ho
  · rw [hi] at hx
    rcases hx' with ⟨rfl, _⟩ | ⟨er, her, rfl⟩
    · exact hx.elim
    · exact absurd her hx

/-- A callback for an accepted frame did not return. -/
theorem oneFrame_interrupted {l B : Nat} {o : Bool} {g : Frame} {rest : List UInt8} {k : Nat} {ds : List Delivery} {evs : List Event} (hv : g.Valid) (hacc : Accepted o g)
    (hk : k ≤ (g.encode ++ rest).length) (h : OneFrame o ((g.encode ++ rest).take k) ds (.over .interrupted)) (hr : Renders l B evs ds) :
    ∃ p, p ≤ g.payload.length ∧ Begun l B g p evs ∧ (g.encode ++ rest).drop k = (applyKey? g.maskKey g.payload).drop p ++ rest := by
  have hlen : effectiveLen (hdrOfFrame g).len = g.payload.length := effectiveLen_small hv.2.2
  have key : ∀ {hd : Hdr} {r : List UInt8}, parseHdr ((g.encode ++ rest).take k) = some (hd, r) → r.length ≤ effectiveLen hd.len →
      hd = hdrOfFrame g ∧ r.length ≤ g.payload.length ∧ applyKey? g.maskKey r = g.payload.take r.length ∧
        (g.encode ++ rest).drop k = (applyKey? g.maskKey g.payload).drop r.length ++ rest := by
    intro hd r hp hr
    have h1 := parseHdr_append ((g.encode ++ rest).drop k) hp
    rw [List.take_append_drop, parseHdr_encode g hv] at h1
    injection h1 with h1
    injection h1 with h1 h2
    subst h1
    rw [hlen] at hr
    have hd : (g.encode ++ rest).drop k = (applyKey? g.maskKey g.payload).drop r.length ++ rest := by
      have := congrArg (List.drop r.length) h2
      rw [List.drop_append, List.drop_append, List.drop_of_length_le (Nat.le_refl _), applyKey?_length] at this
      rw [Nat.sub_self, Nat.sub_eq_zero_of_le hr] at this
      simpa using this.symm
    refine ⟨rfl, hr, ?_, hd⟩
    have hpre : r <+: applyKey? g.maskKey g.payload := by
      have := congrArg (List.take r.length) h2
      rw [List.take_append, List.take_append, List.take_length, applyKey?_length, Nat.sub_self, Nat.sub_eq_zero_of_le hr] at this
      simp only [List.take_zero, List.append_nil] at this
      rw [← this]
      exact List.take_prefix _ _
    have := applyKey?_prefix g.maskKey hpre
    have h3 := List.prefix_iff_eq_take.mp this
    rw [applyKey?_length] at h3
    exact h3
  have full : ∀ {r : List UInt8}, r.length = g.payload.length → applyKey? g.maskKey r = g.payload.take r.length → applyKey? g.maskKey r = g.payload := by
    intro r h1 h2
    rw [h2, h1, List.take_length]
  generalize hbs : (g.encode ++ rest).take k = bs at h key
  generalize hfe : FrameEnd.over Reason.interrupted = fe at h
  cases h <;> first | (cases hfe; done) | skip
  · rename_i hd r hp hdo _ hpos hle
    obtain ⟨rfl, h1, h2, h3⟩ := key hp hle
    refine ⟨r.length, h1, .inl ⟨hdo, hpos, h1, ?_⟩, h3⟩
    rw [show (hdrOfFrame g).maskKey = g.maskKey from rfl, h2] at hr
    obtain ⟨e, es, rfl, hdc, hn⟩ := hr.data_inv
    rw [hn.nil_inv, List.append_nil]
    exact hdc
  · rename_i hd r hp hdo _ he hfin
    obtain ⟨rfl, h1, h2, h3⟩ := key hp (Nat.le_of_eq he)
    rw [hlen] at he
    refine ⟨r.length, h1, .inr ⟨he, Renders.frame (o := o) hacc ?_⟩, h3⟩
    rw [show (hdrOfFrame g).maskKey = g.maskKey from rfl, full he h2] at hr
    unfold frameDeliveries
    rw [if_pos (show g.opcode = 0 ∨ g.opcode = 1 ∨ g.opcode = 2 from hdo), if_pos (show g.fin = true from hfin)]
    exact hr
  · rename_i hd r hp hco _ he
    obtain ⟨rfl, h1, h2, h3⟩ := key hp (Nat.le_of_eq he)
    rw [hlen] at he
    refine ⟨r.length, h1, .inr ⟨he, Renders.frame (o := o) hacc ?_⟩, h3⟩
    rw [show (hdrOfFrame g).maskKey = g.maskKey from rfl, full he h2] at hr
    unfold frameDeliveries
    rw [if_neg (by have : g.opcode = 8 ∨ g.opcode = 9 ∨ g.opcode = 10 := hco; omega)]
    exact hr

end OatWS
