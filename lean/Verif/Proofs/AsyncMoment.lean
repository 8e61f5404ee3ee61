import Verif.Proofs.Moment
/-! What a listening task has heard, at any moment. -/

namespace OatWS
open RFC6455

theorem Receives.go_on {o : Bool} {bs : List UInt8} {ds : List Delivery} {r : Reason} (h : Receives o bs ds r) : ∃ ds' r', Receives o bs ds' r' ∧ r' ≠ .interrupted ∧
    (ds' = ds ∨ ∃ op : UInt8, ds' = ds ++ [.endOfMessage op.toNat]) := by
  induction h with
  | last h =>
    obtain ⟨ds', fe, h1, h2, h3⟩ := h.go_on
    cases fe with
    | next o' => exact ⟨ds', _, .stop h1, nofun, h3⟩
    | over r => exact ⟨ds', r, .last h1, fun e => h2 (by rw [e]), h3⟩
  | stop h => exact ⟨_, _, .stop h, nofun, .inl rfl⟩
  | more h _ ih =>
    obtain ⟨ds', r, h1, h2, h3⟩ := ih
    refine ⟨_, r, .more h h1, h2, ?_⟩
    rcases h3 with rfl | ⟨op, rfl⟩
    · exact .inl rfl
    · exact .inr ⟨op, by rw [List.append_assoc]⟩

namespace Async
open Threads (Hears hears_frames)

theorem hears_receives {l B : Nat} {got : List UInt8} {ds : List Delivery} {r : Reason} {evs : List Event} (h1 : Receives false got ds r) (h2 : Renders l B evs ds) : Hears l B got evs := by
  obtain ⟨ds', r', g1, g2, g3⟩ := h1.go_on
  rcases g3 with rfl | ⟨op, rfl⟩
  · exact ⟨ds', r', evs, g1, g2, h2, List.prefix_refl _⟩
  · exact ⟨_, r', evs ++ [.readMessage l op []], g1, g2, h2.append (.endOfMessage .nil), List.prefix_append _ _⟩

section
variable {env : Env} {l : Nat} {B : Int} {w0 : World}

theorem Past.hears {fb ds evs o cur w} (h : Past (fixedSettings l B) false w0 fb ds evs o cur [] w) :
    ∃ got evs, got <+: w0.st.inp.bytes ∧ w.st.sock.trace = w0.st.sock.trace ++ evs ∧ Hears l B.toNat got evs := by
  refine ⟨fb, evs, ⟨cur ++ w.st.inp.bytes, by rw [h.bytes, List.append_assoc]⟩, by rw [h.trace, List.append_nil], ?_⟩
  have := hears_frames (part := []) (ds' := []) (evs' := evs) h.frames (.noHeader rfl) (by rw [List.append_nil]; exact renders_fixed h.mix) (List.prefix_refl _)
  rwa [List.append_nil] at this

theorem Past.hears_frame {fb ds evs o cur fe w d e} (h : Past (fixedSettings l B) false w0 fb ds evs o cur fe w) (hf : OneFrame o cur d e) (hm : RendersMix (fixedSettings l B) (evs ++ fe) (ds ++ d)) :
    ∃ got evs, got <+: w0.st.inp.bytes ∧ w.st.sock.trace = w0.st.sock.trace ++ evs ∧ Hears l B.toNat got evs :=
  ⟨fb ++ cur, evs ++ fe, ⟨w.st.inp.bytes, by rw [h.bytes]⟩, by rw [h.trace, List.append_assoc], hears_frames h.frames hf (renders_fixed hm) (List.prefix_refl _)⟩

/-- Somewhere in the payload of a data frame. -/
theorem Past.hears_data {fb ds evs o hb hd pb more fe w} {h : Header} {to : Option Nat} {chunks} (hp : Past (fixedSettings l B) false w0 fb ds evs o (hb ++ pb ++ more) fe w)
    (h2 : HeadDone hb hd h) (h3 : isDataOpcode hd.opcode) (h4 : mayStart o hd.opcode) (hto : to = some l)
    (hfe : fe = chunkEvents to h.opcode chunks) (hc : ∀ c ∈ chunks, 0 < c.length ∧ c.length ≤ B.toNat) (hfl : chunks.flatten = decodeFrom hd.maskKey 0 pb)
    (hle : pb.length ≤ h.payloadLength.toNat) : ∃ got evs, got <+: w0.st.inp.bytes ∧ w.st.sock.trace = w0.st.sock.trace ++ evs ∧ Hears l B.toNat got evs := by
  subst hto hfe
  have hmix := renders_fixed (hp.mix.snoc' (S := fixedSettings l B) rfl rfl (renders_data h2.2 hc hfl (to := some l)))
  refine ⟨fb ++ (hb ++ pb), evs ++ chunkEvents (some l) h.opcode chunks, ⟨more ++ w.st.inp.bytes, by rw [hp.bytes]; simp⟩, by rw [hp.trace, List.append_assoc], ?_⟩
  rcases Nat.lt_or_ge pb.length h.payloadLength.toNat with hlt | hge
  · exact hears_frames hp.frames (.cutData (h2.1 _) h3 h4 (by rw [effLen h2.2]; exact hlt)) hmix (List.prefix_refl _)
  · have hf := OneFrame.data (h2.1 pb) h3 h4 (by rw [effLen h2.2]; omega)
    cases hfin : hd.fin with
    | false =>
      rw [hfin] at hf
      exact hears_frames hp.frames hf hmix (List.prefix_refl _)
    | true =>
      rw [hfin] at hf
      have hmix' := renders_fixed (hp.mix.snoc' (S := fixedSettings l B) rfl rfl (renders_data_end h2.2 hc hfl (to := l)))
      refine hears_frames hp.frames hf hmix' ?_
      rw [← List.append_assoc]
      exact List.prefix_append _ _

theorem LAt.hears {t : Task} {w : World} (h : LAt env (fixedSettings l B) false w0 t w) :
    ∃ got evs, got <+: w0.st.inp.bytes ∧ w.st.sock.trace = w0.st.sock.trace ++ evs ∧ Hears l B.toNat got evs := by
  cases h with
  | idle h1 => exact h1.hears
  | closed h1 h2 h3 => exact h1.hears_frame h2 h3
  | head h1 => exact h1.hears
  | handle h1 => exact h1.hears
  | @data _ _ _ _ _ _ hb hd pb ss p chunks em _ B' h1 h2 h3 h4 h5 h6 h7 h8 h9 h10 h11 =>
    have hB : B' = B := h8
    subst hB
    rw [h9] at h10
    cases h11 with
    | act g1 g2 g3 =>
      rw [List.append_nil, ← List.append_nil (hb ++ pb)] at h1
      exact h1.hears_data h2 h3 h4 h7 rfl h10 g2 g1
    | read g1 g2 g3 g4 =>
      rw [List.append_nil, ← List.append_nil (hb ++ pb)] at h1
      exact h1.hears_data h2 h3 h4 h7 rfl h10 g3 (by omega)
    | got g1 g2 g3 g4 g5 g6 =>
      subst g2
      rw [List.append_nil, ← List.append_assoc] at h1
      exact h1.hears_data h2 h3 h4 h7 rfl h10 g6 (by omega)
    | @done to cap buf progress want got g1 g2 g3 =>
      have h7 : some to = some l := h7
      injection h7 with h7
      subst h7
      have hmix := h1.mix.snoc' (S := fixedSettings to B') rfl rfl (renders_data_end h2.2 h10 g2 (to := to))
      have hf := OneFrame.data (h2.1 pb) h3 h4 (by rw [effLen h2.2]; exact g1)
      have hfin : hd.fin = true := by rw [← h2.2.fin]; exact g3
      rw [hfin] at hf
      exact h1.hears_frame hf hmix
  | short h1 => exact h1.hears
  | control h1 => exact h1.hears
  | frame h1 h2 h3 => exact h1.hears_frame h2 h3

theorem Told.hears {w : World} {r : Reason} (h : Told (fixedSettings l B) false w0 w r) :
    ∃ got evs, got <+: w0.st.inp.bytes ∧ w.st.sock.trace = w0.st.sock.trace ++ evs ∧ Hears l B.toNat got evs := by
  obtain ⟨c, ds, evs, h1, h2, h3, h4⟩ := h
  exact ⟨c, evs, ⟨_, h1.symm⟩, h2, hears_receives h3 (renders_fixed h4)⟩

theorem readStep_ub {need got} {l : Local} {w : World} {again cont u} {l' : Local} {w' : World} (h : readStep need got l w again cont = (.ub u, l', w'))
    (hc : ∀ g w1 l2 w2, cont g w1 ≠ (.ub u, l2, w2)) : False := by
  unfold readStep at h
  split at h
  · cases h
  · exact hc _ _ _ _ h
  · cases h
  · cases h

theorem writeStep_ub {left} {l : Local} {w : World} {again cont u} {l' : Local} {w' : World} (h : writeStep left l w again cont = (.ub u, l', w'))
    (hc : cont ≠ .ub u) : False := by
  unfold writeStep at h
  split at h
  · cases h
  · injection h with h; exact hc h
  · cases h
  · cases h

local macro "no_ub" h:ident : tactic => `(tactic| (injection $h with h1; cases h1))

/-- A step into undefined behaviour makes no callback. -/
theorem coStep_ub {c : Co} {lo : Local} {w : World} {u lo' w'} (h : coStep env c lo w = (.ub u, lo', w')) : w'.st.sock.trace = w.st.sock.trace := by
  cases c with
  | listen =>
    dsimp only [coStep, listenStep] at h
    split at h <;> no_ub h
  | readFrame c =>
    exfalso
    dsimp only [coStep, readFrameStep] at h
    split at h
    · exact readStep_ub h fun _ _ _ _ e => (by injection e with e; cases e)
    · split at h
      · split at h
        · no_ub h
        · split at h <;> no_ub h
      · no_ub h
    · exact readStep_ub h fun _ _ _ _ e => (by injection e with e; cases e)
    · split at h <;> no_ub h
    · refine readStep_ub h ?_
      intro g w1 l2 w2 e
      split at e <;> · injection e with e; cases e
  | handleFrame c =>
    exfalso
    have sp : ∀ {c s p l w}, startPayload c s p l w ≠ (.ub u, lo', w') := by
      intro c s p l w e
      unfold startPayload at e
      split at e <;> cases e
    have sd : ∀ {c l w}, startData c l w ≠ (.ub u, lo', w') := by
      intro c l w e
      unfold startData at e
      split at e
      · exact sp e
      · cases e
    have cc : ∀ {c m l w}, controlCallback env c m l w ≠ (.ub u, lo', w') := by
      intro c m l w e
      unfold controlCallback at e
      split at e <;> cases e
    dsimp only [coStep, handleFrameStep] at h
    split at h
    · repeat' split at h
      all_goals first | (no_ub h) | exact sp h | exact sd h
    · exact cc h
    · exact cc h
    · exact cc h
    · no_ub h
  | readPayload c =>
    dsimp only [coStep, readPayloadStep] at h
    split at h
    · split at h
      · no_ub h
      · split at h
        · split at h <;> no_ub h
        · no_ub h
    · split at h
      · no_ub h
      · split at h
        · no_ub h
        · split at h
          · split at h
            · injection h with _ h
              injection h with _ h
              subst h
              rfl
            · no_ub h
          · no_ub h
          · no_ub h
          · no_ub h
    · split at h
      · repeat' split at h
        all_goals no_ub h
      · no_ub h
    · no_ub h
  | user c =>
    dsimp only [coStep, userStep] at h
    split at h <;> no_ub h
  | sendFrame c =>
    dsimp only [coStep, sendFrameStep] at h
    split at h
    · split at h <;> no_ub h
    · split at h
      · split at h
        · injection h with _ h
          injection h with _ h
          subst h
          rfl
        · no_ub h
      · no_ub h
    · exact (writeStep_ub h (fun e => (by cases e))).elim
    · no_ub h
  | writeFrame c =>
    dsimp only [coStep, writeFrameStep] at h
    split at h
    · exact (writeStep_ub h (fun e => (by cases e))).elim
    · split at h
      · no_ub h
      · split at h <;> no_ub h
    · exact (writeStep_ub h (fun e => (by cases e))).elim
    · split at h <;> no_ub h
    · exact (writeStep_ub h (fun e => (by cases e))).elim

theorem unwind_ub {e : AErr} {cs : List Co} {lo : Local} {w : World} {u w'} (h : unwind e cs lo w = (.ub u, w')) : False := by
  induction cs generalizing w with
  | nil => cases h
  | cons c cs ih =>
    cases c with
    | user c =>
      unfold unwind at h
      split at h
      · cases h
      · exact ih h
    | _ => exact ih h

theorem step_ub {t : Task} {w : World} {u w'} (h : step env t w = (.ub u, w')) : w'.st.sock.trace = w.st.sock.trace := by
  unfold step at h
  split at h
  · cases h
  · split at h
    · cases h
    · cases h
    · split at h <;> cases h
    · exact (unwind_ub h).elim
    · cases h
    · rename_i e
      injection h with h1 h2
      injection h1 with h1
      subst h1 h2
      exact coStep_ub e

theorem moment_exec (hS : (fixedSettings l B).Env env) (h : Header) (ho : OpenIs false w0.st.sock.lastOpcode) (hw : (fixedSettings l B).In w0) (hB : 0 < B) {out w}
    (he : Exec env (fixedSettings l B).Others (fun _ => True) (.run (listenTask h), w0) (out, w)) :
    ∃ got evs, got <+: w0.st.inp.bytes ∧ w.st.sock.trace = w0.st.sock.trace ++ evs ∧ Hears l B.toNat got evs := by
  have hok : ∀ {out w}, Exec env (fixedSettings l B).Others (fun _ => True) (.run (listenTask h), w0) (out, w) → LOk env (fixedSettings l B) false w0 (out, w) :=
    fun he => listening_ok hS h ho hw he
  generalize hq : (out, w) = q at he
  induction he generalizing out w with
  | refl =>
    injection hq with h1 h2
    subst h1 h2
    exact LAt.hears (hok .refl)
  | @own t w1 q he' hg hs ih =>
    subst hq
    have ih := ih rfl
    have hok := hok (.own he' hg hs)
    cases out with
    | run t => exact LAt.hears hok
    | finished => exact Told.hears hok
    | failed e =>
      rcases hok with ⟨r, _, hok⟩ | ⟨_, B', h1, h2⟩
      · exact hok.hears
      · have h2 : B' = B := h2
        omega
    | blocked => rcases hok with hok | hok <;> exact hok.hears
    | ub u => rw [step_ub hs]; exact ih
  | other he' hr ih =>
    injection hq with h1 h2
    subst h1 h2
    rw [hr.1.trace]
    exact ih rfl

end

/-- What a listening task has heard, at any moment. -/
theorem Fed.moment {env : Env} {p0 p : Pool} {log sent} (hfed : Fed env p0 log sent p) {l : Nat} {B : Int} (hB : Listening env l B p0) :
    ∃ got evs, got <+: sent ∧ p.world.st.sock.trace = p0.world.st.sock.trace ++ evs ∧ Hears l B.toNat got evs := by
  obtain ⟨used, hlog⟩ := hfed.logged [] []
  obtain ⟨hd, others, hts, hoth⟩ := hB.tasks
  rw [hB.nothing, List.nil_append, List.append_nil, List.append_nil, List.append_nil] at hlog
  have hsteps : Pool.Steps env ⟨.run (listenTask hd) :: others, p0.world.setInp ⟨sent, used⟩⟩ (withInp p p.world.st.inp.bytes []) := by
    have := logged_steps hlog
    unfold withInp at this
    rw [hts] at this
    exact this
  obtain ⟨out, ts, e1, -, he⟩ := pool_exec hoth hsteps
  exact moment_exec (w0 := p0.world.setInp ⟨sent, used⟩) hB.callbacks hd hB.noMessage hB.start hB.size (w := (withInp p p.world.st.inp.bytes []).world) he

end Async
end OatWS
