import Verif.Proofs.AsyncLink
/-! What has been told when the listening task is about to read. -/

namespace OatWS.Async
open RFC6455

variable {env : Env} {S : Settings} {o0 : Bool} {w0 : World}

theorem sends_not_reads {c : Co} (h : c.sends) (rest : List Co) (l : Local) : Task.reads ⟨c :: rest, l⟩ = false := by
  cases c with
  | user | sendFrame | writeFrame => rfl
  | listen => exact h.elim
  | readFrame => exact h.elim
  | handleFrame => exact h.elim
  | readPayload => exact h.elim

theorem head_reads {cur : List UInt8} {c : ReadFrameCo} {l : Local} (h : HeadAt env cur c l.hdr) {rest : List Co} (hr : Task.reads ⟨.readFrame c :: rest, l⟩ = true) (w : World) :
    parseHdr cur = none := by
  obtain ⟨nb, i, h', a, e1, e2, e3⟩ := head_step env h (w.setInp ⟨[], []⟩)
  have hb := coStep_reads_nil (env := env) (w := w.setInp ⟨[], []⟩) hr rfl
  rw [e2] at hb
  have hb : a = .blocked := hb
  subst hb
  have e1 : [] = nb ++ i.bytes := e1
  have e1 : nb = [] := (List.append_eq_nil_iff.mp e1.symm).1
  subst e1
  rw [List.append_nil] at e3
  cases e3 with
  | blocked e => exact e

/-- About to read: what is consumed is not complete, and all of it has been told. -/
theorem LAt.waits {t : Task} {w : World} (h : LAt env S o0 w0 t w) (hr : t.reads = true) : Told S o0 w0 w .incomplete := by
  cases h with
  | idle => cases hr
  | closed => cases hr
  | head h1 h2 h3 h4 => exact h1.told_nil (.noHeader (head_reads h3 hr w)) rfl
  | handle => cases hr
  | @data _ _ _ _ _ _ _ _ _ ss p _ _ _ _ h1 h2 h3 h4 h5 h6 h7 h8 h9 h10 h11 =>
    cases ss with
    | cons c ss => 
      have hs : c.sends := (h6 c (by simp)).sends
      rw [List.cons_append, sends_not_reads hs] at hr
      cases hr
    | nil =>
      cases h11 with
      | act => cases hr
      | got => cases hr
      | done => cases hr
      | read g1 g2 g3 g4 =>
        rw [List.append_nil] at h1
        exact h1.told (.cutData (h2.1 _) h3 h4 (by rw [effLen h2.2]; exact g2)) (h1.mix.snoc' h7 h8 (renders_data h2.2 (by rw [← h9]; exact h10) g3)) rfl
  | short h1 h2 h3 h4 h5 h6 h7 =>
    cases h7 with
    | act => cases hr
    | got => cases hr
    | read g1 g2 g3 => exact h1.told_nil (.cutControl (h3.1 _) h4 (by rw [effLen h3.2]; omega) (by rw [effLen h3.2]; exact g1)) rfl
  | control => cases hr
  | @frame _ _ _ _ _ _ _ _ _ ss _ _ h1 h2 h3 h4 h5 h6 =>
    cases ss with
    | cons c ss =>
      have hs : c.sends := (h5 c (by simp)).sends
      rw [List.cons_append, sends_not_reads hs] at hr
      cases hr
    | nil => cases hr

end OatWS.Async
