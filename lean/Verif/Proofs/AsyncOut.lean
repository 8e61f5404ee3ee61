import Verif.Proofs.AsyncHealthy
/-! Tasks of an async socket, if writes do not fail. -/

namespace OatWS.Async

/-- What a coroutine function does with the output. -/
def OutOnly (c : Co) (w : World) (x : Act × Local × World) : Prop :=
  SpentOut w.st.sock.out x.2.2.st.sock.out ∧ (((∃ d, c = .sendFrame d) ∨ ∃ d, c = .writeFrame d) → ∀ e, x.1 ≠ .error e)

variable {env : Env}

theorem OutOnly.same {c : Co} {w : World} {x : Act × Local × World} (h : x.2.2.st.sock.out = w.st.sock.out) (hn : (∀ d, c ≠ .sendFrame d) ∧ ∀ d, c ≠ .writeFrame d) : OutOnly c w x := by
  refine ⟨h ▸ .refl _, ?_⟩
  rintro (⟨d, rfl⟩ | ⟨d, rfl⟩)
  · exact absurd rfl (hn.1 d)
  · exact absurd rfl (hn.2 d)

theorem OutOnly.quiet {c : Co} {w : World} {x : Act × Local × World} (h : x.2.2.st.sock.out = w.st.sock.out) (hn : ∀ e, x.1 ≠ .error e) : OutOnly c w x := ⟨h ▸ .refl _, fun _ => hn⟩

theorem out_writeStep {c : Co} {left l again cont} {w : World} (hf : ∀ o ∈ w.st.sock.out.sched, o.fine = true) (hc : ∀ e, cont ≠ .error e) : OutOnly c w (writeStep left l w again cont) := by
  unfold writeStep
  rcases writeInline_works (left := left) hf with ⟨g, o', e, h⟩ | ⟨g, o', e, h⟩ | e
  · rw [e]; exact ⟨h, fun _ e => nofun⟩
  · rw [e]; exact ⟨h, fun _ => hc⟩
  · rw [e]; exact ⟨.refl _, fun _ e => nofun⟩

theorem out_readStep {need got l again cont} {w : World} (hc : ∀ (g : List UInt8) (w' : World), (cont g w').2.2.st.sock.out = w'.st.sock.out) : (readStep need got l w again cont).2.2.st.sock.out = w.st.sock.out := by
  unfold readStep
  rcases readInline need got w.st.inp with ⟨r, i⟩
  cases r with
  | done g => exact hc _ _
  | _ => rfl

theorem out_header (h : Header) (fin : Bool) (op : UInt8) (n : Int) (w : World) : (sendFrameHeaderAsync env h fin op n w).2.2.st.sock.out = w.st.sock.out := by
  unfold sendFrameHeaderAsync
  dsimp only
  split <;> rfl

theorem out_startPayload (c : HandleFrameCo) (short : Bool) (pc : HandleFramePc) (l : Local) (w : World) : (startPayload c short pc l w).2.2.st.sock.out = w.st.sock.out := by
  unfold startPayload readPayloadAsync
  split
  · rename_i h
    split at h
    · cases h
    · split at h
      · cases h
      · injection h with h; injection h with h h'; subst h h'; rfl
  · rfl

theorem out_startData (c : HandleFrameCo) (l : Local) (w : World) : (startData c l w).2.2.st.sock.out = w.st.sock.out := by
  unfold startData checkForContinuationA
  split
  · rename_i h
    split at h
    · cases h
    · split at h <;> (injection h with _ h; subst h; exact out_startPayload _ _ _ _ _)
  · rename_i h
    split at h
    · injection h with _ h
      subst h
      rfl
    · split at h <;> cases h

theorem out_control (c : HandleFrameCo) (mk : Nat → Event) (l : Local) (w : World) : (controlCallback env c mk l w).2.2.st.sock.out = w.st.sock.out := by
  unfold controlCallback
  split <;> rfl

theorem out_handleFrame (c : HandleFrameCo) (l : Local) (w : World) : (handleFrameStep env c l w).2.2.st.sock.out = w.st.sock.out := by
  unfold handleFrameStep
  split
  · split
    · split
      · rfl
      · exact out_startPayload _ _ _ _ _
    · split
      · exact out_startData _ _ _
      · split
        · exact out_startData _ _ _
        · split
          · exact out_startPayload _ _ _ _ _
          · split
            · exact out_startPayload _ _ _ _ _
            · split
              · exact out_startPayload _ _ _ _ _
              · rfl
  · exact out_control _ _ _ _
  · exact out_control _ _ _ _
  · exact out_control _ _ _ _
  · rfl

theorem out_readPayload (c : ReadPayloadCo) (l : Local) (w : World) : (readPayloadStep env c l w).2.2.st.sock.out = w.st.sock.out := by
  unfold readPayloadStep
  split
  · split
    · rfl
    · split
      · split <;> rfl
      · rfl
  · split
    · rfl
    · cases w.st.inp.sched with
      | nil => rfl
      | cons o s =>
        dsimp only
        rcases lowRead o w.st.inp.bytes c.want.toNat with ⟨r, b⟩
        cases r with
        | data bs => dsimp only; split <;> rfl
        | _ => rfl
  · split
    · dsimp only
      split
      · split
        · rfl
        · split <;> rfl
      · split
        · rfl
        · split <;> rfl
    · rfl
  · rfl

theorem out_readFrame (c : ReadFrameCo) (l : Local) (w : World) : (readFrameStep env c l w).2.2.st.sock.out = w.st.sock.out := by
  unfold readFrameStep
  split
  · exact out_readStep fun g w' => rfl
  · split
    · split
      split
      · rfl
      · split <;> rfl
    · rfl
  · exact out_readStep fun g w' => rfl
  · dsimp only
    split <;> rfl
  · refine out_readStep fun g w' => ?_
    split <;> rfl

theorem out_coStep (c : Co) (l : Local) (w : World) (hf : ∀ o ∈ w.st.sock.out.sched, o.fine = true) : OutOnly c w (coStep env c l w) := by
  cases c with
  | listen =>
    refine .same ?_ ⟨fun _ h => (by cases h), fun _ h => (by cases h)⟩
    show (listenStep l w).2.2.st.sock.out = _
    unfold listenStep
    split <;> rfl
  | readFrame c => exact .same (out_readFrame _ _ _) ⟨fun _ h => (by cases h), fun _ h => (by cases h)⟩
  | handleFrame c => exact .same (out_handleFrame _ _ _) ⟨fun _ h => (by cases h), fun _ h => (by cases h)⟩
  | readPayload c => exact .same (out_readPayload _ _ _) ⟨fun _ h => (by cases h), fun _ h => (by cases h)⟩
  | user c =>
    refine .same ?_ ⟨fun _ h => (by cases h), fun _ h => (by cases h)⟩
    show (userStep env c l w).2.2.st.sock.out = _
    unfold userStep
    split <;> rfl
  | sendFrame c =>
    show OutOnly _ w (sendFrameStep env c l w)
    unfold sendFrameStep
    split
    · split
      · exact .quiet (out_header _ _ _ _ _) fun e => nofun
      · exact .quiet (out_header _ _ _ _ _) fun e => nofun
    · dsimp only
      split
      · split
        · exact .quiet rfl fun e => nofun
        · exact .quiet rfl fun e => nofun
      · exact .quiet rfl fun e => nofun
    · exact out_writeStep hf fun e => nofun
    · exact .quiet rfl fun e => nofun
  | writeFrame c =>
    show OutOnly _ w (writeFrameStep env c l w)
    unfold writeFrameStep
    split
    · exact out_writeStep hf fun e => nofun
    · split
      · exact .quiet rfl fun e => nofun
      · split <;> exact .quiet rfl fun e => nofun
    · exact out_writeStep hf fun e => nofun
    · split <;> exact .quiet rfl fun e => nofun
    · exact out_writeStep hf fun e => nofun

theorem out_step {t : Task} {w w' : World} {o : Outcome} (hf : ∀ o ∈ w.st.sock.out.sched, o.fine = true) (h : step env t w = (o, w')) : SpentOut w.st.sock.out w'.st.sock.out ∧ t.fails env w = false := by
  obtain ⟨stack, loc⟩ := t
  cases stack with
  | nil =>
    injection h with h1 h2
    subst h1 h2
    exact ⟨.refl _, rfl⟩
  | cons c rest =>
    have hc := out_coStep (env := env) c loc w hf
    constructor
    · have hst : w'.st = (coStep env c loc w).2.2.st := by
        unfold step at h
        dsimp only at h
        rcases e : coStep env c loc w with ⟨a, l, w1⟩
        rw [e] at h
        cases a with
        | finish => cases rest <;> (injection h with g1 g2; subst g1 g2; exact destroy_st c w1)
        | error er =>
          have := congrArg (fun x => x.2.st) h
          dsimp only at this
          rw [← this, unwind_st, destroy_st]
        | _ => injection h with g1 g2; subst g1 g2; rfl
      rw [hst]
      exact hc.1
    · unfold Task.fails
      dsimp only
      split
      · rename_i d _ hd
        injection hd with hd
        subst hd
        have := hc.2 (.inl ⟨_, rfl⟩)
        rcases e : coStep env (.sendFrame d) loc w with ⟨a, l, w1⟩
        rw [e] at this
        cases a with
        | error _ => exact absurd rfl (this _)
        | _ => rfl
      · rename_i d _ hd
        injection hd with hd
        subst hd
        have := hc.2 (.inr ⟨_, rfl⟩)
        rcases e : coStep env (.writeFrame d) loc w with ⟨a, l, w1⟩
        rw [e] at this
        cases a with
        | error _ => exact absurd rfl (this _)
        | _ => rfl
      · rfl

/-- No send fails. -/
theorem Fed.sends {p q : Pool} {log fed} (h : Fed env p log fed q) (hf : ∀ o ∈ p.world.st.sock.out.sched, o.fine = true) :
    (∀ o ∈ q.world.st.sock.out.sched, o.fine = true) ∧ (∀ e ∈ log, e.failed = false) ∧ SpentOut p.world.st.sock.out q.world.st.sock.out := by
  induction h with
  | refl => exact ⟨hf, fun _ h => (by cases h), .refl _⟩
  | @own log fed q i t o w' bs h1 h2 h3 h4 h5 h6 ih =>
    obtain ⟨k1, k2, k3⟩ := ih
    obtain ⟨g1, g2⟩ := out_step k1 h4
    refine ⟨fun x hx => ?_, fun e he => ?_, k3.trans g1⟩
    · obtain ⟨used, e, -⟩ := g1
      exact k1 x (by rw [e]; exact List.mem_append_right _ hx)
    · rcases List.mem_append.mp he with he | he
      · exact k2 e he
      · rw [List.mem_singleton.mp he]; exact g2
  | feed bs _ ih => exact ih

end OatWS.Async
