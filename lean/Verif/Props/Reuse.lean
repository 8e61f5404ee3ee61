import Verif.Props.RefuseAnywhere
import Verif.Props.Reject
import Verif.Props.Fragments
/-! # C13: what exactly happens behind a fragmented message, for every receiver -/

namespace OatWS
open RFC6455 Async

/-- The fragmented message of which `g` is the last frame, complete. -/
def _root_.RFC6455.Frame.completes (g : Frame) : Bool := g.opcode == 0 && g.fin

/-- The code and the RFC agree about a frame that is not the last one of a fragmented message. -/
theorem rfcOpen_eq {o : Bool} {f : Frame} (ha : Accepted o f) (hc : f.completes = false) : rfcOpenAfter o f = openAfterFrame o f := by
  unfold rfcOpenAfter openAfterFrame isDataFrame
  rcases ha with ⟨hd, hm⟩ | ⟨hd, _⟩
  · rcases hd with h | h | h
    · unfold RFC6455.Frame.completes at hc
      rw [h] at hc hm ⊢
      simp [mayStart] at hc hm ⊢
      rw [hc, hm]; rfl
    · simp [h]
    · simp [h]
  · rcases hd with h | h | h <;> simp [h]

theorem noReuse_split {o o' : Bool} {fs : List Frame} (h : RfcSequence o fs o') (hn : ¬ NoReuse fs) :
    ∃ a g c f b, fs = a ++ g :: c ++ f :: b ∧ AcceptedAll o (a ++ g :: c) true ∧ g.completes = true ∧ (∀ x ∈ c, isDataFrame x = false) ∧ (f.opcode = 1 ∨ f.opcode = 2) ∧ f.Valid := by
  induction h with
  | nil => exact absurd trivial hn
  | @cons o f fs o' hv ha h8 hr ih =>
    by_cases hc : f.completes = true
    · have hc0 := hc
      unfold RFC6455.Frame.completes at hc
      simp only [Bool.and_eq_true, beq_iff_eq] at hc
      by_cases hd : ∀ g ∈ fs, isDataFrame g = false
      · refine absurd ⟨fun _ _ => hd, ?_⟩ hn
        exact noReuse_of_noData hd
      · have ho : o = true := by
          rcases ha with ⟨_, hm⟩ | ⟨hd, _⟩
          · unfold mayStart at hm; rw [if_pos hc.1] at hm; exact hm
          · unfold isControlOpcode at hd; omega
        have e1 : rfcOpenAfter o f = false := by
          unfold rfcOpenAfter isDataFrame; simp [hc.1, hc.2]
        rw [e1] at hr
        obtain ⟨c, x, b, rfl, h1, h2, h3, h4⟩ := firstData rfl hr hd
        refine ⟨[], f, c, x, b, rfl, .cons hv ha h8 ?_, hc0, h1, ?_, h3⟩
        · have : openAfterFrame o f = true := by
            unfold openAfterFrame; rw [if_neg (by omega), ho]
          rw [this]
          exact h4 true
        · exact h2
    · have hc := Bool.eq_false_iff.mpr hc
      have hn' : ¬ NoReuse fs := by
        intro h
        refine hn ⟨fun h0 h1 => ?_, h⟩
        unfold RFC6455.Frame.completes at hc
        simp [h0, h1] at hc
      obtain ⟨a, g, c, x, b, rfl, h1, h2⟩ := ih hn'
      rw [rfcOpen_eq ha hc] at h1
      exact ⟨f :: a, g, c, x, b, rfl, .cons hv ha h8 h1, h2⟩
where
  noReuse_of_noData {fs : List Frame} (h : ∀ g ∈ fs, isDataFrame g = false) : NoReuse fs := by
    induction fs with
    | nil => trivial
    | cons f fs ih => exact ⟨fun _ _ g hg => h g (List.mem_cons_of_mem _ hg), ih fun g hg => h g (List.mem_cons_of_mem _ hg)⟩
  firstData {o o' : Bool} {fs : List Frame} (ho : o = false) (h : RfcSequence o fs o') (hd : ¬ ∀ g ∈ fs, isDataFrame g = false) :
      ∃ c x b, fs = c ++ x :: b ∧ (∀ y ∈ c, isDataFrame y = false) ∧ (x.opcode = 1 ∨ x.opcode = 2) ∧ x.Valid ∧ ∀ o1, AcceptedAll o1 c o1 := by
    induction h with
    | nil => exact absurd (fun _ h => absurd h List.not_mem_nil) hd
    | @cons o f fs o' hv ha h8 hr ih =>
      subst ho
      by_cases hf : isDataFrame f = true
      · refine ⟨[], f, fs, rfl, fun _ h => absurd h List.not_mem_nil, ?_, hv, fun _ => .nil⟩
        rcases ha with ⟨hd', hm⟩ | ⟨hd', _⟩
        · rcases hd' with h | h
          · rw [h] at hm; simp [mayStart] at hm
          · exact h
        · unfold isDataFrame at hf; unfold isControlOpcode at hd'
          simp at hf; omega
      · have hf := Bool.eq_false_iff.mpr hf
        have hctl : isControlOpcode f.opcode ∧ f.payload.length ≤ 125 := by
          rcases ha with ⟨hd', _⟩ | hc
          · unfold isDataOpcode at hd'; unfold isDataFrame at hf; simp at hf; omega
          · exact hc
        have e1 : rfcOpenAfter false f = false := by unfold rfcOpenAfter; rw [hf]; rfl
        obtain ⟨c, x, b, rfl, h1, h2, h3, h4⟩ := ih e1 (fun h => hd (fun g hg => (List.mem_cons.mp hg).elim (fun e => e ▸ hf) (h g)))
        refine ⟨f :: c, x, b, rfl, fun y hy => (List.mem_cons.mp hy).elim (fun e => e ▸ hf) (h1 y), h2, h3, fun o1 => .cons hv (.inr hctl) h8 ?_⟩
        have : openAfterFrame o1 f = o1 := by
          have := hctl.1
          unfold isControlOpcode at this
          unfold openAfterFrame; rw [if_neg (by omega)]
        rw [this]; exact h4 o1

/-- **C13**, what the code does instead (the next message). Every sequence of frames that the RFC allows, in which data follows the end of a fragmented message: every receiver that is left alone (of either API, as C77) hears
exactly the frames up to the first text or binary frame behind that message, refuses this one, and leaves its payload and all that follows unread; `listenAsync` ends with the error
"continuation expected". No such sequence is heard completely. -/
theorem C13_actual_refused (fs : List Frame) (o' : Bool) (hr : RfcSequence false fs o') (hn : ¬ NoReuse fs) :
    ∃ a g c f b, fs = a ++ g :: c ++ f :: b ∧ (g.opcode = 0 ∧ g.fin = true) ∧ (∀ x ∈ c, isDataFrame x = false) ∧ (f.opcode = 1 ∨ f.opcode = 2) ∧
      ∀ (l B : Nat) (evs : List Event) (left : List UInt8), 0 < B → HeardBy false (wireOf fs) l B evs left →
        Renders l B evs (deliveriesOf (a ++ g :: c)) ∧ left = applyKey? f.maskKey f.payload ++ wireOf b ∧
        ∀ out, HeardAmongTasks false (wireOf fs) l B evs left out → out = .failed (.thrown .continuationExpected) := by
  obtain ⟨a, g, c, f, b, rfl, h1, h2, h3, h4, h5⟩ := noReuse_split hr hn
  have h2' : g.opcode = 0 ∧ g.fin = true := by
    unfold RFC6455.Frame.completes at h2
    simpa using h2
  refine ⟨a, g, c, f, b, rfl, h2', h3, h4, fun l B evs left hB h => ?_⟩
  rw [wireOf_append, wireOf_cons f b] at h ⊢
  have hop : (false || (a ++ g :: c).any Frame.begins) = true := h1.opened.symm
  rw [Bool.false_or, List.any_eq_true] at hop
  exact C84_fragmentation_rule true _ _ _ (hdrOfFrame f) h1 (parseHdr_encode f h5 (wireOf b)) .continuationExpected (.inr ⟨h4, hop, rfl⟩) l B evs left hB h

theorem receives_complete {o o' : Bool} {bs : List UInt8} {ds : List Delivery} (h : Complete o bs ds o') : Course o bs bs.length ds .incomplete := by
  refine ⟨Nat.le_refl _, ?_, trivial, fun _ => rfl⟩
  rw [List.take_length]
  have := h.receives (Receives.last (OneFrame.noHeader (isOpen := o') (bs := []) rfl))
  rwa [List.append_nil, List.append_nil] at this

/-- **C13**, the part that holds, for every receiver of either API that is left alone: sequences in which no data frame follows the end of a fragmented message are heard completely. -/
theorem C13_any_receiver_partial (fs : List Frame) (o' : Bool) (hr : RfcSequence false fs o') (hn : NoReuse fs) (l B : Nat) (evs : List Event) (left : List UInt8) (hB : 0 < B)
    (h : HeardBy false (wireOf fs) l B evs left) : Renders l B evs (deliveriesOf fs) ∧ left = [] := by
  obtain ⟨o'', ha⟩ := accepted_of_rfc hr hn
  obtain ⟨k, ds, r, hc, h1, h2⟩ := h.course hB
  obtain ⟨rfl, rfl, _⟩ := hc.det (receives_complete ha.complete)
  exact ⟨h1, by rw [h2, List.drop_length]⟩

/-- **C13**, what the code does instead (a stray continuation). Behind any complete fragmented message (and any pings and pongs), a further continuation frame is accepted by every receiver that is left alone, and its payload is told
to the listener, although the RFC has no message open. -/
theorem C13_actual_stray (fs : List Frame) (hr : RfcSequence false fs false) (hn : NoReuse fs) (g : Frame) (hg : g ∈ fs) (hg0 : g.opcode = 0) (f : Frame) (hf : f.opcode = 0) (hv : f.Valid)
    (l B : Nat) (evs : List Event) (left : List UInt8) (hB : 0 < B) (h : HeardBy false (wireOf (fs ++ [f])) l B evs left) : Renders l B evs (deliveriesOf (fs ++ [f])) ∧ left = [] := by
  obtain ⟨o'', ha⟩ := accepted_of_rfc hr hn
  have ho : o'' = true := opened ha g hg hg0
  subst ho
  have ha' : AcceptedAll false (fs ++ [f]) (openAfterFrame true f) :=
    ha.append (.cons hv (.inl ⟨.inl hf, by unfold mayStart; rw [if_pos hf]⟩) (by omega) .nil)
  obtain ⟨k, ds, r, hc, h1, h2⟩ := h.course hB
  obtain ⟨rfl, rfl, _⟩ := hc.det (receives_complete ha'.complete)
  exact ⟨h1, by rw [h2, List.drop_length]⟩
where
  opened {o o' : Bool} {fs : List Frame} (h : AcceptedAll o fs o') (g : Frame) (hg : g ∈ fs) (hg0 : g.opcode = 0) : o' = true := by
    induction h with
    | nil => exact absurd hg List.not_mem_nil
    | @cons o f fs o' hv ha h8 hrest ih =>
      rcases List.mem_cons.mp hg with rfl | hg
      · have : o = true := by
          rcases ha with ⟨_, hm⟩ | ⟨hd, _⟩
          · unfold mayStart at hm; rw [if_pos hg0] at hm; exact hm
          · unfold isControlOpcode at hd; omega
        rw [hrest.opened]
        unfold openAfterFrame
        rw [if_neg (by omega), this]; rfl
      · exact ih hg

/-! ## Cases -/

/-- The message "Hel" "lo" and the text "abc". -/
def exAnew : List UInt8 := wireOf [Fixture.hel, Fixture.lo, Fixture.text]

theorem exAnewRun : (listen Fixture.env default (Fixture.receiving exAnew)).2.sock.trace.length = 6 ∧ (listen Fixture.env default (Fixture.receiving exAnew)).2.inp.bytes = applyKey? Fixture.text.maskKey Fixture.text.payload := by
  decide +kernel

theorem exAnewAlone (bytes : List UInt8) (h : Healthy (bytes.length + 1) (Fixture.slow (bytes.length + 1))) : ∃ evs left, HeardBy false bytes 7 2 evs left := by
  have hU : Undisturbed Fixture.env (Fixture.receiving bytes) 7 2 false := Fixture.undisturbed _ h
  obtain ⟨k, ds, r, _, _, hall⟩ := C06_independent_of_chunking false bytes
  obtain ⟨evs, st', e, _, _, _⟩ := hall Fixture.env default (Fixture.receiving bytes) 7 2 hU rfl
  exact ⟨st'.sock.trace, st'.inp.bytes, .inl ⟨Fixture.env, default, Fixture.receiving bytes, st', hU.tame, hU.passive, rfl, rfl, rfl, hU.healthy, rfl, e, rfl, rfl⟩⟩

/-- The sequence is one the RFC allows, data follows the fragmented message, and there is a receiver of it. -/
example : RfcSequence false [Fixture.hel, Fixture.lo, Fixture.text] false ∧ ¬ NoReuse [Fixture.hel, Fixture.lo, Fixture.text] ∧ ∃ evs left, HeardBy false exAnew 7 2 evs left :=
  ⟨Fixture.rfc, fun h => absurd (h.2.1 rfl rfl Fixture.text List.mem_cons_self) (by decide), exAnewAlone _ (by decide +kernel)⟩

theorem exAnew_rfc : RfcSequence false [Fixture.hel, Fixture.lo] false := by
  refine .cons ⟨by decide, ?_, by decide⟩ (.inl ⟨.inr (.inl rfl), rfl⟩) (by decide) (.cons ⟨by decide, ?_, by decide⟩ (.inl ⟨.inl rfl, rfl⟩) (by decide) .nil)
  all_goals (intro k hk; injection hk with hk; rw [← hk]; rfl)

/-- "Hel" "lo" is heard; with another "lo" behind it, "Hel" "lo" "lo" is heard. -/
example : (∃ evs left, HeardBy false (wireOf [Fixture.hel, Fixture.lo]) 7 2 evs left ∧ Renders 7 2 evs (deliveriesOf [Fixture.hel, Fixture.lo])) ∧
    ∃ evs left, HeardBy false (wireOf ([Fixture.hel, Fixture.lo] ++ [Fixture.lo])) 7 2 evs left ∧ Renders 7 2 evs (deliveriesOf ([Fixture.hel, Fixture.lo] ++ [Fixture.lo])) := by
  have hn : NoReuse [Fixture.hel, Fixture.lo] := ⟨by decide, by decide, trivial⟩
  obtain ⟨evs, left, h⟩ := exAnewAlone (wireOf [Fixture.hel, Fixture.lo]) (by decide +kernel)
  obtain ⟨evs', left', h'⟩ := exAnewAlone (wireOf ([Fixture.hel, Fixture.lo] ++ [Fixture.lo])) (by decide +kernel)
  refine ⟨⟨evs, left, h, (C13_any_receiver_partial _ _ exAnew_rfc hn _ _ _ _ (by decide) h).1⟩, evs', left', h',
    (C13_actual_stray _ exAnew_rfc hn Fixture.lo (List.mem_cons_of_mem _ List.mem_cons_self) rfl Fixture.lo rfl ⟨by decide, ?_, by decide⟩ _ _ _ _ (by decide) h').1⟩
  intro k hk; injection hk with hk; rw [← hk]; rfl

end OatWS
