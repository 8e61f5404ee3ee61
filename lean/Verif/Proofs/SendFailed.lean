import Verif.Proofs.SendLog
import Verif.Spec.Moment
/-! Records of sends one of which may have failed: what follows from their form alone. -/

namespace OatWS.Async
open RFC6455

/-- Serialised sends, no call after a failed one: the bytes are a beginning of the frames of the calls. -/
theorem Lawful.wire_some {env : Env} {log : List Entry} (h : Lawful env log) (hser : Serialised log) (hres : Resigned log)
    (hsmall : ∀ c ∈ callsOf log, c.content.2.2.length < 2 ^ 63) : ∃ F, CarryAll env (callsOf log) F ∧ log.flatMap Entry.wrote <+: wireOf F := by
  suffices main : (∃ fs, CarryAll env (callsOf log) fs ∧ (∀ j, ¬ Sending j log) ∧ log.flatMap Entry.wrote = wireOf fs) ∨
      (∃ cs s r fs j, callsOf log = cs ++ [s.call] ∧ CarryAll env cs fs ∧ sendsOf j log = s :: r ∧
        log.flatMap Entry.wrote = wireOf fs ++ s.bytes ∧
        ((s.state = .inProgress ∧ ∀ i, i ≠ j → ¬ Sending i log) ∨ ((∃ e ∈ log, e.failed = true) ∧ ∀ i, ¬ Sending i log))) by
    rcases main with ⟨fs, h1, h2, h3⟩ | ⟨cs, s, r, fs, j, h1, h2, h3, h4, -⟩
    · exact ⟨fs, h1, by rw [h3]; exact List.prefix_refl _⟩
    · obtain ⟨f, hf, -, hp, -⟩ := h.sound j s (by rw [h3]; simp) (hsmall _ (by rw [h1]; simp))
      refine ⟨fs ++ [f], by rw [h1]; exact carryAll_snoc h2 hf, ?_⟩
      rw [h4]
      have : wireOf (fs ++ [f]) = wireOf fs ++ f.encode := by simp [wireOf]
      rw [this]
      exact (List.prefix_append_right_inj _).mpr hp
  induction h with
  | nil => exact .inl ⟨[], trivial, ⟨(by rintro j ⟨s, r, e, _⟩; cases e), rfl⟩⟩
  | @snoc log e hlog hcase hsound ih =>
    have hno : (∃ e' ∈ log, e'.failed = true) → e.called = none := by
      rintro ⟨e', h1, h2⟩
      obtain ⟨x, y, rfl⟩ := List.append_of_mem h1
      exact hres x e' (y ++ [e]) (by simp) h2 e (by simp)
    have ih := ih hser.init (fun x e' y hx hf a ha => hres x e' (y ++ [e]) (by rw [hx]; simp) hf a (by simp [ha]))
      (fun c hc => hsmall c (by unfold callsOf at hc ⊢; rw [List.filterMap_append]; simp [hc]))
    rcases e with ⟨i, called, bs, drew, completed, failed⟩
    simp only at hcase hsound hno
    have hS : sendsOf i (log ++ [⟨i, called, bs, drew, completed, failed⟩]) =
        feed (sendsOf i log) ⟨i, called, bs, drew, completed, failed⟩ := by rw [sendsOf_snoc, if_pos rfl]
    have hS' : ∀ j, j ≠ i → sendsOf j (log ++ [⟨i, called, bs, drew, completed, failed⟩]) = sendsOf j log := by
      intro j hj; rw [sendsOf_snoc, if_neg (fun e => hj e.symm)]
    have hSe : ∀ j, j ≠ i → (Sending j (log ++ [⟨i, called, bs, drew, completed, failed⟩]) ↔ Sending j log) := by
      intro j hj; unfold Sending; rw [hS' j hj]
    have hbytes : (log ++ [(⟨i, called, bs, drew, completed, failed⟩ : Entry)]).flatMap Entry.wrote = log.flatMap Entry.wrote ++ bs := by simp
    have hcalls : callsOf (log ++ [(⟨i, called, bs, drew, completed, failed⟩ : Entry)]) = callsOf log ++ called.toList := by
      unfold callsOf; rw [List.filterMap_append]
      cases called <;> rfl
    have hfailed : (∃ e ∈ log, e.failed = true) → ∃ e ∈ log ++ [(⟨i, called, bs, drew, completed, failed⟩ : Entry)], e.failed = true :=
      fun ⟨e, h1, h2⟩ => ⟨e, by simp [h1], h2⟩
    rw [hbytes, hcalls]
    rcases hcase with ⟨hdone, hnil, hsame⟩ | ⟨hnone, s, r, hss, hst⟩
    · subst hnil
      rw [List.append_nil]
      have hni : ¬ Sending i log := headOver_iff.mp hdone
      cases called with
      | none =>
        have hsame := hsame rfl
        rw [hsame] at hS
        have hall : ∀ j, (Sending j (log ++ [⟨i, none, [], drew, completed, failed⟩]) ↔ Sending j log) := by
          intro j
          by_cases hj : j = i
          · subst hj; unfold Sending; rw [hS]
          · exact hSe j hj
        simp only [Option.toList_none, List.append_nil]
        rcases ih with ⟨fs, h1, h2, h3⟩ | ⟨cs, s, r, fs, j, h1, h2, h3, h7, h8⟩
        · exact .inl ⟨fs, h1, fun j hj => h2 j ((hall j).mp hj), h3⟩
        · refine .inr ⟨cs, s, r, fs, j, h1, h2, ?_, h7, ?_⟩
          · by_cases hj : j = i
            · subst hj; rw [hS]; exact h3
            · rw [hS' j hj]; exact h3
          · rcases h8 with ⟨h8, h9⟩ | ⟨h8, h9⟩
            · exact .inl ⟨h8, fun k hk hs => h9 k hk ((hall k).mp hs)⟩
            · exact .inr ⟨hfailed h8, fun k hs => h9 k ((hall k).mp hs)⟩
      | some c =>
        have hnos : ∀ j, ¬ Sending j log := by
          intro j
          by_cases hj : j = i
          · subst hj; exact hni
          · exact hser log _ [] rfl rfl j hj
        rcases ih with ⟨fs, h1, h2, h3⟩ | ⟨cs, s, r, fs, j, h1, h2, h3, h7, h8⟩
        · refine .inr ⟨callsOf log, ⟨c, [], drew, .inProgress⟩, sendsOf i log, fs, i, rfl, h1, ?_, by rw [h3]; simp, .inl ⟨rfl, ?_⟩⟩
          · rw [hS]; rfl
          · intro k hk hs; exact hnos k ((hSe k hk).mp hs)
        · rcases h8 with ⟨h8, _⟩ | ⟨h8, _⟩
          · exact absurd ⟨s, r, h3, h8⟩ (hnos j)
          · cases hno h8
    · subst hnone
      simp only [Option.toList_none, List.append_nil]
      have hsi : Sending i log := ⟨s, r, hss, hst⟩
      rcases ih with ⟨fs, h1, h2, h3⟩ | ⟨cs, s', r', fs, j, h1, h2, h3, h7, h8⟩
      · exact absurd hsi (h2 i)
      · rcases h8 with ⟨h4, h5⟩ | ⟨_, h8⟩
        · have hj : j = i := by
            by_cases hj : j = i
            · exact hj
            · exact absurd hsi (h5 i (fun e => hj e.symm))
          subst hj
          rw [hss] at h3
          injection h3 with h3 h3'
          subst h3 h3'
          rw [hss] at hS hsound
          have hfd : feed (s :: r) ⟨j, none, bs, drew, completed, failed⟩ =
            ⟨s.call, s.bytes ++ bs, s.key.or drew, if completed then .completed else if failed then .failed else s.state⟩ :: r := rfl
          rw [hfd] at hS hsound
          have hover : ∀ st : SendState, sendsOf j (log ++ [⟨j, none, bs, drew, completed, failed⟩]) = ⟨s.call, s.bytes ++ bs, s.key.or drew, st⟩ :: r → st ≠ .inProgress →
              ∀ k, ¬ Sending k (log ++ [⟨j, none, bs, drew, completed, failed⟩]) := by
            intro st e hst k hk
            by_cases hkj : k = j
            · subst hkj
              obtain ⟨s', r', e', hs'⟩ := hk
              rw [e] at e'
              injection e' with e' _
              rw [← e'] at hs'
              exact hst hs'
            · exact h5 k hkj ((hSe k hkj).mp hk)
          cases completed with
          | true =>
            have hsnd := hsound ⟨s.call, s.bytes ++ bs, s.key.or drew, .completed⟩ (by simp) (hsmall _ (by rw [hcalls, h1]; simp))
            obtain ⟨f, hf, -, -, hcomp, -⟩ := hsnd
            have hcomp : s.bytes ++ bs = f.encode := hcomp rfl
            refine .inl ⟨fs ++ [f], by rw [h1]; exact carryAll_snoc h2 hf, hover _ hS nofun, ?_⟩
            rw [h7, List.append_assoc, hcomp]
            simp [wireOf]
          | false =>
            cases failed with
            | true =>
              exact .inr ⟨cs, ⟨s.call, s.bytes ++ bs, s.key.or drew, .failed⟩, r, fs, j, h1, h2, hS, by rw [h7, List.append_assoc],
                .inr ⟨⟨_, List.mem_append_right _ (List.mem_singleton.mpr rfl), rfl⟩, hover _ hS nofun⟩⟩
            | false =>
              refine .inr ⟨cs, ⟨s.call, s.bytes ++ bs, s.key.or drew, s.state⟩, r, fs, j, h1, h2, hS, by rw [h7, List.append_assoc], .inl ⟨hst, ?_⟩⟩
              intro k hk hs
              exact h5 k hk ((hSe k hk).mp hs)
        · exact absurd hsi (h8 i)

end OatWS.Async
