import Verif.Proofs.SendLog
/-! Serialised sends, whose frames have any property. -/

namespace OatWS.Async
open RFC6455

/-- Calls and frames, one for one, in order. -/
def EachOf (K : SendCall → Frame → Prop) : List SendCall → List Frame → Prop
  | [], [] => True
  | c :: cs, f :: fs => K c f ∧ EachOf K cs fs
  | _, _ => False

theorem eachOf_snoc {K cs fs c f} (h : EachOf K cs fs) (h' : K c f) : EachOf K (cs ++ [c]) (fs ++ [f]) := by
  induction cs generalizing fs with
  | nil => cases fs with
    | nil => exact ⟨h', trivial⟩
    | cons => exact absurd h id
  | cons c' cs ih => cases fs with
    | nil => exact absurd h id
    | cons f' fs => exact ⟨h.1, ih h.2⟩

theorem EachOf.both {env : Env} {P : Frame → Prop} {cs fs} (h : EachOf (fun c f => Carries env c f ∧ P f) cs fs) : CarryAll env cs fs ∧ ∀ f ∈ fs, P f := by
  induction cs generalizing fs with
  | nil => cases fs with
    | nil => exact ⟨trivial, fun _ h => (by cases h)⟩
    | cons => exact absurd h id
  | cons c cs ih => cases fs with
    | nil => exact absurd h id
    | cons f fs =>
      refine ⟨⟨h.1.1, (ih h.2).1⟩, fun x hx => ?_⟩
      rcases List.mem_cons.mp hx with rfl | hx
      · exact h.1.2
      · exact (ih h.2).2 x hx

/-- Serialised sends none of which fails: whole frames, in the order of the calls; perhaps a beginning of another one. -/
theorem Lawful.wire_of {env : Env} {log : List Entry} (h : Lawful env log) (K : SendCall → Frame → Prop) (hser : Serialised log) (hok : ∀ e ∈ log, e.failed = false)
    (hsmall : ∀ c ∈ callsOf log, c.content.2.2.length < 2 ^ 63)
    (hK : ∀ a b, log = a ++ b → ∀ i, ∀ s ∈ sendsOf i a, Small s.call → ∃ f, K s.call f ∧ s.bytes <+: f.encode ∧ (s.state = .completed → s.bytes = f.encode)) :
    (∃ fs, EachOf K (callsOf log) fs ∧ (∀ j, ¬ Sending j log) ∧ log.flatMap Entry.wrote = wireOf fs) ∨
    (∃ cs c fs f part j, callsOf log = cs ++ [c] ∧ EachOf K cs fs ∧ K c f ∧ part <+: f.encode ∧
      Sending j log ∧ (∀ i, i ≠ j → ¬ Sending i log) ∧ log.flatMap Entry.wrote = wireOf fs ++ part) := by
  suffices main : (∃ fs, EachOf K (callsOf log) fs ∧ (∀ j, ¬ Sending j log) ∧ log.flatMap Entry.wrote = wireOf fs) ∨
      (∃ cs s r fs j, callsOf log = cs ++ [s.call] ∧ EachOf K cs fs ∧ sendsOf j log = s :: r ∧ s.state = .inProgress ∧
        (∀ i, i ≠ j → ¬ Sending i log) ∧ log.flatMap Entry.wrote = wireOf fs ++ s.bytes) by
    rcases main with ⟨fs, h1, h2, h3⟩ | ⟨cs, s, r, fs, j, h1, h2, h3, h4, h5, h7⟩
    · exact .inl ⟨fs, h1, h2, h3⟩
    · obtain ⟨f, hf, hp, -⟩ := hK log [] (by simp) j s (by rw [h3]; simp) (hsmall _ (by rw [h1]; simp))
      exact .inr ⟨cs, s.call, fs, f, s.bytes, j, h1, h2, hf, hp, ⟨s, r, h3, h4⟩, h5, h7⟩
  induction h with
  | nil => exact .inl ⟨[], trivial, ⟨(by rintro j ⟨s, r, e, _⟩; cases e), rfl⟩⟩
  | @snoc log e hlog hcase hsound ih =>
    have ih := ih hser.init (fun e he => hok e (by simp [he])) (fun c hc => hsmall c (by unfold callsOf at hc ⊢; rw [List.filterMap_append]; simp [hc]))
      (fun a b e => hK a (b ++ [_]) (by rw [e, List.append_assoc]))
    have hfail := hok e (by simp)
    rcases e with ⟨i, called, bs, drew, completed, failed⟩
    simp only at hfail hcase
    subst hfail
    have hS : sendsOf i (log ++ [⟨i, called, bs, drew, completed, false⟩]) =
        feed (sendsOf i log) ⟨i, called, bs, drew, completed, false⟩ := by rw [sendsOf_snoc, if_pos rfl]
    have hS' : ∀ j, j ≠ i → sendsOf j (log ++ [⟨i, called, bs, drew, completed, false⟩]) = sendsOf j log := by
      intro j hj; rw [sendsOf_snoc, if_neg (fun e => hj e.symm)]
    have hSe : ∀ j, j ≠ i → (Sending j (log ++ [⟨i, called, bs, drew, completed, false⟩]) ↔ Sending j log) := by
      intro j hj; unfold Sending; rw [hS' j hj]
    have hbytes : (log ++ [(⟨i, called, bs, drew, completed, false⟩ : Entry)]).flatMap Entry.wrote = log.flatMap Entry.wrote ++ bs := by simp
    have hcalls : callsOf (log ++ [(⟨i, called, bs, drew, completed, false⟩ : Entry)]) = callsOf log ++ called.toList := by
      unfold callsOf; rw [List.filterMap_append]
      cases called <;> rfl
    rw [hbytes, hcalls]
    rcases hcase with ⟨hdone, hnil, hsame⟩ | ⟨hnone, s, r, hss, hst⟩
    · subst hnil
      rw [List.append_nil]
      have hni : ¬ Sending i log := headOver_iff.mp hdone
      cases called with
      | none =>
        have hsame := hsame rfl
        rw [hsame] at hS
        have hall : ∀ j, (Sending j (log ++ [⟨i, none, [], drew, completed, false⟩]) ↔ Sending j log) := by
          intro j
          by_cases hj : j = i
          · subst hj; unfold Sending; rw [hS]
          · exact hSe j hj
        simp only [Option.toList_none, List.append_nil]
        rcases ih with ⟨fs, h1, h2, h3⟩ | ⟨cs, s, r, fs, j, h1, h2, h3, h4, h5, h7⟩
        · exact .inl ⟨fs, h1, fun j hj => h2 j ((hall j).mp hj), h3⟩
        · refine .inr ⟨cs, s, r, fs, j, h1, h2, ?_, h4, fun k hk hs => h5 k hk ((hall k).mp hs), h7⟩
          by_cases hj : j = i
          · subst hj; rw [hS]; exact h3
          · rw [hS' j hj]; exact h3
      | some c =>
        have hnos : ∀ j, ¬ Sending j log := by
          intro j
          by_cases hj : j = i
          · subst hj; exact hni
          · exact hser log _ [] rfl rfl j hj
        rcases ih with ⟨fs, h1, h2, h3⟩ | ⟨cs, s, r, fs, j, h1, h2, h3, h4, h5, h7⟩
        · refine .inr ⟨callsOf log, ⟨c, [], drew, .inProgress⟩, sendsOf i log, fs, i, rfl, h1, ?_, rfl, ?_, by rw [h3]; simp⟩
          · rw [hS]; rfl
          · intro k hk hs; exact hnos k ((hSe k hk).mp hs)
        · exact absurd ⟨s, r, h3, h4⟩ (hnos j)
    · subst hnone
      simp only [Option.toList_none, List.append_nil]
      have hsi : Sending i log := ⟨s, r, hss, hst⟩
      rcases ih with ⟨fs, h1, h2, h3⟩ | ⟨cs, s', r', fs, j, h1, h2, h3, h4, h5, h7⟩
      · exact absurd hsi (h2 i)
      · have hj : j = i := by
          by_cases hj : j = i
          · exact hj
          · exact absurd hsi (h5 i (fun e => hj e.symm))
        subst hj
        rw [hss] at h3
        injection h3 with h3 h3'
        subst h3 h3'
        rw [hss] at hS
        have hfd : feed (s :: r) ⟨j, none, bs, drew, completed, false⟩ =
          ⟨s.call, s.bytes ++ bs, s.key.or drew, if completed then .completed else if false then .failed else s.state⟩ :: r := rfl
        rw [hfd] at hS
        cases completed with
        | true =>
          obtain ⟨f, hf, -, hcomp⟩ := hK _ [] (List.append_nil _).symm j ⟨s.call, s.bytes ++ bs, s.key.or drew, .completed⟩ (by rw [hS]; simp) (hsmall _ (by rw [hcalls, h1]; simp))
          have hcomp : s.bytes ++ bs = f.encode := hcomp rfl
          refine .inl ⟨fs ++ [f], by rw [h1]; exact eachOf_snoc h2 hf, ?_, ?_⟩
          · intro k hk
            by_cases hkj : k = j
            · subst hkj
              obtain ⟨s', r', e, hs'⟩ := hk
              rw [hS] at e
              injection e with e _
              rw [← e] at hs'
              cases hs'
            · exact h5 k hkj ((hSe k hkj).mp hk)
          · rw [h7, List.append_assoc, hcomp]
            simp [wireOf]
        | false =>
          refine .inr ⟨cs, ⟨s.call, s.bytes ++ bs, s.key.or drew, s.state⟩, r, fs, j, h1, h2, hS, hst, ?_, by rw [h7, List.append_assoc]⟩
          intro k hk hs
          exact h5 k hk ((hSe k hk).mp hs)

end OatWS.Async
