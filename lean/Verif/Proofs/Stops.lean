import Verif.Proofs.Loop
import Verif.Spec.Frames
/-! Stopping inside callbacks. -/

namespace OatWS
open RFC6455

/-- One of the callbacks `evs`, made after the history `before`, calls `stopListening`. -/
def StopsIn (env : Env) (before evs : List Event) : Prop := ∃ i, i < evs.length ∧ env.StopsAt (before ++ evs.take (i + 1))

theorem StopsIn.append {env before a b} : StopsIn env before (a ++ b) ↔ StopsIn env before a ∨ StopsIn env (before ++ a) b := by
  constructor
  · rintro ⟨i, hi, h⟩
    rw [List.length_append] at hi
    by_cases ha : i < a.length
    · exact .inl ⟨i, ha, by rwa [List.take_append_of_le_length (by omega)] at h⟩
    · refine .inr ⟨i - a.length, by omega, ?_⟩
      rw [List.take_append, List.take_of_length_le (by omega), show i + 1 - a.length = i - a.length + 1 by omega] at h
      rwa [List.append_assoc]
  · rintro (⟨i, hi, h⟩ | ⟨i, hi, h⟩)
    · exact ⟨i, by rw [List.length_append]; omega, by rwa [List.take_append_of_le_length (by omega)]⟩
    · refine ⟨a.length + i, by rw [List.length_append]; omega, ?_⟩
      rw [List.take_append, List.take_of_length_le (by omega), show a.length + i + 1 - a.length = i + 1 by omega,
        ← List.append_assoc]
      exact h

theorem stopsIn_nil {env before} : ¬ StopsIn env before [] := fun ⟨i, h, _⟩ => by simp at h

theorem stopsIn_of_stopRel {env : Env} {s s' : Sock} {evs} (h : StopRel env true s s') (htr : s'.trace = s.trace ++ evs)
    (hs : StopsIn env s.trace evs) : s'.listening = false := by
  obtain ⟨⟨_, _, h2⟩, _⟩ := h
  obtain ⟨i, hi, hst⟩ := hs
  refine h2 rfl _ ?_ ?_ hst
  · simp only [List.length_append, List.length_take]; omega
  · rw [htr]; exact (List.prefix_append_right_inj _).mpr (List.take_prefix _ _)

/-- With a listener that only stops by `stopListening`, listening is on as long as no callback stopped. -/
def OnlyRel (env : Env) (_ : Bool) (s s' : Sock) : Prop :=
  ∃ evs, s'.trace = s.trace ++ evs ∧ (¬ StopsIn env s.trace evs → s'.listening = s.listening)

theorem onlyRel {env : Env} (h : env.OnlyStops) : SockRel env (OnlyRel env) where
  refl s := ⟨[], by simp, fun _ => rfl⟩
  weaken h := h
  trans := by
    rintro a b c x ⟨e1, t1, s1⟩ ⟨e2, t2, s2⟩
    refine ⟨e1 ++ e2, by rw [t2, t1, List.append_assoc], fun hn => ?_⟩
    rw [StopsIn.append] at hn
    rw [s2 (fun e => hn (.inr (by rwa [t1] at e))), s1 (fun e => hn (.inl e))]
  call mk _ s := by
    cases hl : s.listener with
    | none => rw [callListener_none hl]; exact ⟨[], by simp, fun _ => rfl⟩
    | some l =>
      rw [callListener_some hl]
      refine ⟨[mk l], runUserOps_trace _ _, fun hn => ?_⟩
      obtain ⟨s', e, h2⟩ := h (s.trace ++ [mk l]) { s with trace := s.trace ++ [mk l] }
      rw [e]
      exact h2 (fun hm => hn ⟨0, by simp, hm⟩)
  last s v := ⟨[], by simp, fun _ => rfl⟩

theorem Env.OnlyStops.returns {env : Env} (h : env.OnlyStops) : env.Returns := fun tr s => by
  obtain ⟨s', e, _⟩ := h tr s; exact ⟨s', e⟩

end OatWS
