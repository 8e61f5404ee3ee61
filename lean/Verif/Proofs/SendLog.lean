import Verif.Spec.Concurrent
import Verif.Spec.Frames
/-! # Records of sends: what follows from their form alone -/

namespace OatWS.Async
open RFC6455

/-- A message of a size that exists (string sizes are below 2^63). -/
def Small (c : SendCall) : Prop := c.content.2.2.length < 2 ^ 63

def HeadOver (ss : List Sent) : Prop := ∀ s r, ss = s :: r → s.state ≠ .inProgress

/-- All bytes of the sends, in order. -/
def sentBytes (ss : List Sent) : List UInt8 := ss.reverse.flatMap Sent.bytes

theorem sentBytes_cons (s : Sent) (ss : List Sent) : sentBytes (s :: ss) = sentBytes ss ++ s.bytes := by
  simp [sentBytes]

theorem HeadOver.tail {ss} (h1 : HeadOver ss) (h2 : ∀ s ∈ ss.tail, s.state ≠ .inProgress) : ∀ s ∈ ss, s.state ≠ .inProgress := by
  intro s hs
  cases ss with
  | nil => cases hs
  | cons a r =>
    rcases List.mem_cons.mp hs with rfl | hs
    · exact h1 _ _ rfl
    · exact h2 s hs

theorem sendsOf_snoc (i : Nat) (log : List Entry) (e : Entry) :
    sendsOf i (log ++ [e]) = if e.task = i then feed (sendsOf i log) e else sendsOf i log := by
  unfold sendsOf
  rw [List.filter_append, List.foldl_append]
  by_cases h : e.task = i
  · rw [if_pos h]; simp [h]
  · rw [if_neg h]; simp [h]

theorem bytesOf_snoc (i : Nat) (log : List Entry) (e : Entry) :
    bytesOf i (log ++ [e]) = if e.task = i then bytesOf i log ++ e.wrote else bytesOf i log := by
  unfold bytesOf
  rw [List.filter_append, List.flatMap_append]
  by_cases h : e.task = i
  · rw [if_pos h]; simp [h]
  · rw [if_neg h]; simp [h]

theorem headOver_iff {i log} : HeadOver (sendsOf i log) ↔ ¬ Sending i log := by
  constructor
  · rintro h ⟨s, r, e, hs⟩; exact h s r e hs
  · intro h s r e hs; exact h ⟨s, r, e, hs⟩

theorem carryAll_snoc {env cs fs c f} (h : CarryAll env cs fs) (h' : Carries env c f) : CarryAll env (cs ++ [c]) (fs ++ [f]) := by
  induction cs generalizing fs with
  | nil =>
    cases fs with
    | nil => exact ⟨h', trivial⟩
    | cons _ _ => exact h.elim
  | cons c' cs ih =>
    cases fs with
    | nil => exact h.elim
    | cons f' fs => exact ⟨h.1, ih h.2⟩

theorem Serialised.init {log e} (h : Serialised (log ++ [e])) : Serialised log := by
  intro a x b hx hc j hj
  exact h a x (b ++ [e]) (by rw [hx]; simp) hc j hj

theorem sending_iff_call {i log} (e : Entry) (he : e.task ≠ i) : Sending i (log ++ [e]) ↔ Sending i log := by
  unfold Sending; rw [sendsOf_snoc, if_neg he]

/-- A record in which every send is sound at all times, a task does not call while it is sending, and writes only then. -/
inductive Lawful (env : Env) : List Entry → Prop
  | nil : Lawful env []
  | snoc {log e} : Lawful env log →
      ((HeadOver (sendsOf e.task log) ∧ e.wrote = [] ∧ (e.called = none → feed (sendsOf e.task log) e = sendsOf e.task log)) ∨
        (e.called = none ∧ Sending e.task log)) →
      (∀ s ∈ feed (sendsOf e.task log) e, Small s.call → s.Sound env) → Lawful env (log ++ [e])

theorem Lawful.sound {env log} (h : Lawful env log) (i : Nat) : ∀ s ∈ sendsOf i log, Small s.call → s.Sound env := by
  induction h with
  | nil => intro s hs; cases hs
  | @snoc log e _ _ hs ih =>
    rw [sendsOf_snoc]
    by_cases he : e.task = i
    · rw [if_pos he, ← he]; exact hs
    · rw [if_neg he]; exact ih

/-- Serialised sends none of which fails: whole frames, in the order of the calls; perhaps a beginning of another one. -/
theorem Lawful.wire {env : Env} {log : List Entry} (h : Lawful env log) (hser : Serialised log) (hok : ∀ e ∈ log, e.failed = false)
    (hsmall : ∀ c ∈ callsOf log, c.content.2.2.length < 2 ^ 63) :
    (∃ fs, CarryAll env (callsOf log) fs ∧ (∀ j, ¬ Sending j log) ∧ log.flatMap Entry.wrote = wireOf fs) ∨
    (∃ cs c fs f part j, callsOf log = cs ++ [c] ∧ CarryAll env cs fs ∧ Carries env c f ∧ part <+: f.encode ∧
      Sending j log ∧ (∀ i, i ≠ j → ¬ Sending i log) ∧ log.flatMap Entry.wrote = wireOf fs ++ part) := by
  suffices main : (∃ fs, CarryAll env (callsOf log) fs ∧ (∀ j, ¬ Sending j log) ∧ log.flatMap Entry.wrote = wireOf fs) ∨
      (∃ cs s r fs j, callsOf log = cs ++ [s.call] ∧ CarryAll env cs fs ∧ sendsOf j log = s :: r ∧ s.state = .inProgress ∧
        (∀ i, i ≠ j → ¬ Sending i log) ∧ log.flatMap Entry.wrote = wireOf fs ++ s.bytes) by
    rcases main with ⟨fs, h1, h2, h3⟩ | ⟨cs, s, r, fs, j, h1, h2, h3, h4, h5, h7⟩
    · exact .inl ⟨fs, h1, h2, h3⟩
    · obtain ⟨f, hf, -, hp, -⟩ := h.sound j s (by rw [h3]; simp) (hsmall _ (by rw [h1]; simp))
      exact .inr ⟨cs, s.call, fs, f, s.bytes, j, h1, h2, hf, hp, ⟨s, r, h3, h4⟩, h5, h7⟩
  induction h with
  | nil => exact .inl ⟨[], trivial, ⟨(by rintro j ⟨s, r, e, _⟩; cases e), rfl⟩⟩
  | @snoc log e hlog hcase hsound ih =>
    have ih := ih hser.init (fun e he => hok e (by simp [he])) (fun c hc => hsmall c (by unfold callsOf at hc ⊢; rw [List.filterMap_append]; simp [hc]))
    have hfail := hok e (by simp)
    rcases e with ⟨i, called, bs, drew, completed, failed⟩
    simp only at hfail hcase hsound
    subst hfail
    have hS : sendsOf i (log ++ [⟨i, called, bs, drew, completed, false⟩]) =
        feed (sendsOf i log) ⟨i, called, bs, drew, completed, false⟩ := by rw [sendsOf_snoc, if_pos rfl]
    have hS' : ∀ j, j ≠ i → sendsOf j (log ++ [⟨i, called, bs, drew, completed, false⟩]) = sendsOf j log := by
      intro j hj; rw [sendsOf_snoc, if_neg (fun e => hj e.symm)]
    have hSe : ∀ j, j ≠ i → (Sending j (log ++ [⟨i, called, bs, drew, completed, false⟩]) ↔ Sending j log) := by
      intro j hj; unfold Sending; rw [hS' j hj]
    have hbytes : (log ++ [(⟨i, called, bs, drew, completed, false⟩ : Entry)]).flatMap Entry.wrote = log.flatMap Entry.wrote ++ bs := by simp
    have hcalls : callsOf (log ++ [(⟨i, called, bs, drew, completed, false⟩ : Entry)]) = callsOf log ++ called.toList := by
      unfold callsOf; rw [List.filterMap_append]
      cases called <;> rfl
    rw [hbytes, hcalls]
    rcases hcase with ⟨hdone, hnil, hsame⟩ | ⟨hnone, s, r, hss, hst⟩
    · subst hnil
      rw [List.append_nil]
      have hni : ¬ Sending i log := headOver_iff.mp hdone
      cases called with
      | none =>
        have hsame := hsame rfl
        rw [hsame] at hS
        have hall : ∀ j, (Sending j (log ++ [⟨i, none, [], drew, completed, false⟩]) ↔ Sending j log) := by
          intro j
          by_cases hj : j = i
          · subst hj; unfold Sending; rw [hS]
          · exact hSe j hj
        simp only [Option.toList_none, List.append_nil]
        rcases ih with ⟨fs, h1, h2, h3⟩ | ⟨cs, s, r, fs, j, h1, h2, h3, h4, h5, h7⟩
        · exact .inl ⟨fs, h1, fun j hj => h2 j ((hall j).mp hj), h3⟩
        · refine .inr ⟨cs, s, r, fs, j, h1, h2, ?_, h4, fun k hk hs => h5 k hk ((hall k).mp hs), h7⟩
          by_cases hj : j = i
          · subst hj; rw [hS]; exact h3
          · rw [hS' j hj]; exact h3
      | some c =>
        have hnos : ∀ j, ¬ Sending j log := by
          intro j
          by_cases hj : j = i
          · subst hj; exact hni
          · exact hser log _ [] rfl rfl j hj
        rcases ih with ⟨fs, h1, h2, h3⟩ | ⟨cs, s, r, fs, j, h1, h2, h3, h4, h5, h7⟩
        · refine .inr ⟨callsOf log, ⟨c, [], drew, .inProgress⟩, sendsOf i log, fs, i, rfl, h1, ?_, rfl, ?_, by rw [h3]; simp⟩
          · rw [hS]; rfl
          · intro k hk hs; exact hnos k ((hSe k hk).mp hs)
        · exact absurd ⟨s, r, h3, h4⟩ (hnos j)
    · subst hnone
      simp only [Option.toList_none, List.append_nil]
      have hsi : Sending i log := ⟨s, r, hss, hst⟩
      rcases ih with ⟨fs, h1, h2, h3⟩ | ⟨cs, s', r', fs, j, h1, h2, h3, h4, h5, h7⟩
      · exact absurd hsi (h2 i)
      · have hj : j = i := by
          by_cases hj : j = i
          · exact hj
          · exact absurd hsi (h5 i (fun e => hj e.symm))
        subst hj
        rw [hss] at h3
        injection h3 with h3 h3'
        subst h3 h3'
        rw [hss] at hS hsound
        have hfd : feed (s :: r) ⟨j, none, bs, drew, completed, false⟩ =
          ⟨s.call, s.bytes ++ bs, s.key.or drew, if completed then .completed else if false then .failed else s.state⟩ :: r := rfl
        rw [hfd] at hS hsound
        cases completed with
        | true =>
          have hsnd := hsound ⟨s.call, s.bytes ++ bs, s.key.or drew, .completed⟩ (by simp) (hsmall _ (by rw [hcalls, h1]; simp))
          obtain ⟨f, hf, -, -, hcomp, -⟩ := hsnd
          have hcomp : s.bytes ++ bs = f.encode := hcomp rfl
          refine .inl ⟨fs ++ [f], by rw [h1]; exact carryAll_snoc h2 hf, ?_, ?_⟩
          · intro k hk
            by_cases hkj : k = j
            · subst hkj
              obtain ⟨s', r', e, hs'⟩ := hk
              rw [hS] at e
              injection e with e _
              rw [← e] at hs'
              cases hs'
            · exact h5 k hkj ((hSe k hkj).mp hk)
          · rw [h7, List.append_assoc, hcomp]
            simp [wireOf]
        | false =>
          refine .inr ⟨cs, ⟨s.call, s.bytes ++ bs, s.key.or drew, s.state⟩, r, fs, j, h1, h2, hS, hst, ?_, by rw [h7, List.append_assoc]⟩
          intro k hk hs
          exact h5 k hk ((hSe k hk).mp hs)

end OatWS.Async
