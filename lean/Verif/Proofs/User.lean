import Verif.Proofs.ReadHeader
/-! What user code (tame) and the send functions leave unchanged. -/

namespace OatWS

/-- Nothing the receiver depends on has changed; only more was written and listening may have been switched off. -/
structure Kept (s s' : Sock) : Prop where
  config : s'.config = s.config
  listener : s'.listener = s.listener
  lastOpcode : s'.lastOpcode = s.lastOpcode
  trace : s'.trace = s.trace
  listening : s'.listening = true → s.listening = true
  written : s.out.written <+: s'.out.written

theorem Kept.refl (s : Sock) : Kept s s := ⟨rfl, rfl, rfl, rfl, id, List.prefix_rfl⟩

theorem Kept.trans {a b c : Sock} (h : Kept a b) (h' : Kept b c) : Kept a c :=
  ⟨h'.config.trans h.config, h'.listener.trans h.listener, h'.lastOpcode.trans h.lastOpcode, h'.trace.trans h.trace,
    fun x => h.listening (h'.listening x), h.written.trans h'.written⟩

def Keeps {α} (m : P Sock α) : Prop := ∀ s, Kept s (m s).2

theorem Keeps.pure {α} (a : α) : Keeps (Pure.pure a : P Sock α) := fun s => Kept.refl s

theorem Keeps.fail {α} (e : Err) : Keeps (P.fail e : P Sock α) := fun s => Kept.refl s
theorem Keeps.undef {α} (u : UB) : Keeps (P.undef u : P Sock α) := fun s => Kept.refl s
theorem Keeps.get : Keeps (P.get : P Sock Sock) := fun s => Kept.refl s

theorem Keeps.bind {α β} {m : P Sock α} {f : α → P Sock β} (h : Keeps m) (h' : ∀ a, Keeps (f a)) :
    Keeps (m >>= f) := by
  intro s
  have h1 := h s
  rw [P.bind_def, P.bind]
  rcases hm : m s with ⟨(a | _ | _ | _), s'⟩ <;> rw [hm] at h1 <;> simp only []
  · exact h1.trans (h' a s')
  all_goals exact h1

theorem Keeps.ite {α} {c : Prop} [Decidable c] {a b : P Sock α} (ha : Keeps a) (hb : Keeps b) :
    Keeps (if c then a else b) := by
  split
  · exact ha
  · exact hb

theorem connWriteExact_keeps (data) : Keeps (connWriteExact data) := by
  intro s
  obtain ⟨k, sc, hk, h | ⟨hlt, h⟩⟩ := writeExact_spec s.out.sched s.out.written data 0 <;>
    rw [connWriteExact_eq, h] <;> exact ⟨rfl, rfl, rfl, rfl, id, List.prefix_append _ _⟩

theorem writeExpect_keeps (data n e) : Keeps (writeExpect data n e) :=
  (connWriteExact_keeps data).bind fun _ => .ite (.fail e) (.pure _)

theorem sendFrameHeader_keeps (env h fin op n) : Keeps (sendFrameHeader env h fin op n) := by
  unfold sendFrameHeader
  refine Keeps.get.bind fun s => ?_
  have hg : ∀ h : Header, Keeps (generateMaskForFrame env h) := fun h s =>
    ⟨rfl, rfl, rfl, rfl, id, List.prefix_rfl⟩
  have hw : ∀ h : Header, Keeps (writeFrameHeader env h) := by
    intro h
    unfold writeFrameHeader writeLength writeMask
    refine (writeExpect_keeps _ _ _).bind fun _ => Keeps.bind ?_ fun _ => ?_
    · exact .ite (writeExpect_keeps _ _ _) (.ite (writeExpect_keeps _ _ _) (.pure _))
    · exact .ite (writeExpect_keeps _ _ _) (.pure _)
  have hj : ∀ h : Header, Keeps (do writeFrameHeader env h; pure h) := fun h => (hw h).bind fun _ => .pure _
  exact .ite ((hg _).bind hj) (Keeps.bind (.pure _) hj)

theorem sendOneFrame_keeps (env fin op m) : Keeps (sendOneFrame env fin op m) := by
  match m with
  | none => exact (sendFrameHeader_keeps env default fin op 0).bind fun _ => .pure _
  | some [] => exact (sendFrameHeader_keeps env default fin op 0).bind fun _ => .pure _
  | some (b :: bs) =>
    refine (sendFrameHeader_keeps env default fin op _).bind fun h => .ite (.ite (.undef _) ?_) ?_
    · exact (connWriteExact_keeps _).bind fun _ => .pure _
    · exact (connWriteExact_keeps _).bind fun _ => .pure _

theorem stopListening_keeps : Keeps stopListening := by
  intro s; exact ⟨rfl, rfl, rfl, rfl, by simp [stopListening, P.modify], List.prefix_rfl⟩

theorem sendOrStop_keeps (env op m) : Keeps (sendOrStop env op m) :=
  (sendOneFrame_keeps env true op m).bind fun _ => .ite (.pure _) (stopListening_keeps.bind fun _ => .fail _)

theorem send_keeps (env c) : Keeps (send env c) := by
  cases c with
  | oneFrame fin op m => exact (sendOneFrame_keeps env fin op m).bind fun _ => .pure _
  | _ => exact sendOrStop_keeps _ _ _

theorem runUserOp_keeps (env op) (h : UserOp.tame op) : Keeps (runUserOp env op) := by
  cases op with
  | stopListening => exact stopListening_keeps
  | setListener l => exact absurd h (by simp [UserOp.tame])
  | setConfig c => exact absurd h (by simp [UserOp.tame])
  | throw => exact .fail _
  | send call catches =>
    intro s
    have := send_keeps env call s
    have he : runUserOp env (.send call catches) s = match send env call s with
      | (.throw e, s') => if catches then (.ret (), s') else (.throw e, s')
      | r => r := rfl
    rw [he]
    generalize send env call s = r at this
    rcases r with ⟨(_ | _ | _ | _), s'⟩
    · exact this
    · simp only []
      split <;> exact this
    · exact this
    · exact this

theorem runUserOps_keeps (env) (ops : List UserOp) (h : ∀ op ∈ ops, op.tame) : Keeps (runUserOps env ops) := by
  induction ops with
  | nil => exact .pure _
  | cons op ops ih =>
    exact (runUserOp_keeps env op (h op (by simp))).bind fun _ => ih fun o ho => h o (by simp [ho])

/-- A callback to a tame listener: recorded, and nothing else changes. `s.trace` grows by the event iff there is a
listener. -/
theorem callListener_kept (env : Env) (ht : env.Tame) (mk : Nat → Event) (s : Sock) :
    ∃ x s', callListener env mk s = (x, s') ∧
      Kept { s with trace := s.trace ++ (s.listener.map mk).toList } s' ∧
      (x ≠ .ret () → s.listener.isSome ∧ ¬ env.Returns) := by
  rcases s with ⟨config, listener, lastOpcode, listening, out, rngPos, trace⟩
  cases listener with
  | none =>
    refine ⟨.ret (), _, rfl, ?_, by simp⟩
    simp only [Option.map_none, Option.toList_none, List.append_nil]
    exact Kept.refl _
  | some l =>
    simp only [callListener]
    have hk := runUserOps_keeps env (env.react (trace ++ [mk l])) (ht _)
      ⟨config, some l, lastOpcode, listening, out, rngPos, trace ++ [mk l]⟩
    rcases hr : runUserOps env (env.react (trace ++ [mk l]))
      ⟨config, some l, lastOpcode, listening, out, rngPos, trace ++ [mk l]⟩ with ⟨x, s'⟩
    rw [hr] at hk
    refine ⟨x, s', rfl, hk, ?_⟩
    intro hx
    refine ⟨rfl, fun hret => ?_⟩
    obtain ⟨s'', h2⟩ := hret (trace ++ [mk l]) ⟨config, some l, lastOpcode, listening, out, rngPos, trace ++ [mk l]⟩
    rw [hr] at h2
    injection h2 with h2
    exact hx h2

end OatWS
