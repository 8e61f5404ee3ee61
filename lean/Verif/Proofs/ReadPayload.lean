import Verif.Proofs.User
/-! The payload loop delivers exactly the (unmasked) bytes it consumed. -/

namespace OatWS
open RFC6455

/-- Unmask (if there is a key) data that starts at position `off` of the payload. -/
def decodeFrom (key : Option (List UInt8)) (off : Nat) (bs : List UInt8) : List UInt8 :=
  match key with
  | none => bs
  | some k => applyKeyFrom off k bs

theorem decodeFrom_zero (key bs) : decodeFrom key 0 bs = applyKey? key bs := by cases key <;> rfl

theorem decodeFrom_append (key off a b) :
    decodeFrom key off (a ++ b) = decodeFrom key off a ++ decodeFrom key (off + a.length) b := by
  cases key with
  | none => rfl
  | some k => exact applyKeyFrom_append off k a b

theorem decodeFrom_length (key off a) : (decodeFrom key off a).length = a.length := by
  cases key with
  | none => rfl
  | some k => exact applyKeyFrom_length off k a

theorem decode_eq (h : Header) (off : Nat) (bs : List UInt8) :
    (if h.hasMask then xorMask h.mask off bs else bs) = decodeFrom h.key off bs := by
  unfold Header.key
  cases h.hasMask
  · rfl
  · exact xorMask_eq h.mask off bs

/-- The data callbacks for chunks. -/
def chunkEvents (l? : Option Nat) (op : UInt8) (chunks : List (List UInt8)) : List Event :=
  match l? with
  | none => []
  | some l => chunks.map (Event.readMessage l op)

theorem chunkEvents_cons (l? op c cs) : chunkEvents l? op (c :: cs)
    = (l?.map fun l => Event.readMessage l op c).toList ++ chunkEvents l? op cs := by
  cases l? <;> rfl

/-- `Kept`, with events added to the trace. -/
def KeptAdd (s : Sock) (evs : List Event) (s' : Sock) : Prop := Kept { s with trace := s.trace ++ evs } s'

theorem KeptAdd.refl (s : Sock) : KeptAdd s [] s := by
  unfold KeptAdd; rw [List.append_nil]; exact Kept.refl s

theorem KeptAdd.trans {s e s' e' s''} (h : KeptAdd s e s') (h' : KeptAdd s' e' s'') : KeptAdd s (e ++ e') s'' := by
  obtain ⟨a1, a2, a3, a4, a5, a6⟩ := h
  obtain ⟨b1, b2, b3, b4, b5, b6⟩ := h'
  exact ⟨b1.trans a1, b2.trans a2, b3.trans a3, b4.trans (by rw [a4]; simp), fun x => a5 (b5 x), a6.trans b6⟩

theorem KeptAdd.config {s e s'} (h : KeptAdd s e s') : s'.config = s.config := Kept.config (s := { s with trace := s.trace ++ e }) h
theorem KeptAdd.listener {s e s'} (h : KeptAdd s e s') : s'.listener = s.listener := Kept.listener (s := { s with trace := s.trace ++ e }) h
theorem KeptAdd.lastOpcode {s e s'} (h : KeptAdd s e s') : s'.lastOpcode = s.lastOpcode := Kept.lastOpcode (s := { s with trace := s.trace ++ e }) h
theorem KeptAdd.trace {s e s'} (h : KeptAdd s e s') : s'.trace = s.trace ++ e := Kept.trace (s := { s with trace := s.trace ++ e }) h
theorem KeptAdd.listening {s e s'} (h : KeptAdd s e s') : s'.listening = true → s.listening = true := Kept.listening (s := { s with trace := s.trace ++ e }) h

/-- What the transport does to a payload read that does not finish. -/
structure Stuck {α} (x : Exit α) (k : Nat) (bytes : List UInt8) (sched : List IoOutcome) : Prop where
  exit : x = .block ∧ ¬ Healthy (bytes.length + 1) sched ∨ x = .throw .connectionState
  all : Healthy bytes.length sched → k = bytes.length

theorem desired_eq {B N p : Nat} {L : Int} (hL : N = L.toNat) (hp : p < N) :
    (if (B : Int) > L - p then L - p else (B : Int)).toNat = min B (N - p) := by
  split <;> omega

/-- The payload of a data frame. -/
theorem loop_data (env : Env) (ht : env.Tame) (h : Header) (N : Nat) (hN : N = h.payloadLength.toNat) (B : Nat)
    (hB : 0 < B) (sched bytes) (s : Sock) (hs : s.config.readBufferSize = B) (p : Nat) (hp : p ≤ N) (acc) :
    ∃ k chunks x s' sc, k ≤ N - p ∧ k ≤ bytes.length ∧ (∀ c ∈ chunks, 0 < c.length ∧ c.length ≤ B) ∧
      chunks.flatten = decodeFrom h.key p (bytes.take k) ∧
      readPayloadLoop env h false B sched bytes s p acc = (x, ⟨s', ⟨bytes.drop k, sc⟩⟩) ∧
      KeptAdd s (chunkEvents s.listener h.opcode chunks) s' ∧ sc.length ≤ sched.length ∧
      ((x = .ret acc ∧ k = N - p ∧ ∀ j, Healthy (bytes.length + j) sched → Healthy (bytes.length - k + j) sc) ∨
       (k < N - p ∧ Stuck x k bytes sched) ∨
       (0 < k ∧ (∀ a, x ≠ .ret a) ∧ s.listener.isSome ∧ ¬ env.Returns)) := by
  induction sched generalizing bytes s p with
  | nil =>
    unfold readPayloadLoop
    by_cases hlt : (p : Int) < h.payloadLength
    · rw [if_pos hlt]
      refine ⟨0, [], .block, s, [], by omega, by omega, by simp, ?_, rfl, ?_, by simp, .inr (.inl ⟨by omega, ?_⟩)⟩
      · cases h.key <;> simp [decodeFrom, applyKeyFrom]
      · have : chunkEvents s.listener h.opcode [] = [] := by cases s.listener <;> rfl
        rw [this]; exact KeptAdd.refl s
      · refine ⟨.inl ⟨rfl, not_healthy_nil⟩, fun hh => ?_⟩
        have := hh.2
        simp at this
        simp [this]
    · rw [if_neg hlt]
      refine ⟨0, [], .ret acc, s, [], by omega, by omega, by simp, ?_, rfl, ?_, by simp, .inl ⟨rfl, by omega, by simp⟩⟩
      · cases h.key <;> simp [decodeFrom, applyKeyFrom]
      · have : chunkEvents s.listener h.opcode [] = [] := by cases s.listener <;> rfl
        rw [this]; exact KeptAdd.refl s
  | cons o sched ih =>
    have hnil : chunkEvents s.listener h.opcode [] = [] := by cases s.listener <;> rfl
    have hdn : decodeFrom h.key p [] = [] := by cases h.key <;> simp [decodeFrom, applyKeyFrom]
    unfold readPayloadLoop
    by_cases hlt : (p : Int) < h.payloadLength
    · have hpN : p < N := by omega
      have hd := desired_eq (B := B) hN hpN
      rw [if_pos hlt, hs]
      simp only []
      generalize hdes : (if (B : Int) > h.payloadLength - p then h.payloadLength - p else (B : Int)) = d at hd
      rw [if_neg (by omega), hd]
      rcases hr : lowRead o bytes (min B (N - p)) with ⟨r, bytes'⟩
      cases r with
      | data bs =>
        obtain ⟨n, rfl, hbs, hb', hpos, hle, hle'⟩ := lowRead_data hr
        simp only []
        rw [if_neg (by omega), if_neg (by simp), Int.toNat_natCast, decode_eq]
        generalize hc : decodeFrom h.key p bs = c
        have hcl : c.length = bs.length := by rw [← hc, decodeFrom_length]
        obtain ⟨x, s1, hcall, hk1, hx⟩ := callListener_kept env ht (fun l => .readMessage l h.opcode c) s
        have hk1' : KeptAdd s (chunkEvents s.listener h.opcode [c]) s1 := by
          rw [chunkEvents_cons, hnil, List.append_nil]; exact hk1
        rw [hcall]
        have hone : ∀ c' ∈ [c], 0 < c'.length ∧ c'.length ≤ B := by
          intro c' hc'
          rw [List.mem_singleton] at hc'
          rw [hc', hcl]
          omega
        have hflat : [c].flatten = decodeFrom h.key p (bytes.take bs.length) := by
          rw [← hbs, hc]; simp
        have hstop : ∀ y : Exit (List UInt8), x ≠ .ret () → (∀ a, y ≠ .ret a) →
            ∃ k chunks x s' sc, k ≤ N - p ∧ k ≤ bytes.length ∧ (∀ c ∈ chunks, 0 < c.length ∧ c.length ≤ B) ∧
            chunks.flatten = decodeFrom h.key p (bytes.take k) ∧
            (y, (⟨s1, ⟨bytes', sched⟩⟩ : St)) = (x, ⟨s', ⟨bytes.drop k, sc⟩⟩) ∧
            KeptAdd s (chunkEvents s.listener h.opcode chunks) s' ∧ sc.length ≤ (IoOutcome.upTo n :: sched).length ∧
            ((x = .ret acc ∧ k = N - p ∧ ∀ j, Healthy (bytes.length + j) (IoOutcome.upTo n :: sched) →
                Healthy (bytes.length - k + j) sc) ∨
             (k < N - p ∧ Stuck x k bytes (IoOutcome.upTo n :: sched)) ∨
             (0 < k ∧ (∀ a, x ≠ .ret a) ∧ s.listener.isSome ∧ ¬ env.Returns)) := by
          intro y hx' hy
          exact ⟨bs.length, [c], y, s1, sched, by omega, hle', hone, hflat, by rw [hb'], hk1', by simp,
            .inr (.inr ⟨hpos, hy, hx hx'⟩)⟩
        cases x with
        | ret u =>
          simp only []
          have hpc : (p : Int) + (bs.length : Int) = ((p + bs.length : Nat) : Int) := by omega
          rw [hpc]
          obtain ⟨k, chunks, x, s', sc, h1, h2, h3, h4, h5, h6, h7, h8⟩ :=
            ih bytes' s1 (by rw [hk1'.config]; exact hs) (p + bs.length) (by omega)
          rw [hb', List.length_drop] at h2
          refine ⟨bs.length + k, c :: chunks, x, s', sc, by omega, by omega, ?_, ?_, ?_, ?_, by simp; omega, ?_⟩
          · intro c' hc'
            rcases List.mem_cons.mp hc' with rfl | hc'
            · exact hone _ (by simp)
            · exact h3 c' hc'
          · rw [List.take_add, decodeFrom_append, List.flatten_cons, h4, hb', ← hbs, hc]
          · rw [h5, hb', List.drop_drop]
          · rw [chunkEvents_cons]
            rw [hk1'.listener] at h6
            exact KeptAdd.trans hk1 h6
          · rw [hb', List.length_drop, hk1'.listener] at h8
            rcases h8 with ⟨h8, h9, h10⟩ | ⟨h8, h9⟩ | ⟨h8, h9⟩
            · refine .inl ⟨h8, by omega, fun j hj => ?_⟩
              exact (h10 (j + bs.length - 1) (hj.upTo.mono (by omega))).mono (by omega)
            · refine .inr (.inl ⟨by omega, ⟨?_, fun hh => ?_⟩⟩)
              · rcases h9.exit with ⟨h10, h11⟩ | h10
                · refine .inl ⟨h10, fun hh => h11 (hh.upTo.mono ?_)⟩
                  rw [List.length_drop]; omega
                · exact .inr h10
              · have := h9.all (hh.upTo.mono (by rw [List.length_drop]; omega))
                rw [List.length_drop] at this
                omega
            · exact .inr (.inr ⟨by omega, h9⟩)
        | throw e => exact hstop _ (by simp) (by simp)
        | block => exact hstop _ (by simp) (by simp)
        | ub u => exact hstop _ (by simp) (by simp)
      | retry =>
        have ho := lowRead_retry hr
        have hb' := lowRead_other hr (by simp)
        subst ho hb'
        simp only []
        obtain ⟨k, chunks, x, s', sc, h1, h2, h3, h4, h5, h6, h7, h8⟩ := ih bytes' s hs p hp
        refine ⟨k, chunks, x, s', sc, h1, h2, h3, h4, h5, h6, by simp; omega, ?_⟩
        rcases h8 with ⟨h8, h9, h10⟩ | ⟨h8, h9⟩ | h8
        · exact .inl ⟨h8, h9, fun j hj => h10 j hj.retry⟩
        · refine .inr (.inl ⟨h8, ⟨?_, fun hh => h9.all hh.retry⟩⟩)
          rcases h9.exit with ⟨h10, h11⟩ | h10
          · exact .inl ⟨h10, fun hh => h11 hh.retry⟩
          · exact .inr h10
        · exact .inr (.inr h8)
      | zero =>
        have hb' := lowRead_other hr (by simp)
        subst hb'
        refine ⟨0, [], .throw .connectionState, s, sched, by omega, by omega, by simp, by simp [hdn], rfl,
          by rw [hnil]; exact KeptAdd.refl s, by simp, .inr (.inl ⟨by omega, .inr rfl, fun hh => ?_⟩)⟩
        rw [lowRead_zero hr hh.fine (by omega)]; rfl
      | broken =>
        have hb' := lowRead_other hr (by simp)
        subst hb'
        refine ⟨0, [], .throw .connectionState, s, sched, by omega, by omega, by simp, by simp [hdn], rfl,
          by rw [hnil]; exact KeptAdd.refl s, by simp, .inr (.inl ⟨by omega, .inr rfl, fun hh => ?_⟩)⟩
        have := lowRead_broken hr
        rw [hh.fine] at this
        cases this
    · rw [if_neg hlt]
      exact ⟨0, [], .ret acc, s, o :: sched, by omega, by omega, by simp, by simp [hdn], rfl,
        by rw [hnil]; exact KeptAdd.refl s, by simp, .inl ⟨rfl, by omega, by simp⟩⟩

/-- The payload of a control frame: collected, no callback. -/
theorem loop_short (env : Env) (h : Header) (N : Nat) (hN : N = h.payloadLength.toNat) (B : Nat)
    (hB : 0 < B) (sched bytes) (s : Sock) (hs : s.config.readBufferSize = B) (p : Nat) (hp : p ≤ N) (acc) :
    ∃ k x sc, k ≤ N - p ∧ k ≤ bytes.length ∧
      readPayloadLoop env h true B sched bytes s p acc = (x, ⟨s, ⟨bytes.drop k, sc⟩⟩) ∧ sc.length ≤ sched.length ∧
      ((x = .ret (acc ++ decodeFrom h.key p (bytes.take k)) ∧ k = N - p ∧
          ∀ j, Healthy (bytes.length + j) sched → Healthy (bytes.length - k + j) sc) ∨
       (k < N - p ∧ Stuck x k bytes sched)) := by
  have hdn : ∀ p, decodeFrom h.key p [] = [] := by intro p; cases h.key <;> simp [decodeFrom, applyKeyFrom]
  induction sched generalizing bytes p acc with
  | nil =>
    unfold readPayloadLoop
    by_cases hlt : (p : Int) < h.payloadLength
    · rw [if_pos hlt]
      refine ⟨0, .block, [], by omega, by omega, rfl, by simp, .inr ⟨by omega, .inl ⟨rfl, not_healthy_nil⟩, fun hh => ?_⟩⟩
      have := hh.2
      simp at this
      simp [this]
    · rw [if_neg hlt]
      exact ⟨0, .ret acc, [], by omega, by omega, rfl, by simp, .inl ⟨by simp [hdn], by omega, by simp⟩⟩
  | cons o sched ih =>
    unfold readPayloadLoop
    by_cases hlt : (p : Int) < h.payloadLength
    · have hpN : p < N := by omega
      have hd := desired_eq (B := B) hN hpN
      rw [if_pos hlt, hs]
      simp only []
      generalize hdes : (if (B : Int) > h.payloadLength - p then h.payloadLength - p else (B : Int)) = d at hd
      rw [if_neg (by omega), hd]
      rcases hr : lowRead o bytes (min B (N - p)) with ⟨r, bytes'⟩
      cases r with
      | data bs =>
        obtain ⟨n, rfl, hbs, hb', hpos, hle, hle'⟩ := lowRead_data hr
        simp only []
        rw [if_neg (by omega), if_pos trivial, Int.toNat_natCast, decode_eq]
        have hpc : (p : Int) + (bs.length : Int) = ((p + bs.length : Nat) : Int) := by omega
        rw [hpc]
        obtain ⟨k, x, sc, h1, h2, h3, h4, h5⟩ :=
          ih bytes' (p + bs.length) (by omega) (acc ++ decodeFrom h.key p bs)
        rw [hb', List.length_drop] at h2
        refine ⟨bs.length + k, x, sc, by omega, by omega, by rw [h3, hb', List.drop_drop], by simp; omega, ?_⟩
        rw [hb', List.length_drop] at h5
        rcases h5 with ⟨h5, h6, h7⟩ | ⟨h5, h6⟩
        · refine .inl ⟨?_, by omega, fun j hj => ?_⟩
          · rw [h5, List.take_add, decodeFrom_append, List.append_assoc, ← hbs]
          · exact (h7 (j + bs.length - 1) (hj.upTo.mono (by omega))).mono (by omega)
        · refine .inr ⟨by omega, ⟨?_, fun hh => ?_⟩⟩
          · rcases h6.exit with ⟨h10, h11⟩ | h10
            · refine .inl ⟨h10, fun hh => h11 (hh.upTo.mono ?_)⟩
              rw [List.length_drop]; omega
            · exact .inr h10
          · have := h6.all (hh.upTo.mono (by rw [List.length_drop]; omega))
            rw [List.length_drop] at this
            omega
      | retry =>
        have ho := lowRead_retry hr
        have hb' := lowRead_other hr (by simp)
        subst ho hb'
        simp only []
        obtain ⟨k, x, sc, h1, h2, h3, h4, h5⟩ := ih bytes' p hp acc
        refine ⟨k, x, sc, h1, h2, h3, by simp; omega, ?_⟩
        rcases h5 with ⟨h5, h6, h7⟩ | ⟨h8, h9⟩
        · exact .inl ⟨h5, h6, fun j hj => h7 j hj.retry⟩
        · refine .inr ⟨h8, ⟨?_, fun hh => h9.all hh.retry⟩⟩
          rcases h9.exit with ⟨h10, h11⟩ | h10
          · exact .inl ⟨h10, fun hh => h11 hh.retry⟩
          · exact .inr h10
      | zero =>
        have hb' := lowRead_other hr (by simp)
        subst hb'
        refine ⟨0, .throw .connectionState, sched, by omega, by omega, rfl, by simp,
          .inr ⟨by omega, .inr rfl, fun hh => ?_⟩⟩
        rw [lowRead_zero hr hh.fine (by omega)]; rfl
      | broken =>
        have hb' := lowRead_other hr (by simp)
        subst hb'
        refine ⟨0, .throw .connectionState, sched, by omega, by omega, rfl, by simp,
          .inr ⟨by omega, .inr rfl, fun hh => ?_⟩⟩
        have := lowRead_broken hr
        rw [hh.fine] at this
        cases this
    · rw [if_neg hlt]
      exact ⟨0, .ret acc, o :: sched, by omega, by omega, rfl, by simp, .inl ⟨by simp [hdn], by omega, by simp⟩⟩

end OatWS
