import Verif.Proofs.Events
/-! Prefixes of frame sequences: what the chunk-free interpreter says about them. -/

namespace OatWS
open RFC6455

/-- The part of a frame that may be told although the frame is not complete: nothing, or, for a data frame, a strict prefix of
its payload. -/
def CutDeliveries (f : Frame) (ds : List Delivery) : Prop :=
  ds = [] ∨ (isDataOpcode f.opcode ∧ ∃ d, d <+: f.payload ∧ d.length < f.payload.length ∧ ds = [.data f.opcode d])

theorem applyKey?_prefix (k : Option (List UInt8)) {a b : List UInt8} (h : a <+: applyKey? k b) : applyKey? k a <+: b := by
  obtain ⟨x, hx⟩ := h
  have : applyKey? k (a ++ x) = b := by rw [hx, applyKey?_involutive]
  cases k with
  | none => exact ⟨x, this⟩
  | some k =>
    have h2 : applyKeyFrom 0 k (a ++ x) = b := this
    rw [applyKeyFrom_append] at h2
    exact ⟨_, h2⟩

theorem oneFrame_prefix {o bs ds fe f rest} (h : OneFrame o bs ds fe) (hpre : bs <+: f.encode ++ rest) (hv : f.Valid)
    (ha : Accepted o f) (hne : fe ≠ .over .interrupted) :
    (bs = f.encode ∧ ds = frameDeliveries f ∧ fe = if f.opcode = 8 then .over .closed else .next (openAfterFrame o f)) ∨
    (fe = .over .incomplete ∧ bs.length < f.encode.length ∧ CutDeliveries f ds) := by
  by_cases hinc : fe = .over .incomplete
  · subst hinc
    refine .inr ⟨rfl, ?_⟩
    obtain ⟨x, hx⟩ := hpre
    have parsed : ∀ {hd r}, parseHdr bs = some (hd, r) → hd = hdrOfFrame f ∧ r ++ x = applyKey? f.maskKey f.payload ++ rest ∧
        bs.length + f.payload.length = f.encode.length + r.length := by
      intro hd r hp
      have h1 := parseHdr_append x hp
      rw [hx, parseHdr_encode f hv] at h1
      injection h1 with h1; injection h1 with h1 h2
      refine ⟨h1.symm, h2.symm, ?_⟩
      have l1 := congrArg List.length hx
      have l2 := congrArg List.length h2
      simp only [List.length_append, applyKey?_length] at l1 l2
      omega
    cases h with
    | noHeader hp =>
      refine ⟨?_, .inl rfl⟩
      rcases Nat.lt_or_ge bs.length f.encode.length with hl | hl
      · exact hl
      · have : f.encode <+: bs := List.prefix_of_prefix_length_le (List.prefix_append _ rest) ⟨x, hx⟩ hl
        obtain ⟨y, rfl⟩ := this
        rw [parseHdr_encode f hv] at hp
        cases hp
    | @cutData hd r hp hd1 hm hl =>
      obtain ⟨rfl, h2, h3⟩ := parsed hp
      rw [show effectiveLen (hdrOfFrame f).len = f.payload.length from effectiveLen_small hv.2.2] at hl
      refine ⟨by omega, .inr ⟨hd1, applyKey? f.maskKey r, ?_, by rw [applyKey?_length]; exact hl, rfl⟩⟩
      apply applyKey?_prefix
      exact List.prefix_of_prefix_length_le (l₃ := r ++ x) (List.prefix_append _ _) (by rw [h2]; exact List.prefix_append _ _)
        (by rw [applyKey?_length]; omega)
    | @cutControl hd r hp hc hl hr =>
      obtain ⟨rfl, h2, h3⟩ := parsed hp
      rw [show effectiveLen (hdrOfFrame f).len = f.payload.length from effectiveLen_small hv.2.2] at hr
      exact ⟨by omega, .inl rfl⟩
  · have e := oneFrame_interpret h hpre hne (fun e => absurd e hinc)
    rw [interpretFrame_accepted o f hv ha] at e
    injection e with e1 e; injection e with e2 e3
    exact .inl ⟨e1, e2, e3⟩

theorem wireOf_cons (f : Frame) (fs : List Frame) : wireOf (f :: fs) = f.encode ++ wireOf fs := by simp [wireOf]

theorem wireOf_append (fs gs : List Frame) : wireOf (fs ++ gs) = wireOf fs ++ wireOf gs := by simp [wireOf]

theorem oneFrame_nil {o ds fe} (h : OneFrame o [] ds fe) : ds = [] ∧ fe = .over .incomplete := by
  cases h <;> first | exact ⟨rfl, rfl⟩ | (exfalso; rename_i hp; simp [parseHdr] at hp; done) | (exfalso; simp_all [parseHdr])

theorem encode_length (f : Frame) : 2 ≤ f.encode.length := by
  unfold Frame.encode encodeHeader; simp only [List.length_append, List.length_cons, List.length_nil]; omega

/-- What the interpreter says about a prefix of a sequence of frames (the last one may be a close frame). -/
theorem Receives.prefix {o fs o' bs ds r f} (h : Receives o bs ds r) (ha : AcceptedAll o fs o') (hv : f.Valid)
    (hacc : Accepted o' f) (hpre : bs <+: wireOf (fs ++ [f])) (hr : r ≠ .interrupted) :
    ∃ n D, n ≤ (fs ++ [f]).length ∧ ds = deliveriesOf ((fs ++ [f]).take n) ++ D ∧
      (wireOf ((fs ++ [f]).take n)).length ≤ bs.length ∧
      (∀ g, (fs ++ [f])[n]? = some g → bs.length < (wireOf ((fs ++ [f]).take (n + 1))).length ∧ CutDeliveries g D) ∧
      (n = (fs ++ [f]).length → D = []) := by
  have hover : ∀ {r : Reason}, r ≠ .interrupted → FrameEnd.over r ≠ .over .interrupted := by
    intro r hr e; injection e with e; exact hr e
  have cut : ∀ {o : Bool} {g : Frame} {gs : List Frame} {bs : List UInt8} {ds : List Delivery} (D : List Delivery), bs.length < g.encode.length → CutDeliveries g D → ds = D →
      ∃ n D, n ≤ (g :: gs).length ∧ ds = deliveriesOf ((g :: gs).take n) ++ D ∧
      (wireOf ((g :: gs).take n)).length ≤ bs.length ∧
      (∀ f, (g :: gs)[n]? = some f → bs.length < (wireOf ((g :: gs).take (n + 1))).length ∧ CutDeliveries f D) ∧
      (n = (g :: gs).length → D = []) := by
    intro o g gs bs ds D hl hc e
    refine ⟨0, D, by omega, by rw [e]; rfl, by simp [wireOf], fun f hf => ?_, nofun⟩
    simp only [List.getElem?_cons_zero, Option.some.injEq] at hf
    subst hf
    exact ⟨by simpa [wireOf] using hl, hc⟩
  have whole : ∀ {g : Frame} {gs : List Frame} {ds : List Delivery}, ds = frameDeliveries g →
      ∃ n D, n ≤ (g :: gs).length ∧ ds = deliveriesOf ((g :: gs).take n) ++ D ∧
      (wireOf ((g :: gs).take n)).length ≤ g.encode.length ∧
      (∀ f, (g :: gs)[n]? = some f → g.encode.length < (wireOf ((g :: gs).take (n + 1))).length ∧ CutDeliveries f D) ∧
      (n = (g :: gs).length → D = []) := by
    intro g gs ds e
    refine ⟨1, [], by simp, by simp [deliveriesOf, e], by simp [wireOf], fun f hf => ⟨?_, .inl rfl⟩, fun _ => rfl⟩
    cases gs with
    | nil => simp at hf
    | cons f' gs =>
      have := encode_length f'
      simp only [List.take_succ_cons, wireOf_cons, List.length_append]
      omega
  induction ha generalizing bs ds with
  | nil =>
    rw [List.nil_append, wireOf_cons] at hpre
    simp only [List.nil_append]
    cases h with
    | last h1 =>
      rcases oneFrame_prefix h1 hpre hv hacc (hover hr) with ⟨rfl, e, _⟩ | ⟨_, hl, hc⟩
      · exact whole e
      · exact cut (o := true) _ hl hc rfl
    | stop h1 =>
      rcases oneFrame_prefix h1 hpre hv hacc nofun with ⟨rfl, e, _⟩ | ⟨e, hl, hc⟩
      · exact whole e
      · cases e
    | more h1 h2 =>
      rcases oneFrame_prefix h1 (List.IsPrefix.trans (List.prefix_append _ _) hpre) hv hacc nofun with ⟨rfl, e, _⟩ | ⟨e, hl, hc⟩
      · have : wireOf ([] : List Frame) = [] := rfl
        rw [this, List.append_nil] at hpre
        have hlen := hpre.length_le
        rw [List.length_append] at hlen
        rename_i _ bs' ds' _
        have : bs' = [] := List.length_eq_zero_iff.mp (by omega)
        subst this
        have : ds' = [] := by
          generalize hz : ([] : List UInt8) = z at h2
          cases h2 with
          | last h2 => subst hz; exact (oneFrame_nil h2).1
          | stop h2 => subst hz; exact (oneFrame_nil h2).1
          | more h2 _ =>
            have := (List.append_eq_nil_iff.mp hz.symm).1
            subst this
            have := (oneFrame_nil h2).2
            cases this
        subst this
        rw [List.append_nil, List.append_nil]
        exact whole e
      · cases e
  | @cons o g fs o' hgv hgacc h8 ha' ih =>
    rw [List.cons_append, wireOf_cons] at hpre
    simp only [List.cons_append]
    cases h with
    | last h1 =>
      rcases oneFrame_prefix h1 hpre hgv hgacc (hover hr) with ⟨rfl, e, _⟩ | ⟨_, hl, hc⟩
      · exact whole e
      · exact cut (o := true) _ hl hc rfl
    | stop h1 =>
      rcases oneFrame_prefix h1 hpre hgv hgacc nofun with ⟨rfl, e, _⟩ | ⟨e, hl, hc⟩
      · exact whole e
      · cases e
    | more h1 h2 =>
      rcases oneFrame_prefix h1 (List.IsPrefix.trans (List.prefix_append _ _) hpre) hgv hgacc nofun with ⟨rfl, e, e3⟩ | ⟨e, hl, hc⟩
      · rw [if_neg h8] at e3
        injection e3 with e3
        subst e3
        have hpre' := (List.prefix_append_right_inj _).mp hpre
        obtain ⟨n, D, g1, g2, g3, g4, g5⟩ := ih h2 hacc hpre'
        refine ⟨n + 1, D, by simp at g1 ⊢; omega, ?_, ?_, ?_, ?_⟩
        · rw [e, g2, List.take_succ_cons]; simp [deliveriesOf]
        · rw [List.take_succ_cons, wireOf_cons, List.length_append, List.length_append]; omega
        · intro f hf
          rw [List.getElem?_cons_succ] at hf
          obtain ⟨g6, g7⟩ := g4 f hf
          refine ⟨?_, g7⟩
          rw [List.take_succ_cons, wireOf_cons, List.length_append, List.length_append]; omega
        · intro hn; exact g5 (by simpa using hn)
      · cases e

end OatWS
