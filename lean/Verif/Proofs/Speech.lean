import Verif.Spec.Speech
import Verif.Props.Moment
/-! Frames of calls that say messages in fragments. -/

namespace OatWS.Threads
open RFC6455 Async

theorem told_append (acc : List UInt8) (xs ys : List SendCall) :
    told acc (xs ++ ys) = ((told acc xs).1 ++ (told (told acc xs).2 ys).1, (told (told acc xs).2 ys).2) := by
  induction xs generalizing acc with
  | nil => rfl
  | cons c xs ih =>
    rw [List.cons_append]
    cases c with
    | oneFrame fin op m => cases fin <;> simp only [told, ih, List.cons_append]
    | _ => simp only [told, ih, List.cons_append]

/-- A beginning of the callbacks of one frame: all of them, or nothing but data. -/
theorem frame_cut' {l B : Nat} {f : Frame} {evs evs' : List Event} {acc : List UInt8} (h : FrameEvents l B f evs) (hp : evs' <+: evs) (ho : ∃ o, Accepted o f) :
    evs' = evs ∨ ∃ d, reassemble acc evs' = ([], acc ++ d) ∧ (d = [] ∨ isDataOpcode f.opcode ∧ d <+: f.payload) := by
  rcases frame_cut h hp ho with h | ⟨d, h1, h2⟩
  · exact .inl h
  · refine .inr ⟨d, ?_, h2⟩
    have : ∀ evs d a, reassemble a evs = ([], a ++ d) → ∀ acc, reassemble acc evs = ([], acc ++ d) := by
      intro evs
      induction evs with
      | nil =>
        intro d a h acc
        injection h with _ h
        rw [List.self_eq_append_right.mp h]
        simp [reassemble]
      | cons e evs ih =>
        intro d a h acc
        cases e with
        | readMessage l op c =>
          cases c with
          | nil => rw [reassemble] at h; injection h with h _; cases h
          | cons b bs =>
            rw [reassemble] at h ⊢
            have hd : ∃ d', d = (b :: bs) ++ d' := by
              have mono : ∀ evs a r, (reassemble a evs) = ([], r) → a <+: r := by
                intro evs
                induction evs with
                | nil => intro a r h; injection h with _ h; rw [h]; exact List.prefix_refl _
                | cons e evs ih' =>
                  intro a r h
                  cases e with
                  | readMessage l op c =>
                    cases c with
                    | nil => rw [reassemble] at h; injection h with h _; cases h
                    | cons b bs => rw [reassemble] at h; exact (List.prefix_append _ _).trans (ih' _ _ h)
                  | _ => rw [reassemble] at h; injection h with h _; cases h
              obtain ⟨r, hr⟩ := mono _ _ _ h
              rw [List.append_assoc] at hr
              exact ⟨r, (List.append_cancel_left hr).symm⟩
            obtain ⟨d', rfl⟩ := hd
            rw [← List.append_assoc] at h ⊢
            exact ih d' _ h _
        | _ => rw [reassemble] at h; injection h with h _; cases h
    exact this evs' d [] h1 acc

/-- The callbacks for the frame say what the call says, if `acc` has been heard before. -/
def SaysAfter (acc : List UInt8) (c : SendCall) (f : Frame) : Prop :=
  ∀ l B e rest, FrameEvents l B f e → reassemble acc (e ++ rest) = ((told acc [c]).1 ++ (reassemble (told acc [c]).2 rest).1, (reassemble (told acc [c]).2 rest).2)

/-- The data of a frame is that of the call. -/
theorem carries_data {env : Env} {c : SendCall} {f : Frame} (h : Carries env c f) (hd : isDataOpcode f.opcode) :
    c.data = some f.payload := by
  have ho := h.opcode
  have hp := h.payload
  unfold isDataOpcode at hd
  cases c with
  | text m => rw [hp]; rfl
  | binary m => rw [hp]; rfl
  | oneFrame a b d => rw [hp]; rfl
  | _ =>
    rw [ho] at hd
    rcases hd with hd | hd | hd <;> cases hd

theorem says_fits {env : Env} {c : SendCall} {f : Frame} {o : Bool} (h : Carries env c f) (hm : c.fits o) (hl : c.content.2.2.length < 2 ^ 63) :
    f.Valid ∧ Accepted o f ∧ f.opcode ≠ 8 ∧ openAfterFrame o f = (o || c.begins) ∧ ∀ acc, (o = false → acc = []) → SaysAfter acc c f ∧ ((o || c.begins) = false → (told acc [c]).2 = []) := by
  obtain ⟨masked, pos, rfl⟩ := h.is
  have hv := callFrame_valid env masked pos c hl
  have key : Accepted o (callFrame env masked pos c) ∧ (callFrame env masked pos c).opcode ≠ 8 ∧ openAfterFrame o (callFrame env masked pos c) = (o || c.begins) ∧
      ∀ acc, (o = false → acc = []) → told acc [c] = contentOf acc [callFrame env masked pos c] := by
    cases c with
    | text m => 
      have hm : o = false := hm
      subst hm
      refine ⟨.inl ⟨.inr (.inl rfl), rfl⟩, by simp [callFrame, SendCall.content], rfl, fun acc ha => ?_⟩
      rw [ha rfl]; rfl
    | binary m =>
      have hm : o = false := hm
      subst hm
      refine ⟨.inl ⟨.inr (.inr rfl), rfl⟩, by simp [callFrame, SendCall.content], rfl, fun acc ha => ?_⟩
      rw [ha rfl]; rfl
    | ping m => exact ⟨.inr ⟨.inr (.inl rfl), hm⟩, by simp [callFrame, SendCall.content], by cases o <;> rfl, fun acc ha => rfl⟩
    | pong m => exact ⟨.inr ⟨.inr (.inr rfl), hm⟩, by simp [callFrame, SendCall.content], by cases o <;> rfl, fun acc ha => rfl⟩
    | oneFrame fin op m =>
      rcases hm with ⟨rfl, rfl⟩ | ⟨rfl | rfl, rfl⟩
      · refine ⟨.inl ⟨.inl rfl, rfl⟩, by simp [callFrame, SendCall.content], rfl, fun acc ha => ?_⟩
        cases fin <;> rfl
      · refine ⟨.inl ⟨.inr (.inl rfl), rfl⟩, by simp [callFrame, SendCall.content], rfl, fun acc ha => ?_⟩
        rw [ha rfl]
        cases fin <;> rfl
      · refine ⟨.inl ⟨.inr (.inr rfl), rfl⟩, by simp [callFrame, SendCall.content], rfl, fun acc ha => ?_⟩
        rw [ha rfl]
        cases fin <;> rfl
    | _ => exact hm.elim
  obtain ⟨h1, h2, h3, h4⟩ := key
  refine ⟨hv, h1, h2, h3, fun acc ha => ⟨?_, ?_⟩⟩
  · intro l B e rest he
    rw [h4 acc ha]
    unfold FrameEvents at he
    rw [contentOf]
    split at he <;> rename_i h9
    · rw [he, if_pos h9]; rfl
    · rw [if_neg h9]
      split at he <;> rename_i h10
      · rw [he, if_pos h10]; rfl
      · rw [if_neg h10]
        obtain ⟨pieces, hd, rfl⟩ := he
        rw [List.append_assoc, reassemble_pieces hd]
        cases (callFrame env masked pos c).fin
        · simp [contentOf]
        · simp [reassemble, contentOf]
  · intro hb
    cases o with
    | true => cases hb
    | false =>
      rw [ha rfl]
      cases c with
      | oneFrame fin op m =>
        cases fin with
        | true => rfl
        | false => cases hb
      | _ => rfl

theorem says_close_after {env c f} (h : Carries env c f) (hm : c.isClose) (hl : c.content.2.2.length < 2 ^ 63) (o : Bool) :
    f.Valid ∧ Accepted o f ∧ f.opcode = 8 ∧ ∀ acc, SaysAfter acc c f := by
  obtain ⟨masked, pos, rfl⟩ := h.is
  obtain ⟨code, reason, h1, h2, h3, h4, h5⟩ := close_args env masked pos c hm
  refine ⟨callFrame_valid env masked pos c hl, .inr ⟨.inl h2, h3⟩, h2, fun acc => ?_⟩
  intro l B e rest he
  unfold FrameEvents at he
  rw [if_neg (by rw [h2]; decide), if_neg (by rw [h2]; decide), if_pos h2] at he
  obtain ⟨code', e1, e2⟩ := he
  rw [h5] at e1
  have : code' = code := UInt16.toNat_inj.mp e1
  subst this
  have ht : told acc [c] = ([c.msg], acc) := by
    cases c <;> first | rfl | exact hm.elim
  rw [e2, h4, ht, h1]
  rfl

/-- Calls one after the other, `k`: the last one is a close. -/
inductive Flow : Bool → List SendCall → Bool → Prop
  | nil {o} : Flow o [] false
  | close {o c} : c.isClose → Flow o [c] true
  | cons {o c cs k} : c.fits o → Flow (o || c.begins) cs k → Flow o (c :: cs) k

theorem fitAll_flow {o : Bool} {cs last : List SendCall} (h : FitAll o cs) (he : last = [] ∨ ∃ c, last = [c] ∧ c.isClose) : ∃ k, Flow o (cs ++ last) k ∧ (k = true ↔ last ≠ []) := by
  induction cs generalizing o with
  | nil =>
    rcases he with rfl | ⟨c, rfl, hc⟩
    · exact ⟨false, .nil, by simp⟩
    · exact ⟨true, .close hc, by simp⟩
  | cons c cs ih =>
    obtain ⟨k, h1, h2⟩ := ih h.2
    exact ⟨k, .cons h.1 h1, h2⟩

theorem Flow.says {env : Env} {o : Bool} {C : List SendCall} {k : Bool} (hC : Flow o C k) (hs : ∀ c ∈ C, c.content.2.2.length < 2 ^ 63) {fs : List Frame} (h : CarryAll env C fs)
    (acc : List UInt8) (ha : o = false → acc = []) (n l B : Nat) (evs rest : List Event) (he : FramesEvents l B (fs.take n) evs) :
    reassemble acc (evs ++ rest) = ((told acc (C.take n)).1 ++ (reassemble (told acc (C.take n)).2 rest).1, (reassemble (told acc (C.take n)).2 rest).2) := by
  induction hC generalizing fs acc n evs with
  | nil => cases fs with
    | nil =>
      rw [List.take_nil] at he
      rw [show evs = [] from he, List.take_nil]
      rfl
    | cons => exact h.elim
  | @close o c hc => cases fs with
    | nil => exact h.elim
    | cons f fs =>
      cases n with
      | zero => rw [show evs = [] from he]; rfl
      | succ n =>
        rw [List.take_succ_cons] at he
        obtain ⟨e, es, rfl, h1, h2⟩ := he
        cases fs with
        | cons => exact h.2.elim
        | nil =>
          rw [List.take_nil] at h2
          rw [show es = [] from h2, List.append_nil, List.take_succ_cons, List.take_nil]
          exact (says_close_after h.1 hc (hs c (by simp)) o).2.2.2 acc l B e rest h1
  | @cons o c C k hf _ ih => cases fs with
    | nil => exact h.elim
    | cons f fs =>
      cases n with
      | zero => rw [show evs = [] from he]; rfl
      | succ n =>
        rw [List.take_succ_cons] at he
        obtain ⟨e, es, rfl, h1, h2⟩ := he
        obtain ⟨_, _, _, _, k5⟩ := says_fits h.1 hf (hs c (by simp))
        obtain ⟨k5, k6⟩ := k5 acc ha
        rw [List.append_assoc, k5 l B e _ h1, ih (fun c hc => hs c (by simp [hc])) h.2 _ k6 n es h2, List.take_succ_cons, show c :: C.take n = [c] ++ C.take n from rfl, told_append acc [c], List.append_assoc]

theorem Flow.shape {env : Env} {o : Bool} {C : List SendCall} {k : Bool} (hC : Flow o C k) (hs : ∀ c ∈ C, c.content.2.2.length < 2 ^ 63) {fs : List Frame} (h : CarryAll env C fs) :
    (fs = [] ∧ k = false) ∨ ∃ fs' f o', fs = fs' ++ [f] ∧ AcceptedAll o fs' o' ∧ f.Valid ∧ Accepted o' f ∧ (f.opcode = 8 ↔ k = true) := by
  induction hC generalizing fs with
  | nil => cases fs with
    | nil => exact .inl ⟨rfl, rfl⟩
    | cons => exact h.elim
  | @close o c hc => cases fs with
    | nil => exact h.elim
    | cons f fs =>
      cases fs with
      | cons => exact h.2.elim
      | nil =>
        obtain ⟨k1, k2, k3, _⟩ := says_close_after h.1 hc (hs c (by simp)) o
        exact .inr ⟨[], f, o, rfl, .nil, k1, k2, by simp [k3]⟩
  | @cons o c C k hf hC ih => cases fs with
    | nil => exact h.elim
    | cons f fs =>
      obtain ⟨k1, k2, k3, k4, _⟩ := says_fits h.1 hf (hs c (by simp))
      rcases ih (fun c hc => hs c (by simp [hc])) h.2 with ⟨rfl, rfl⟩ | ⟨fs', g, o', rfl, a1, a2, a3, a4⟩
      · exact .inr ⟨[], f, o, rfl, .nil, k1, k2, by simp [k3]⟩
      · exact .inr ⟨f :: fs', g, o', rfl, .cons k1 k2 k3 (by rw [k4]; exact a1), a2, a3, a4⟩

/-- A beginning of the callbacks of frames that carry calls. -/
theorem Flow.cut {env : Env} {o : Bool} {C : List SendCall} {k : Bool} (hC : Flow o C k) (hs : ∀ c ∈ C, c.content.2.2.length < 2 ^ 63) {fs : List Frame} (h : CarryAll env C fs)
    (acc : List UInt8) (ha : o = false → acc = []) (n l B : Nat) (evs evs' : List Event) (he : FramesEvents l B (fs.take n) evs) (hp : evs' <+: evs) :
    ∃ n' part, n' ≤ C.length ∧ reassemble acc evs' = ((told acc (C.take n')).1, (told acc (C.take n')).2 ++ part) ∧
      (part = [] ∨ ∃ c d, C[n']? = some c ∧ c.data = some d ∧ part <+: d) := by
  have start : ∀ (acc : List UInt8) (C : List SendCall), ∃ n' part, n' ≤ C.length ∧ reassemble acc [] = ((told acc (C.take n')).1, (told acc (C.take n')).2 ++ part) ∧
      (part = [] ∨ ∃ c d, C[n']? = some c ∧ c.data = some d ∧ part <+: d) :=
    fun acc C => ⟨0, [], Nat.zero_le _, by simp [told, reassemble], .inl rfl⟩
  induction hC generalizing fs acc n evs evs' with
  | nil => cases fs with
    | nil =>
      rw [List.take_nil] at he
      rw [show evs = [] from he] at hp
      rw [List.prefix_nil.mp hp]
      exact start _ _
    | cons => exact h.elim
  | @close o c hc => cases fs with
    | nil => exact h.elim
    | cons f fs =>
      cases n with
      | zero =>
        rw [show evs = [] from he] at hp
        rw [List.prefix_nil.mp hp]
        exact start _ _
      | succ n =>
        rw [List.take_succ_cons] at he
        obtain ⟨e, es, rfl, h1, h2⟩ := he
        cases fs with
        | cons => exact h.2.elim
        | nil =>
          rw [List.take_nil] at h2
          rw [show es = [] from h2, List.append_nil] at hp
          obtain ⟨_, k2, k3, k4⟩ := says_close_after h.1 hc (hs c (by simp)) o
          rcases frame_cut' h1 hp ⟨_, k2⟩ with rfl | ⟨d, e1, e2⟩
          · have := k4 acc l B evs' [] h1
            rw [List.append_nil] at this
            exact ⟨1, [], by simp, by rw [this]; simp [reassemble], .inl rfl⟩
          · refine ⟨0, d, Nat.zero_le _, by rw [e1]; rfl, ?_⟩
            rcases e2 with e2 | ⟨e2, _⟩
            · exact .inl e2
            · unfold isDataOpcode at e2; omega
  | @cons o c C k hf hC ih => cases fs with
    | nil => exact h.elim
    | cons f fs =>
      cases n with
      | zero =>
        rw [show evs = [] from he] at hp
        rw [List.prefix_nil.mp hp]
        exact start _ _
      | succ n =>
        rw [List.take_succ_cons] at he
        obtain ⟨e, es, rfl, h1, h2⟩ := he
        obtain ⟨_, k2, k3, _, k5⟩ := says_fits h.1 hf (hs c (by simp))
        obtain ⟨k5, k6⟩ := k5 acc ha
        rcases prefix_append_cases hp with hp | ⟨t, rfl, ht⟩
        · rcases frame_cut' h1 hp ⟨_, k2⟩ with rfl | ⟨d, e1, e2⟩
          · have := k5 l B evs' [] h1
            rw [List.append_nil] at this
            exact ⟨1, [], by simp, by rw [this]; simp [reassemble], .inl rfl⟩
          · refine ⟨0, d, Nat.zero_le _, by rw [e1]; rfl, ?_⟩
            rcases e2 with e2 | ⟨e2, e3⟩
            · exact .inl e2
            · exact .inr ⟨c, _, rfl, carries_data h.1 e2, e3⟩
        · obtain ⟨n', part, g1, g2, g3⟩ := ih (fun c hc => hs c (by simp [hc])) h.2 _ k6 n es t h2 ht
          refine ⟨n' + 1, part, by simpa using g1, ?_, g3⟩
          rw [k5 l B e t h1, g2, List.take_succ_cons, show c :: C.take n' = [c] ++ C.take n' from rfl, told_append acc [c]]

/-- From the calls to a beginning of the callbacks. -/
theorem _root_.OatWS.Speech.heard_some {env : Env} {cs last : List SendCall} (ht : Speech cs last) {F : List Frame} (hF : CarryAll env (cs ++ last) F) {got : List UInt8} (hpre : got <+: wireOf F)
    {ds : List Delivery} {r : Reason} (hr : Receives false got ds r) (hrne : r ≠ .interrupted) {l B : Nat} {evs evs' : List Event} (h4 : Renders l B evs ds) (hp : evs' <+: evs) :
    ∃ n part, Network.HeardUpTo (cs ++ last) l n part evs' := by
  obtain ⟨k, hfl, hk⟩ := fitAll_flow ht.fits ht.ends
  rcases hfl.shape ht.small hF with ⟨e, el⟩ | ⟨F', f, o', e, ha, hv, hacc, h8⟩
  · subst e
    rw [show wireOf [] = [] from rfl] at hpre
    rw [List.prefix_nil.mp hpre] at hr
    rw [hr.nil.1] at h4
    have e3 := h4.nil_inv
    subst e3
    rw [List.prefix_nil.mp hp]
    exact ⟨0, [], fun _ h => (by cases h), Nat.zero_le _, rfl, .inl rfl⟩
  · subst e
    obtain ⟨n, D, hn, e1, k1, k2, k3⟩ := hr.prefix ha hv hacc hpre hrne
    rw [e1] at h4
    obtain ⟨ew, ec, rfl, hw, hcut⟩ := h4.split
    have hmem : ∀ g ∈ F' ++ [f], ∃ o, Accepted o g := by
      intro g hg
      rcases List.mem_append.mp hg with hg | hg
      · exact ha.mem g hg
      · rw [List.mem_singleton.mp hg]; exact ⟨_, hacc⟩
    have hw := deliveries_framesEvents (fun g hg => hmem g (List.mem_of_mem_take hg)) hw
    rcases prefix_append_cases hp with hp' | ⟨t, rfl, hp'⟩
    · obtain ⟨n', part, g1, g2, g3⟩ := hfl.cut ht.small hF [] (fun _ => rfl) n l B ew evs' hw hp'
      exact ⟨n', part, fun e h => events_to hw e (hp'.subset h), g1, g2, g3⟩
    · clear hp
      have hp := hp'
      have hsay := hfl.says ht.small hF [] (fun _ => rfl) n l B ew t hw
      have hlen := hF.length
      have none : ec = [] → ∃ n part, Network.HeardUpTo (cs ++ last) l n part (ew ++ t) := by
        rintro rfl
        rw [List.prefix_nil.mp hp] at hsay ⊢
        refine ⟨n, [], ?_, by omega, by rw [hsay]; simp [reassemble], .inl rfl⟩
        rw [List.append_nil]
        exact events_to hw
      rcases Nat.lt_or_ge n (F' ++ [f]).length with hlt | hge
      · rcases (k2 _ (List.getElem?_eq_getElem hlt)).2 with rfl | ⟨hd, d, hpd, hl, rfl⟩
        · exact none hcut.nil_inv
        · obtain ⟨e, es, rfl, hdc, hes⟩ := hcut.data_inv
          have hes := hes.nil_inv
          subst hes
          rw [List.append_nil] at hp
          obtain ⟨d', hd', hdc'⟩ := hdc.cut hp
          have hre := reassemble_pieces hdc' (told [] ((cs ++ last).take n)).2 []
          rw [List.append_nil] at hre
          have hre : reassemble (told [] ((cs ++ last).take n)).2 t = ([], (told [] ((cs ++ last).take n)).2 ++ d') := hre
          obtain ⟨c, hc', hcar⟩ := hF.get n _ (List.getElem?_eq_getElem hlt)
          refine ⟨n, d', ?_, by omega, by rw [hsay, hre]; simp, .inr ⟨c, _, hc', carries_data hcar hd, hd'.trans hpd⟩⟩
          intro e he
          rcases List.mem_append.mp he with he | he
          · exact events_to hw e he
          · exact hdc'.to e he
      · have := k3 (by omega)
        subst this
        exact none hcut.nil_inv

/-- From the calls to the callbacks: `F` are the frames of the calls, `sent` is what was written of them, `got` what was received of that. -/
theorem _root_.OatWS.Speech.heard {env : Env} {cs last : List SendCall} (ht : Speech cs last) {F : List Frame} (hF : CarryAll env (cs ++ last) F) {sent got rest : List UInt8} (hpre : sent <+: wireOf F)
    (hbytes : sent = got ++ rest) {ds : List Delivery} {r : Reason} (hr : Receives false got ds r) (hrne : r ≠ .interrupted) {l B : Nat} {evs : List Event} (h4 : Renders l B evs ds) :
    (sent = wireOf F → rest = [] → Network.HeardWhole (cs ++ last) l evs) ∧
      (r ≠ .incomplete → r ≠ .stopped → Network.HeardWhole (cs ++ last) l evs ∧ last ≠ []) ∧ (sent = wireOf F → rest = [] → last ≠ [] → r ≠ .incomplete) := by
  have hpre' : got <+: wireOf F := by
    refine List.IsPrefix.trans ?_ hpre
    rw [hbytes]
    exact List.prefix_append _ _
  have hlen := hF.length
  obtain ⟨k, hfl, hk⟩ := fitAll_flow ht.fits ht.ends
  rcases hfl.shape ht.small hF with ⟨e, el⟩ | ⟨F', f, o', e, ha, hv, hacc, h8⟩
  · subst e
    rw [show wireOf [] = [] from rfl] at hpre'
    rw [List.prefix_nil.mp hpre'] at hr
    obtain ⟨e1, e2⟩ := hr.nil
    rw [e1] at h4
    have e3 := h4.nil_inv
    subst e3
    refine ⟨fun _ _ => ⟨fun _ h => (by cases h), ?_⟩, fun h _ => absurd e2 h, fun _ _ h => absurd (hk.mpr h) (by rw [el]; decide)⟩
    rw [List.eq_nil_of_length_eq_zero (hlen.trans rfl)]
    rfl
  · subst e
    obtain ⟨n, D, hn, e1, k1, k2, k3⟩ := hr.prefix ha hv hacc hpre' hrne
    have hreason := hr.prefix_reason ha hv hacc hpre' hrne
    rw [e1] at h4
    obtain ⟨ew, ec, rfl, hw, hcut⟩ := h4.split
    have hmem : ∀ g ∈ F' ++ [f], ∃ o, Accepted o g := by
      intro g hg
      rcases List.mem_append.mp hg with hg | hg
      · exact ha.mem g hg
      · rw [List.mem_singleton.mp hg]; exact ⟨_, hacc⟩
    have hw := deliveries_framesEvents (fun g hg => hmem g (List.mem_of_mem_take hg)) hw
    have hsay := hfl.says ht.small hF [] (fun _ => rfl) n l B ew ec hw
    have total : (wireOf (F' ++ [f])).length ≤ got.length → n = (F' ++ [f]).length := by
      intro hle
      rcases Nat.lt_or_ge n (F' ++ [f]).length with hlt | hge
      · have := (k2 _ (List.getElem?_eq_getElem hlt)).1
        have hp : wireOf ((F' ++ [f]).take (n + 1)) <+: wireOf (F' ++ [f]) := by
          refine ⟨wireOf ((F' ++ [f]).drop (n + 1)), ?_⟩
          rw [← wireOf_append, List.take_append_drop]
        have := hp.length_le
        omega
      · omega
    have hlast : n = (F' ++ [f]).length → ec = [] := fun hn => by
      have := k3 hn
      subst this
      exact hcut.nil_inv
    have hall : n = (F' ++ [f]).length → Network.HeardWhole (cs ++ last) l (ew ++ ec) := by
      intro hn
      rw [hlast hn] at hsay ⊢
      refine ⟨by rw [List.append_nil]; exact events_to hw, ?_⟩
      rw [hsay, List.take_of_length_le (by omega)]
      simp [reassemble]
    refine ⟨?_, ?_, ?_⟩
    · intro hdone hempty
      exact hall (total (by rw [← hdone, hbytes, hempty, List.append_nil]; exact Nat.le_refl _))
    · intro h6 h7
      rcases hreason with h | h | ⟨_, h, h'⟩
      · exact absurd h h6
      · exact absurd h h7
      · exact ⟨hall (total (by rw [h']; exact Nat.le_refl _)), hk.mp (h8.mp h)⟩
    · rintro hdone hempty hl rfl
      rw [hempty, List.append_nil] at hbytes
      rw [← hbytes, hdone] at hr
      exact hr.whole_close ha hv hacc (h8.mpr (hk.mpr hl))

end OatWS.Threads
