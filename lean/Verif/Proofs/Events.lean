import Verif.Proofs.Hears
/-! From deliveries to callbacks per frame. -/

namespace OatWS
open RFC6455

theorem Renders.split {l B evs d1 d2} (h : Renders l B evs (d1 ++ d2)) :
    ∃ e1 e2, evs = e1 ++ e2 ∧ Renders l B e1 d1 ∧ Renders l B e2 d2 := by
  induction d1 generalizing evs with
  | nil => exact ⟨[], evs, rfl, .nil, h⟩
  | cons d ds ih =>
    cases h with
    | data hc h => obtain ⟨e1, e2, rfl, h1, h2⟩ := ih h; exact ⟨_, e2, (List.append_assoc _ _ _).symm, .data hc h1, h2⟩
    | endOfMessage h => obtain ⟨e1, e2, rfl, h1, h2⟩ := ih h; exact ⟨_, e2, rfl, .endOfMessage h1, h2⟩
    | ping h => obtain ⟨e1, e2, rfl, h1, h2⟩ := ih h; exact ⟨_, e2, rfl, .ping h1, h2⟩
    | pong h => obtain ⟨e1, e2, rfl, h1, h2⟩ := ih h; exact ⟨_, e2, rfl, .pong h1, h2⟩
    | close h => obtain ⟨e1, e2, rfl, h1, h2⟩ := ih h; exact ⟨_, e2, rfl, .close h1, h2⟩

theorem Renders.data_inv {l B evs op d ds} (h : Renders l B evs (.data op d :: ds)) :
    ∃ e es, evs = e ++ es ∧ DataCallbacks l B op d e ∧ Renders l B es ds := by
  cases h with
  | @data opc chunks evs ds hc h => exact ⟨_, _, rfl, ⟨_, chunks, rfl, rfl, hc, rfl⟩, h⟩

theorem Renders.nil_inv {l B evs} (h : Renders l B evs []) : evs = [] := by cases h; rfl

theorem ofNat_toNat8 (op : UInt8) : UInt8.ofNat op.toNat = op := by simp

theorem Renders.frame {l B evs f o} (ha : Accepted o f) (h : Renders l B evs (frameDeliveries f)) : FrameEvents l B f evs := by
  unfold FrameEvents
  rcases ha with ⟨hd, _⟩ | ⟨hc, _⟩
  · unfold isDataOpcode at hd
    rw [if_neg (by omega), if_neg (by omega), if_neg (by omega)]
    rw [frameDeliveries, if_pos hd] at h
    obtain ⟨e, es, rfl, hdc, h⟩ := h.data_inv
    refine ⟨e, hdc, ?_⟩
    split at h <;> rename_i hf
    · rw [if_pos hf]
      generalize hop : f.opcode = op at h
      cases h with
      | endOfMessage h => rw [h.nil_inv, ofNat_toNat8]
    · rw [if_neg hf, h.nil_inv]
  · unfold isControlOpcode at hc
    rw [frameDeliveries, if_neg (by omega)] at h
    unfold controlDelivery at h
    rcases hc with hc | hc | hc
    · rw [if_neg (by omega), if_neg (by omega), if_pos hc]
      rw [if_neg (by omega), if_neg (by omega)] at h
      split at h <;> rename_i hl
      · rw [if_pos hl]
        generalize hcode : fromBigEndian (f.payload.take 2) = code at h ⊢
        cases h with
        | close h => exact ⟨_, rfl, by rw [h.nil_inv]⟩
      · rw [if_neg hl, List.drop_of_length_le (by omega)]
        generalize hcode : (0 : Nat) = code at h ⊢
        cases h with
        | close h => exact ⟨_, rfl, by rw [h.nil_inv]⟩
    · rw [if_pos hc]
      rw [if_pos hc] at h
      cases h with
      | ping h => rw [h.nil_inv]
    · rw [if_neg (by omega), if_pos hc]
      rw [if_neg (by omega), if_pos hc] at h
      cases h with
      | pong h => rw [h.nil_inv]

theorem Renders.frames {l B evs o fs o'} (ha : AcceptedAll o fs o') (h : Renders l B evs (deliveriesOf fs)) :
    FramesEvents l B fs evs := by
  induction ha generalizing evs with
  | nil => exact h.nil_inv
  | cons hv hacc h8 _ ih =>
    unfold deliveriesOf at h
    rw [List.flatMap_cons] at h
    obtain ⟨e1, e2, rfl, h1, h2⟩ := h.split
    exact ⟨e1, e2, rfl, h1.frame hacc, ih h2⟩

/-- Nothing is left to receive. -/
theorem Receives.empty {o ds r} (h : Receives o [] ds r) (hr : r.ofBytes) : ds = [] ∧ r = .incomplete := by
  have hi : interpretFrame o [] = ([], [], .over .incomplete) := rfl
  obtain ⟨r', e, -, e2, e3⟩ | ⟨_, _, _, e, _⟩ := h.first (T := []) List.prefix_rfl hr (fun _ => rfl) hi
  · cases e; exact ⟨e2, e3⟩
  · cases e

/-- The tail of the stream starts with a frame that ends receiving. -/
theorem Receives.over {o bs ds r T B D r'} (h : Receives o bs ds r) (hpre : bs <+: T) (hr : r.ofBytes)
    (hinc : r = .incomplete → bs = T) (hi : interpretFrame o T = (B, D, .over r')) : bs = B ∧ ds = D ∧ r = r' := by
  obtain ⟨r'', e, e1, e2, e3⟩ | ⟨_, _, _, e, _⟩ := h.first hpre hr hinc hi
  · cases e; exact ⟨e1, e2, e3⟩
  · cases e

/-- A healthy connection, a listener that does not interfere, accepted frames and then bytes that end receiving: what is
heard, and what is left unread. -/
theorem listen_then_over (env : Env) (ht : env.Tame) (hp : env.Passive) (l B : Nat) (hB : 0 < B) (h : Header) (st : St)
    (hl : st.sock.listener = some l) (hs : st.sock.config.readBufferSize = B) (o o' : Bool)
    (ho : OpenIs o st.sock.lastOpcode) (hh : Healthy (st.inp.bytes.length + 1) st.inp.sched) (fs : List Frame)
    (tail : List UInt8) (hb : st.inp.bytes = wireOf fs ++ tail) (ha : AcceptedAll o fs o') (eaten : List UInt8)
    (D : List Delivery) (r' : Reason) (hi : interpretFrame o' tail = (eaten, D, .over r')) (rest : List UInt8)
    (hrest : tail = eaten ++ rest) :
    ∃ evs evs' x st', listenBody env h st = (x, st') ∧ listen env h st = (.ret (), st') ∧
      st'.inp.bytes = rest ∧ FramesEvents l B fs evs ∧ Renders l B evs' D ∧
      st'.sock.trace = st.sock.trace ++ (evs ++ evs') ∧ EndsLike r' x ∧ x ≠ .block := by
  obtain ⟨k, ds, r, evs, x, st', e1, e2, hr, hk, hbytes, hrec, hren, htr, hends, hnb, hinc⟩ :=
    listenBody_frames env ht hp B hB h st hs o o' ho hh fs tail hb ha
  obtain ⟨g1, g2, g3⟩ := hrec.over (List.take_prefix _ _) hr (fun e => by rw [hinc e, List.take_length]) hi
  subst g2 g3
  rw [hl] at hren
  obtain ⟨ev1, ev2, rfl, h1, h2⟩ := Renders.split (show Renders l B evs (_ ++ _) from hren)
  refine ⟨ev1, ev2, x, st', e1, e2, ?_, h1.frames ha, h2, htr, hends, hnb⟩
  rw [hbytes]
  have : tail.take k ++ tail.drop k = eaten ++ rest := by rw [List.take_append_drop, hrest]
  rw [g1] at this
  exact List.append_cancel_left this

end OatWS
