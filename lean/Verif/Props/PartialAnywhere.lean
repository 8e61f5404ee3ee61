import Verif.Props.Reuse
import Verif.Props.EndToEnd
/-! # C14, C19, C26: what the code does where the claim fails, for every receiver -/

namespace OatWS
open RFC6455 Async

/-- **C14**, what the code does, for every receiver of either API that is left alone: the callbacks of each frame carry the opcode of the *frame* (0 for a continuation frame), not the type of the message. -/
theorem C14_actual_any_receiver (o o' : Bool) (fs : List Frame) (ha : AcceptedAll o fs o') (l B : Nat) (evs : List Event) (left : List UInt8) (hB : 0 < B) (h : HeardBy o (wireOf fs) l B evs left) :
    PerFrame (fun f e => FrameEvents l B f e ∧ (isDataFrame f = true → CarriesType f.opcode e)) fs evs := by
  obtain ⟨k, ds, r, hc, h1, h2⟩ := h.course hB
  obtain ⟨_, rfl, _⟩ := hc.det (receives_complete ha.complete)
  exact (h1.frames ha).perFrame fun f e _ he => ⟨he, fun hd => frameEvents_type l B f e hd he⟩

/-- A course, with a frame before it. -/
theorem Course.cons {o o1 : Bool} {b bytes : List UInt8} {k : Nat} {d ds : List Delivery} {r : Reason} (h1 : OneFrame o b d (.next o1)) (h : Course o1 bytes k ds r) :
    Course o (b ++ bytes) (b.length + k) (d ++ ds) r := by
  refine ⟨by rw [List.length_append]; have := h.le; omega, ?_, h.ofBytes, fun e => by rw [List.length_append, h.all e]⟩
  rw [List.take_append, List.take_of_length_le (by omega), show b.length + k - b.length = k by omega]
  exact .more h1 h.receives

instance (n : Nat) : Decidable (isDataOpcode n) := inferInstanceAs (Decidable (n = 0 ∨ n = 1 ∨ n = 2))

/-- **C19**, what the code does, for every receiver of either API that is left alone: a data frame, a ping or a pong that announces a length with the top bit set is an empty one, and what follows its header is taken for the next frame. -/
theorem C19_actual_any_receiver (o : Bool) (head tail : List UInt8) (hd : Hdr) (hp : parseHdr head = some (hd, [])) (hlen : 2 ^ 63 ≤ hd.len)
    (hok : (isDataOpcode hd.opcode ∧ mayStart o hd.opcode) ∨ hd.opcode = 9 ∨ hd.opcode = 10) :
    ∃ (k : Nat) (ds : List Delivery) (r : Reason), Receives (if isDataOpcode hd.opcode then openAfter o hd else o) (tail.take k) ds r ∧
      ∀ (l B : Nat) (evs : List Event) (left : List UInt8), 0 < B → HeardBy o (head ++ tail) l B evs left →
        left = tail.drop k ∧ ∃ evs', Renders l B evs' ds ∧
          evs = (if hd.opcode = 9 then [.onPing l []] else if hd.opcode = 10 then [.onPong l []] else if hd.fin then [.readMessage l (UInt8.ofNat hd.opcode) []] else []) ++ evs' := by
  have h0 : effectiveLen hd.len = 0 := by unfold effectiveLen; rw [if_neg (by omega)]
  have hk : applyKey? hd.maskKey [] = [] := List.length_eq_zero_iff.mp (by rw [applyKey?_length]; rfl)
  have frame : OneFrame o head (if isDataOpcode hd.opcode then .data hd.opcode [] :: if hd.fin then [.endOfMessage hd.opcode] else [] else [controlDelivery hd.opcode []])
      (.next (if isDataOpcode hd.opcode then openAfter o hd else o)) := by
    rcases hok with ⟨h1, h2⟩ | h1
    · rw [if_pos h1, if_pos h1]
      have := OneFrame.data hp h1 h2 (by rw [h0]; rfl)
      rwa [hk] at this
    · have hn : ¬ isDataOpcode hd.opcode := by unfold isDataOpcode; omega
      rw [if_neg hn, if_neg hn]
      have := OneFrame.pingPong (isOpen := o) hp h1 (by omega) (by rw [h0]; rfl)
      rwa [hk] at this
  obtain ⟨k, ds, r, hc⟩ := course_exists (if isDataOpcode hd.opcode then openAfter o hd else o) tail
  refine ⟨k, ds, r, hc.receives, fun l B evs left hB h => ?_⟩
  obtain ⟨k', ds', r', hc', h1, h2⟩ := h.course hB
  obtain ⟨rfl, rfl, _⟩ := hc'.det (Course.cons frame hc)
  refine ⟨by rw [h2, List.drop_append, List.drop_of_length_le (by omega), List.nil_append, show head.length + k - head.length = k by omega], ?_⟩
  obtain ⟨e1, e2, rfl, g1, g2⟩ := h1.split
  refine ⟨e2, g2, ?_⟩
  congr 1
  rcases hok with ⟨h3, _⟩ | h3
  · rw [if_pos h3] at g1
    obtain ⟨op, chunks, rest, hop, hch, hcat, hsz, g1⟩ := dataInv g1
    have hch : chunks = [] := by
      cases chunks with
      | nil => rfl
      | cons c cs =>
        have := hsz c List.mem_cons_self
        rw [List.flatten_cons, List.append_eq_nil_iff] at hcat
        rw [hcat.1] at this
        exact absurd this.1 (by decide)
    subst hch
    have h9 : ¬ hd.opcode = 9 := by unfold isDataOpcode at h3; omega
    have h10 : ¬ hd.opcode = 10 := by unfold isDataOpcode at h3; omega
    rw [if_neg h9, if_neg h10, ‹e1 = _›]
    cases hfin : hd.fin with
    | true =>
      rw [hfin] at g1
      simp only [if_true] at g1 ⊢
      rw [endInv g1]; rfl
    | false =>
      rw [hfin] at g1
      simp only [Bool.false_eq_true, if_false] at g1 ⊢
      rw [g1.nil_inv]; rfl
  · have hn : ¬ isDataOpcode hd.opcode := by unfold isDataOpcode; omega
    rw [if_neg hn] at g1
    unfold controlDelivery at g1
    rcases h3 with h3 | h3
    · rw [if_pos h3] at g1 ⊢
      cases g1 with | ping g => rw [g.nil_inv]
    · rw [if_neg (by omega), if_pos h3] at g1 ⊢
      cases g1 with | pong g => rw [g.nil_inv]
where
  dataInv {l B : Nat} {evs : List Event} {n : Nat} {d : List UInt8} {ds : List Delivery} (h : Renders l B evs (.data n d :: ds)) :
      ∃ (op : UInt8) (chunks : List (List UInt8)) (rest : List Event), op.toNat = n ∧ evs = chunks.map (Event.readMessage l op) ++ rest ∧ chunks.flatten = d ∧
        (∀ c ∈ chunks, 0 < c.length ∧ c.length ≤ B) ∧ Renders l B rest ds := by
    cases h with | data h1 h2 => exact ⟨_, _, _, rfl, rfl, rfl, h1, h2⟩
  endInv {l B : Nat} {evs : List Event} {n : Nat} (h : Renders l B evs [.endOfMessage n]) : evs = [.readMessage l (UInt8.ofNat n) []] := by
    cases h with | endOfMessage g => rw [g.nil_inv, UInt8.ofNat_toNat]

/-- **C19**, what the code does with a close frame that announces such a length: it is an empty close frame. -/
theorem C19_actual_close_any_receiver (o : Bool) (head tail : List UInt8) (hd : Hdr) (hp : parseHdr head = some (hd, [])) (hlen : 2 ^ 63 ≤ hd.len) (hop : hd.opcode = 8)
    (l B : Nat) (evs : List Event) (left : List UInt8) (hB : 0 < B) (h : HeardBy o (head ++ tail) l B evs left) : evs = [.onClose l 0 []] ∧ left = tail := by
  have h0 : effectiveLen hd.len = 0 := by unfold effectiveLen; rw [if_neg (by omega)]
  have hk : applyKey? hd.maskKey [] = [] := List.length_eq_zero_iff.mp (by rw [applyKey?_length]; rfl)
  have frame := OneFrame.close (isOpen := o) hp hop (by omega) (by rw [h0]; rfl)
  rw [hk] at frame
  obtain ⟨k, ds, r, hc, h1, h2⟩ := h.course hB
  obtain ⟨rfl, rfl, _⟩ := hc.det (Course.ofSplit (bytes := head ++ tail) (left := tail) rfl (.last frame) trivial nofun)
  refine ⟨?_, by rw [h2, List.drop_left]⟩
  unfold controlDelivery at h1
  rw [if_neg (by omega), if_neg (by omega)] at h1
  revert h1
  generalize hE : ([_] : List Delivery) = D
  intro h1
  cases h1 with
  | close g =>
    injection hE with hE1 hE2
    subst hE2
    injection hE1 with a b
    rw [g.nil_inv, ← b]
    congr 2
    exact UInt16.toNat_inj.mp (by rw [← a]; rfl)
  | _ => simp at hE

/-- **C26**, what the code does, for every receiver of either API that is left alone, whatever follows on the wire: a ping, pong or close with more than 125 bytes that the send API has transmitted without an error is not told to
the listener; the receiver stops there, `listenAsync` with the error "control frame too long". -/
theorem C26_actual_any_receiver (env : Env) (s s' : Sock) (c : SendCall) (hc : c.isControl) (hS : c.Sendable s) (hlen : 125 < c.content.2.2.length) (hsent : send env c s = (.ret (), s'))
    (o : Bool) (sent more : List UInt8) (hb : s'.out.written = s.out.written ++ sent) (l B : Nat) (evs : List Event) (left : List UInt8) (hB : 0 < B) (h : HeardBy o (sent ++ more) l B evs left) :
    evs = [] ∧ left.length = c.content.2.2.length + more.length ∧ ∀ out, HeardAmongTasks o (sent ++ more) l B evs left out → out = .failed (.thrown .controlTooLong) := by
  have hne : ∀ fin op m, c ≠ .oneFrame fin op m := by intro fin op m e; subst e; exact hc
  have hw := (C42_sends env _ _ _ (.cons hS (.other hne hsent) .nil)).1
  rw [hb] at hw
  have hw := List.append_cancel_left hw
  have h63 := (SucceedAll.cons hS (.other hne hsent) .nil).lengths c (by simp)
  have hv := callFrame_valid env s.config.maskOutgoingMessages s.rngPos c h63
  have hop : (callFrame env s.config.maskOutgoingMessages s.rngPos c).opcode = 8 ∨
      (callFrame env s.config.maskOutgoingMessages s.rngPos c).opcode = 9 ∨
      (callFrame env s.config.maskOutgoingMessages s.rngPos c).opcode = 10 := by
    cases c <;> first | exact hc.elim | (simp [callFrame, SendCall.content])
  have hw : sent = (callFrame env s.config.maskOutgoingMessages s.rngPos c).encode := by rw [hw]; exact wireOf_one _
  subst hw
  have hpl : (callFrame env s.config.maskOutgoingMessages s.rngPos c).payload = c.content.2.2 := rfl
  have hr : refusal o (hdrOfFrame (callFrame env s.config.maskOutgoingMessages s.rngPos c)) = some .controlTooLong := by
    unfold refusal
    have e1 : (hdrOfFrame (callFrame env s.config.maskOutgoingMessages s.rngPos c)).opcode = (callFrame env s.config.maskOutgoingMessages s.rngPos c).opcode := rfl
    have e2 : (hdrOfFrame (callFrame env s.config.maskOutgoingMessages s.rngPos c)).len = (callFrame env s.config.maskOutgoingMessages s.rngPos c).payload.length := rfl
    rw [e1, e2, hpl, if_neg (by omega), if_neg (by omega), if_pos hop, if_pos ⟨hlen, hv.2.2⟩]
  have hp := parseHdr_encode _ hv more
  obtain ⟨g1, g2⟩ := C84_any_receiver o o [] _ _ [] _ _ .nil hp hr l B evs left hB h
  refine ⟨g1.nil_inv, ?_, fun out ho => C84_async_error o o [] _ _ [] _ _ .nil hp hr l B evs left out hB ho⟩
  rw [g2, List.length_append, applyKey?_length, hpl]

/-! ## Cases -/

/-- "Hel" "lo" is heard: the callbacks for "lo" carry 0. -/
example : ∃ evs left, HeardBy false (wireOf [Fixture.hel, Fixture.ping, Fixture.lo]) 7 2 evs left ∧
    PerFrame (fun f e => FrameEvents 7 2 f e ∧ (isDataFrame f = true → CarriesType f.opcode e)) [Fixture.hel, Fixture.ping, Fixture.lo] evs := by
  obtain ⟨evs, left, h⟩ := exAnewAlone (wireOf [Fixture.hel, Fixture.ping, Fixture.lo]) (by decide +kernel)
  exact ⟨evs, left, h, C14_actual_any_receiver _ _ _ Fixture.accepted _ _ _ _ (by decide) h⟩

/-- A final text frame that announces 2^63 bytes, then the text "abc". -/
def exTopBit : List UInt8 := [0x81, 0x7F, 0x80, 0, 0, 0, 0, 0, 0, 0]

example : ∃ evs left, HeardBy false (exTopBit ++ wireOf [Fixture.text]) 7 2 evs left ∧ ∃ evs', evs = .readMessage 7 1 [] :: evs' := by
  obtain ⟨evs, left, h⟩ := exAnewAlone (exTopBit ++ wireOf [Fixture.text]) (by decide +kernel)
  have hbig : parseHdr exTopBit = some (⟨true, false, false, false, 1, none, 2 ^ 63⟩, []) := by decide +kernel
  obtain ⟨k, ds, r, _, hall⟩ := C19_actual_any_receiver false exTopBit (wireOf [Fixture.text]) _ hbig (Nat.le_refl _) (.inl ⟨.inr (.inl rfl), rfl⟩)
  obtain ⟨_, evs', _, he⟩ := hall 7 2 evs left (by decide) h
  exact ⟨evs, left, h, evs', he⟩

example : ∃ evs left, HeardBy false ([0x88, 0x7F, 0x80, 0, 0, 0, 0, 0, 0, 0] ++ [1, 2]) 7 2 evs left ∧ evs = [.onClose 7 0 []] ∧ left = [1, 2] := by
  obtain ⟨evs, left, h⟩ := exAnewAlone ([0x88, 0x7F, 0x80, 0, 0, 0, 0, 0, 0, 0] ++ [1, 2]) (by decide +kernel)
  have hbig : parseHdr [0x88, 0x7F, 0x80, 0, 0, 0, 0, 0, 0, 0] = some (⟨true, false, false, false, 8, none, 2 ^ 63⟩, []) := by decide +kernel
  exact ⟨evs, left, h, C19_actual_close_any_receiver false _ [1, 2] _ hbig (Nat.le_refl _) rfl 7 2 evs left (by decide) h⟩

theorem pair {α β : Type} (x : α × β) (a : α) (h : x.1 = a) : x = (a, x.2) := by rw [← h]

/-- The ping of 126 bytes. -/
example : ∃ evs left, HeardBy false ((send Fixture.env Fixture.bigPing Fixture.bigSender).2.out.written ++ []) 7 2 evs left ∧ evs = [] := by
  obtain ⟨h1, h2, h3, h4⟩ := C26_witness
  obtain ⟨evs, left, h⟩ := exAnewAlone ((send Fixture.env Fixture.bigPing Fixture.bigSender).2.out.written ++ []) (by rw [List.append_nil]; exact h2)
  refine ⟨evs, left, h, (C26_actual_any_receiver Fixture.env Fixture.bigSender (send Fixture.env Fixture.bigPing Fixture.bigSender).2 Fixture.bigPing trivial h3 h4 (pair _ _ h1) false (send Fixture.env Fixture.bigPing Fixture.bigSender).2.out.written [] (List.nil_append _).symm 7 2 evs left (by decide) h).1⟩

end OatWS
