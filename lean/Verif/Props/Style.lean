import Verif.Spec.Style
import Verif.Props.Determined
import Verif.Props.Again
/-!
# C89: what a receiver does not look at

Reserved bits, mask or no mask, the length field, FIN of a control frame: RFC 6455 demands that a receiver fail the connection when they are wrong. This receiver looks at none of
them (except that it unmasks what is masked, and reads the length from where it is): the application hears the same.
-/

namespace OatWS
open RFC6455

theorem parseLength_width {w : Width} {n : Nat} (h : w.Fits n) (r : List UInt8) : parseLength (w.field n).1 ((w.field n).2 ++ r) = some (n, r) := by
  cases w <;> simp only [Width.Fits] at h <;> unfold Width.field parseLength <;> dsimp only
  · rw [if_pos h]; rfl
  · simp only [show ¬ (126 ≤ 125) by omega, if_false, if_true]
    rw [take_self_append (bigEndian_length _ _)]
    simp [fromBigEndian_two n h]
  · simp only [show ¬ (127 ≤ 125) by omega, show ¬ (127 = 126) by omega, if_false]
    rw [take_self_append (bigEndian_length _ _)]
    simp [fromBigEndian_eight n (by omega)]

/-- The header of a frame written in any way is read as the header of the frame. -/
theorem parseHdr_encodeAs {w : Width} {f : Frame} (hv : f.Valid) (hw : w.Fits f.payload.length) (rest : List UInt8) :
    parseHdr (encodeAs w f ++ rest) = some (hdrOfFrame f, applyKey? f.maskKey f.payload ++ rest) := by
  obtain ⟨hop, hk, hlen⟩ := hv
  obtain ⟨fin, rsv1, rsv2, rsv3, op, key, payload⟩ := f
  dsimp only at hop hk hlen hw
  unfold encodeAs hdrOfFrame
  dsimp only
  simp only [List.cons_append, List.nil_append, List.append_assoc]
  have hb0 : flag fin 128 + flag rsv1 64 + flag rsv2 32 + flag rsv3 16 + op < 256 := by
    unfold flag; split <;> split <;> split <;> split <;> omega
  have hl7 : (w.field payload.length).1 < 128 := by
    cases w <;> simp only [Width.Fits] at hw <;> simp only [Width.field] <;> omega
  have hb1 : flag key.isSome 128 + (w.field payload.length).1 < 256 := by unfold flag; split <;> omega
  simp only [parseHdr, ofNat8 hb0, ofNat8 hb1]
  have hmod : (flag key.isSome 128 + (w.field payload.length).1) % 128 = (w.field payload.length).1 := by
    unfold flag; split <;> omega
  have hle : decide (128 ≤ flag key.isSome 128 + (w.field payload.length).1) = key.isSome := by
    unfold flag; cases key.isSome <;> simp <;> omega
  rw [hmod, hle, parseLength_width hw]
  have hpk : ∀ r, parseKey key.isSome (key.getD [] ++ r) = some (key, r) := by
    intro r
    unfold parseKey
    cases key with
    | none => simp
    | some k => simp [take_self_append (hk k rfl)]
  simp only [Option.bind_some]
  rw [hpk]
  simp only [Option.map_some, Option.some.injEq, Prod.mk.injEq, and_true]
  congr 1
  all_goals (unfold flag; cases fin <;> cases rsv1 <;> cases rsv2 <;> cases rsv3 <;> simp <;> omega)

/-- The way of RFC 6455 is one of the ways. -/
theorem encode_minimal (f : Frame) : f.encode = encodeAs (minimalWidth f.payload.length) f := by
  unfold Frame.encode encodeHeader encodeAs minimalWidth lengthField
  split
  · rfl
  · split <;> rfl

theorem oneFrame_written {o : Bool} {w : Width} {f : Frame} (hv : f.Valid) (hw : w.Fits f.payload.length) (ha : Accepted o f) (h8 : f.opcode ≠ 8) :
    OneFrame o (encodeAs w f) (frameDeliveries f) (.next (openAfterFrame o f)) := by
  have hp := parseHdr_encodeAs hv hw []
  rw [List.append_nil, List.append_nil] at hp
  have hlen : effectiveLen (hdrOfFrame f).len = f.payload.length := effectiveLen_small hv.2.2
  have hl : (applyKey? f.maskKey f.payload).length = effectiveLen (hdrOfFrame f).len := by rw [hlen, applyKey?_length]
  unfold frameDeliveries
  rcases ha with ⟨hd, hm⟩ | ⟨hc, h125⟩
  · have := OneFrame.data hp hd hm hl
    rw [show (hdrOfFrame f).maskKey = f.maskKey from rfl, applyKey?_involutive, openAfter_frame hd] at this
    rw [if_pos (show f.opcode = 0 ∨ f.opcode = 1 ∨ f.opcode = 2 from hd)]
    exact this
  · unfold isControlOpcode at hc
    have := OneFrame.pingPong (isOpen := o) hp (show f.opcode = 9 ∨ f.opcode = 10 by omega) (by rw [hlen]; exact h125) hl
    rw [show (hdrOfFrame f).maskKey = f.maskKey from rfl, applyKey?_involutive] at this
    rw [if_neg (by omega), openAfterFrame, if_neg (by omega)]
    exact this

theorem oneFrame_written_close {o : Bool} {w : Width} {g : Frame} (hv : g.Valid) (hw : w.Fits g.payload.length) (h8 : g.opcode = 8) (h125 : g.payload.length ≤ 125) :
    OneFrame o (encodeAs w g) (frameDeliveries g) (.over .closed) := by
  have hp := parseHdr_encodeAs hv hw []
  rw [List.append_nil, List.append_nil] at hp
  have hlen : effectiveLen (hdrOfFrame g).len = g.payload.length := effectiveLen_small hv.2.2
  have hl : (applyKey? g.maskKey g.payload).length = effectiveLen (hdrOfFrame g).len := by rw [hlen, applyKey?_length]
  have := OneFrame.close (isOpen := o) hp h8 (by rw [hlen]; exact h125) hl
  rw [show (hdrOfFrame g).maskKey = g.maskKey from rfl, applyKey?_involutive] at this
  unfold frameDeliveries
  rw [if_neg (by omega)]
  exact this

/-- What is received of frames written in any way, then of further bytes. -/
theorem Receives.written {o o' : Bool} {fs : List Frame} (ha : AcceptedAll o fs o') {ws : Written} (hfs : ws.frames = fs) (hw : ws.Fits) {c : List UInt8} {ds : List Delivery} {r : Reason}
    (h : Receives o' c ds r) : Receives o (ws.bytes ++ c) (deliveriesOf fs ++ ds) r := by
  induction ha generalizing ws with
  | nil =>
    cases ws with
    | nil => exact h
    | cons => cases hfs
  | @cons o f fs o' hv hacc h8 _ ih =>
    cases ws with
    | nil => cases hfs
    | cons x ws =>
      simp only [Written.frames, List.map_cons] at hfs
      injection hfs with h1 h2
      subst h1
      have hx := hw x List.mem_cons_self
      have := Receives.more (oneFrame_written hv hx hacc h8) (ih h2 (fun y hy => hw y (List.mem_cons_of_mem _ hy)) h)
      simp only [Written.bytes, List.flatMap_cons, deliveriesOf, List.append_assoc] at this ⊢
      exact this

theorem course_written {o o' : Bool} {fs : List Frame} (ha : AcceptedAll o fs o') {ws : Written} (hfs : ws.frames = fs) (hw : ws.Fits) :
    Course o ws.bytes ws.bytes.length (deliveriesOf fs) .incomplete := by
  have h := Receives.written ha hfs hw (.last (.noHeader (bs := []) rfl))
  rw [List.append_nil, List.append_nil] at h
  exact Course.ofSplit (left := []) (by rw [List.append_nil]) h trivial (fun _ => rfl)

theorem course_written_close {o o' : Bool} {fs : List Frame} (ha : AcceptedAll o fs o') {ws : Written} (hfs : ws.frames = fs) (hw : ws.Fits) {w : Width} {g : Frame}
    (hv : g.Valid) (hwg : w.Fits g.payload.length) (h8 : g.opcode = 8) (h125 : g.payload.length ≤ 125) (rest : List UInt8) :
    Course o (ws.bytes ++ encodeAs w g ++ rest) (ws.bytes ++ encodeAs w g).length (deliveriesOf fs ++ frameDeliveries g) .closed :=
  Course.ofSplit rfl (Receives.written ha hfs hw (.last (oneFrame_written_close hv hwg h8 h125))) trivial (fun h => by cases h)

theorem Renders.framesClose {l B : Nat} {evs : List Event} {o o' : Bool} {fs : List Frame} {g : Frame} (ha : AcceptedAll o fs o') (hg : Accepted o' g)
    (h : Renders l B evs (deliveriesOf fs ++ frameDeliveries g)) : FramesEvents l B (fs ++ [g]) evs := by
  obtain ⟨e1, e2, rfl, h1, h2⟩ := h.split
  exact framesEvents_append (h1.frames ha) ⟨e2, [], by rw [List.append_nil], h2.frame hg, rfl⟩

/-- **C89** (any receiver). Frames that are accepted one after the other, each written in any way that can hold its length, with any reserved bits, masked or not, the control frames final or not: any receiver
of their octets (`listen`, `listenAsync` among tasks, `listen` among threads) hears exactly these frames, in order, and leaves nothing. -/
theorem C89_any_receiver (o o' : Bool) (ws : Written) (ha : AcceptedAll o ws.frames o') (hw : ws.Fits) (l B : Nat) (hB : 0 < B) (evs : List Event) (left : List UInt8)
    (h : HeardBy o ws.bytes l B evs left) : FramesEvents l B ws.frames evs ∧ left = [] := by
  obtain ⟨k, ds, r, hc, hr, hl⟩ := h.course hB
  obtain ⟨rfl, rfl, rfl⟩ := (course_written ha rfl hw).det hc
  exact ⟨hr.frames ha, by rw [hl, List.drop_length]⟩

/-- **C89** (up to a close frame). The same with a close frame behind, written in any way, and any further octets: the close frame is heard, and the further octets are left. -/
theorem C89_any_receiver_close (o o' : Bool) (ws : Written) (ha : AcceptedAll o ws.frames o') (hw : ws.Fits) (w : Width) (g : Frame) (hv : g.Valid) (hwg : w.Fits g.payload.length)
    (h8 : g.opcode = 8) (h125 : g.payload.length ≤ 125) (rest : List UInt8) (l B : Nat) (hB : 0 < B) (evs : List Event) (left : List UInt8)
    (h : HeardBy o (ws.bytes ++ encodeAs w g ++ rest) l B evs left) : FramesEvents l B (ws.frames ++ [g]) evs ∧ left = rest := by
  obtain ⟨k, ds, r, hc, hr, hl⟩ := h.course hB
  obtain ⟨rfl, rfl, rfl⟩ := (course_written_close ha rfl hw hv hwg h8 h125 rest).det hc
  exact ⟨hr.framesClose ha (.inr ⟨.inl h8, h125⟩), by rw [hl, List.drop_left]⟩

/-- A socket on which nothing else happens is a receiver that ends. -/
theorem Undisturbed.heard {env : Env} {st : St} {l B : Nat} {o : Bool} (hU : Undisturbed env st l B o) (h : Header) :
    ∃ evs st', listen env h st = (.ret (), st') ∧ st'.sock.trace = st.sock.trace ++ evs ∧ HeardBy o st.inp.bytes l B evs st'.inp.bytes := by
  obtain ⟨k, ds, r, _, _, hall⟩ := C06_independent_of_chunking o st.inp.bytes
  obtain ⟨evs, st', e, htr, _, _⟩ := hall env h st l B hU rfl
  exact ⟨evs, st', e, htr, .inl ⟨env, h, st, st', hU.tame, hU.passive, hU.listener, hU.size, hU.isOpen, hU.healthy, rfl, e, htr, rfl⟩⟩

/-- **C89** (`listen`). `listen` on such octets returns normally, has told the listener exactly the frames, and has left nothing. -/
theorem C89_listen (env : Env) (h : Header) (st : St) (l B : Nat) (o o' : Bool) (hU : Undisturbed env st l B o) (ws : Written) (ha : AcceptedAll o ws.frames o') (hw : ws.Fits)
    (hb : st.inp.bytes = ws.bytes) :
    ∃ evs st', listen env h st = (.ret (), st') ∧ st'.sock.trace = st.sock.trace ++ evs ∧ FramesEvents l B ws.frames evs ∧ st'.inp.bytes = [] := by
  obtain ⟨evs, st', e, htr, hh⟩ := hU.heard h
  rw [hb] at hh
  obtain ⟨h1, h2⟩ := C89_any_receiver o o' ws ha hw l B hU.pos evs _ hh
  exact ⟨evs, st', e, htr, h1, h2⟩

theorem SameContent.deliveries {f g : Frame} (h : SameContent f g) : frameDeliveries f = frameDeliveries g := by
  obtain ⟨h1, h2, h3⟩ := h
  unfold frameDeliveries
  rw [h1, h2]
  split
  · rename_i c
    rw [h3 (by rw [h1]; exact c)]
  · rfl

theorem SameContents.deliveries {fs gs : List Frame} (h : SameContents fs gs) : deliveriesOf fs = deliveriesOf gs := by
  induction h with
  | nil => rfl
  | cons h _ ih =>
    simp only [deliveriesOf, List.flatMap_cons] at ih ⊢
    rw [h.deliveries, ih]

theorem SameContent.open {f g : Frame} (h : SameContent f g) (o : Bool) : openAfterFrame o f = openAfterFrame o g := by
  obtain ⟨h1, _, h3⟩ := h
  unfold openAfterFrame
  rw [h1]
  split
  · rename_i c
    rw [h3 (by rw [h1]; unfold isDataOpcode; omega)]
  · rfl

theorem SameContent.accepted {f g : Frame} (h : SameContent f g) {o : Bool} (ha : Accepted o f) : Accepted o g := by
  obtain ⟨h1, h2, _⟩ := h
  unfold Accepted at ha ⊢
  rwa [← h1, ← h2]

theorem SameContents.accepted {fs gs : List Frame} (h : SameContents fs gs) {o o' : Bool} (hv : ∀ g ∈ gs, g.Valid) (ha : AcceptedAll o fs o') : AcceptedAll o gs o' := by
  induction h generalizing o with
  | nil => exact ha
  | @cons f g fs gs h _ ih =>
    cases ha with
    | cons hvf hacc h8 ha =>
      exact .cons (hv g List.mem_cons_self) (h.accepted hacc) (by rw [← h.1]; exact h8) (ih (fun g hg => hv g (List.mem_cons_of_mem _ hg)) (by rw [← h.open]; exact ha))

/-- **C89** (no difference). Two sequences of frames that carry the same, with different reserved bits, keys, length fields, FIN of control frames: any two receivers, one of each, have heard the
same messages (and the same data of an unfinished one), and both leave nothing. -/
theorem C89_style_does_not_matter (o o' : Bool) (ws vs : Written) (hs : SameContents ws.frames vs.frames) (ha : AcceptedAll o ws.frames o') (hv : ∀ g ∈ vs.frames, g.Valid) (hw : ws.Fits)
    (hw' : vs.Fits) (l B l' B' : Nat) (hB : 0 < B) (hB' : 0 < B') (evs evs' : List Event) (left left' : List UInt8)
    (h : HeardBy o ws.bytes l B evs left) (h' : HeardBy o vs.bytes l' B' evs' left') :
    reassemble [] evs = reassemble [] evs' ∧ left = [] ∧ left' = [] := by
  obtain ⟨k, ds, r, hc, hr, hl⟩ := h.course hB
  obtain ⟨rfl, rfl, rfl⟩ := (course_written ha rfl hw).det hc
  obtain ⟨k, ds, r, hc', hr', hl'⟩ := h'.course hB'
  obtain ⟨rfl, rfl, rfl⟩ := (course_written (hs.accepted hv ha) rfl hw').det hc'
  refine ⟨?_, by rw [hl, List.drop_length], by rw [hl', List.drop_length]⟩
  rw [hr.sumUp, hr'.sumUp, hs.deliveries]

/-! ## A case: no rule is kept -/

/-- "Hel", a ping, "lo": not masked, then masked; reserved bits set; the ping not final; lengths in eight and in two octets. -/
def exOdd : Written :=
  [(.long, { fin := false, rsv1 := true, opcode := 1, payload := [0x48, 0x65, 0x6c] }),
   (.medium, { fin := false, rsv2 := true, rsv3 := true, opcode := 9, maskKey := some [1, 2, 3, 4], payload := [0x21] }),
   (.short, { fin := true, rsv3 := true, opcode := 0, payload := [0x6c, 0x6f] })]

theorem exOdd_accepted : AcceptedAll false exOdd.frames true :=
  .cons ⟨by decide, nofun, by decide⟩ (.inl ⟨.inr (.inl rfl), rfl⟩) (by decide)
    (.cons ⟨by decide, by decide, by decide⟩ (.inr ⟨.inr (.inl rfl), by decide⟩) (by decide)
      (.cons ⟨by decide, nofun, by decide⟩ (.inl ⟨.inl rfl, rfl⟩) (by decide) .nil))

theorem exOdd_fits : exOdd.Fits := by
  intro x hx
  simp only [exOdd, List.mem_cons, List.not_mem_nil, or_false] at hx
  rcases hx with rfl | rfl | rfl <;> simp [Width.Fits]

example : ∃ evs st', listen Fixture.env default (Fixture.receiving exOdd.bytes) = (.ret (), st') ∧
    st'.sock.trace = (Fixture.receiving exOdd.bytes).sock.trace ++ evs ∧ FramesEvents 7 2 exOdd.frames evs ∧ st'.inp.bytes = [] :=
  C89_listen Fixture.env default _ 7 2 false true (Fixture.undisturbed _ (by decide)) exOdd exOdd_accepted exOdd_fits rfl

/-- What is heard. -/
example : (listen Fixture.env default (Fixture.receiving exOdd.bytes)).2.sock.trace =
    [.readMessage 7 1 [0x48], .readMessage 7 1 [0x65], .readMessage 7 1 [0x6c], .onPing 7 [0x21], .readMessage 7 0 [0x6c], .readMessage 7 0 [0x6f],
      .readMessage 7 0 []] := by decide +kernel

/-- `listen` on these octets is a receiver in the sense of the other theorems; and one of the octets RFC 6455 would have. -/
example : ∃ evs left, HeardBy false exOdd.bytes 7 2 evs left ∧ FramesEvents 7 2 exOdd.frames evs ∧ left = [] := by
  obtain ⟨evs, st', _, _, h⟩ := (Fixture.undisturbed exOdd.bytes (by decide)).heard default
  exact ⟨evs, _, h, C89_any_receiver false true exOdd exOdd_accepted exOdd_fits 7 2 (by decide) evs _ h⟩

/-- A close frame with its length in eight octets, behind it more. -/
example : ∃ evs left, HeardBy false (exOdd.bytes ++ encodeAs .long Fixture.closing ++ [0x89, 0x00]) 7 2 evs left ∧ FramesEvents 7 2 (exOdd.frames ++ [Fixture.closing]) evs ∧ left = [0x89, 0x00] := by
  obtain ⟨evs, st', _, _, h⟩ := (Fixture.undisturbed (exOdd.bytes ++ encodeAs .long Fixture.closing ++ [0x89, 0x00]) (by decide)).heard default
  exact ⟨evs, _, h, C89_any_receiver_close false true exOdd exOdd_accepted exOdd_fits .long Fixture.closing ⟨by decide, nofun, by decide⟩ (by simp [Width.Fits, Fixture.closing]) rfl (by decide) _ 7 2
    (by decide) evs _ h⟩

/-- The same frames as a client should have sent them. -/
def exProper : Written := [(.short, Fixture.hel), (.short, Fixture.ping), (.short, Fixture.lo)]

example : ∃ evs evs' left left', HeardBy false exOdd.bytes 7 2 evs left ∧ HeardBy false exProper.bytes 7 2 evs' left' ∧ reassemble [] evs = reassemble [] evs' := by
  obtain ⟨evs, st', _, _, h⟩ := (Fixture.undisturbed exOdd.bytes (by decide)).heard default
  obtain ⟨evs', st'', _, _, h'⟩ := (Fixture.undisturbed exProper.bytes (by decide)).heard default
  have hw : exProper.Fits := by
    intro x hx
    simp only [exProper, List.mem_cons, List.not_mem_nil, or_false] at hx
    rcases hx with rfl | rfl | rfl <;> simp [Width.Fits, Fixture.hel, Fixture.ping, Fixture.lo]
  have hv : ∀ g ∈ exProper.frames, g.Valid := by
    intro g hg
    simp only [Written.frames, exProper, List.map_cons, List.map_nil, List.mem_cons, List.not_mem_nil, or_false] at hg
    rcases hg with rfl | rfl | rfl <;> exact ⟨by decide, by decide, by decide⟩
  have hs : SameContents exOdd.frames exProper.frames :=
    .cons ⟨rfl, rfl, fun _ => rfl⟩ (.cons ⟨rfl, rfl, fun h => by rcases h with h | h | h <;> cases h⟩ (.cons ⟨rfl, rfl, fun _ => rfl⟩ .nil))
  exact ⟨evs, evs', _, _, h, h', (C89_style_does_not_matter false true exOdd exProper hs exOdd_accepted hv exOdd_fits hw 7 2 7 2 (by decide) (by decide) evs evs' _ _ h h').1⟩

end OatWS
