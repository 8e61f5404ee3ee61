import Verif.Props.EndToEnd
import Verif.Spec.Content
/-! # C05 (receiving), C52: messages in fragments -/

namespace OatWS
open RFC6455

/-- What a listener puts together depends on opcode, FIN and payload of the frames only. -/
theorem reassemble_content {l B fs evs o o'} (ha : AcceptedAll o fs o') (h : FramesEvents l B fs evs) (acc : List UInt8) :
    reassemble acc evs = contentOf acc fs := by
  induction ha generalizing evs acc with
  | nil => rw [show evs = [] from h]; rfl
  | @cons o f fs o' hv hacc h8 _ ih =>
    obtain ⟨e, es, rfl, h1, h2⟩ := h
    unfold FrameEvents at h1
    rw [contentOf]
    split at h1 <;> rename_i h9
    · rw [h1, if_pos h9]; simp [reassemble, ih h2]
    · rw [if_neg h9]
      split at h1 <;> rename_i h10
      · rw [h1, if_pos h10]; simp [reassemble, ih h2]
      · rw [if_neg h10]
        obtain ⟨pieces, hd, rfl⟩ := h1
        rw [List.append_assoc, reassemble_pieces hd]
        cases f.fin
        · simp [ih h2]
        · simp [reassemble, ih h2]

/-- **C05** (receiving). From any frames that are accepted, however they are masked and in whatever portions their bytes are read, the
listener puts together the messages of `contentOf`, which do not depend on the masking keys. -/
theorem C05_received (env : Env) (h : Header) (st : St) (l B : Nat) (o o' : Bool) (hU : Undisturbed env st l B o)
    (fs : List Frame) (ha : AcceptedAll o fs o') (hb : st.inp.bytes = wireOf fs) :
    ∃ evs st', listen env h st = (.ret (), st') ∧ st'.sock.trace = st.sock.trace ++ evs ∧ reassemble [] evs = contentOf [] fs := by
  obtain ⟨evs, st', e, htr, hf, _⟩ := C08_C09_frames_heard env h st l B o o' hU fs ha hb
  exact ⟨evs, st', e, htr, reassemble_content ha hf []⟩

/-- What there is to a frame beside its masking key (and RSV bits). -/
def butKey (f : Frame) : Bool × Nat × List UInt8 := (f.fin, f.opcode, f.payload)

theorem contentOf_sameButKey (fs gs : List Frame) (h : fs.map butKey = gs.map butKey) (acc : List UInt8) :
    contentOf acc fs = contentOf acc gs := by
  induction fs generalizing gs acc with
  | nil => cases gs with
    | nil => rfl
    | cons g gs => cases h
  | cons f fs ih => cases gs with
    | nil => cases h
    | cons g gs =>
      injection h with h1 h2
      simp only [butKey, Prod.mk.injEq] at h1
      obtain ⟨h1, h3, h4⟩ := h1
      simp only [contentOf, h1, h3, h4, ih gs h2]

/-- **C05.** The same frames with different keys (or none): the same messages. -/
theorem C05_keys_do_not_matter (env env' : Env) (h h' : Header) (st st' : St) (l l' B B' : Nat) (o o1 o2 : Bool)
    (hU : Undisturbed env st l B o) (hU' : Undisturbed env' st' l' B' o) (fs gs : List Frame)
    (ha : AcceptedAll o fs o1) (ha' : AcceptedAll o gs o2) (hsame : fs.map butKey = gs.map butKey)
    (hb : st.inp.bytes = wireOf fs) (hb' : st'.inp.bytes = wireOf gs) :
    ∃ evs evs', (listen env h st).2.sock.trace = st.sock.trace ++ evs ∧ (listen env' h' st').2.sock.trace = st'.sock.trace ++ evs' ∧
      reassemble [] evs = reassemble [] evs' := by
  obtain ⟨evs, st1, e, htr, hc⟩ := C05_received env h st l B o o1 hU fs ha hb
  obtain ⟨evs', st1', e', htr', hc'⟩ := C05_received env' h' st' l' B' o o2 hU' gs ha' hb'
  exact ⟨evs, evs', by rw [e]; exact htr, by rw [e']; exact htr', by rw [hc, hc', contentOf_sameButKey fs gs hsame]⟩

/-! ## C52 -/

theorem contentOf_append (acc : List UInt8) (fs gs : List Frame) :
    contentOf acc (fs ++ gs) = ((contentOf acc fs).1 ++ (contentOf (contentOf acc fs).2 gs).1, (contentOf (contentOf acc fs).2 gs).2) := by
  induction fs generalizing acc with
  | nil => rfl
  | cons f fs ih =>
    rw [List.cons_append, contentOf, contentOf]
    split
    · rw [ih]; rfl
    · split
      · rw [ih]; rfl
      · split
        · rw [ih]; rfl
        · rw [ih]

theorem contentOf_messages (env : Env) (masked : Bool) (cs : List SendCall) (hm : ∀ c ∈ cs, c.isMessage) (pos : Nat) :
    contentOf [] (framesFrom env masked pos cs) = (cs.map SendCall.msg, []) := by
  induction cs generalizing pos with
  | nil => rfl
  | cons c cs ih =>
    have i := ih (fun c hc => hm c (by simp [hc])) (pos + 4)
    have hc := hm c (by simp)
    rw [framesFrom, contentOf, i]
    cases c <;> first | exact hc.elim | rfl

theorem AcceptedAll.append {o o1 o2 fs gs} (h : AcceptedAll o fs o1) (h' : AcceptedAll o1 gs o2) : AcceptedAll o (fs ++ gs) o2 := by
  induction h with
  | nil => exact h'
  | cons hv hacc h8 _ ih => exact .cons hv hacc h8 (ih h')

theorem between_accepted (env : Env) (masked : Bool) (bs : List Between) (hs : ∀ b ∈ bs, b.short)
    (hl : ∀ b ∈ bs, b.call.content.2.2.length < 2 ^ 63) (pos : Nat) :
    AcceptedAll true (framesFrom env masked pos (bs.map Between.call)) true := by
  induction bs generalizing pos with
  | nil => exact .nil
  | cons b bs ih =>
    have i := ih (fun b hb => hs b (by simp [hb])) (fun b hb => hl b (by simp [hb])) (pos + 4)
    have hv := callFrame_valid env masked pos b.call (hl b (by simp))
    have hb := hs b (by simp)
    have key : Accepted true (callFrame env masked pos b.call) ∧ (callFrame env masked pos b.call).opcode ≠ 8 ∧
        openAfterFrame true (callFrame env masked pos b.call) = true := by
      cases b
      · exact ⟨.inl ⟨.inl rfl, rfl⟩, by simp [callFrame, SendCall.content, Between.call], rfl⟩
      · exact ⟨.inr ⟨.inr (.inl rfl), hb⟩, by simp [callFrame, SendCall.content, Between.call], rfl⟩
      · exact ⟨.inr ⟨.inr (.inr rfl), hb⟩, by simp [callFrame, SendCall.content, Between.call], rfl⟩
    refine .cons hv key.1 key.2.1 ?_
    have k := key.2.2
    have i' : AcceptedAll (openAfterFrame true (callFrame env masked pos b.call)) (framesFrom env masked (pos + 4) (bs.map Between.call)) true := by
      rw [k]; exact i
    exact i'

theorem between_content (env : Env) (masked : Bool) (bs : List Between) (pos : Nat) (acc : List UInt8) :
    contentOf acc (framesFrom env masked pos (bs.map Between.call)) = (bs.flatMap Between.own, acc ++ bs.flatMap Between.data) := by
  induction bs generalizing pos acc with
  | nil => simp [contentOf, framesFrom]
  | cons b bs ih =>
    simp only [List.map_cons, framesFrom]
    rw [contentOf]
    cases b
    · rename_i d
      show contentOf (acc ++ d.getD []) _ = _
      rw [ih]
      simp [Between.own, Between.data]
    · rename_i d
      show (Msg.ping (d.getD []) :: (contentOf acc _).1, (contentOf acc _).2) = _
      rw [ih]
      simp [Between.own, Between.data]
    · rename_i d
      show (Msg.pong (d.getD []) :: (contentOf acc _).1, (contentOf acc _).2) = _
      rw [ih]
      simp [Between.own, Between.data]

/-- **C52.** The sender makes any sequence of text and binary messages, pings and pongs; then it sends a message in fragments: a first one (text or
binary, not FIN), then any number of further fragments with pings and pongs between them, then the last one (FIN). All the calls succeed. The peer,
which has received nothing else, listens on these bytes: its listener puts together the messages sent before, then the pings and
pongs in between, and one message whose data is that of all fragments put together; nothing is left over. (The opcode the peer
is told at the end is 0, that of the last frame: C14.) -/
theorem C52_fragments_are_one_message (envS : Env) (s s' : Sock) (before : List SendCall) (hbefore : ∀ c ∈ before, c.isMessage)
    (op : UInt8) (hop : op = 1 ∨ op = 2) (first last : Option (List UInt8)) (between : List Between) (hshort : ∀ b ∈ between, b.short)
    (hsent : SucceedAll envS (before ++ (.oneFrame false op first :: between.map Between.call ++ [.oneFrame true 0 last])) s s')
    (envR : Env) (h : Header) (st : St) (l B : Nat) (hU : Undisturbed envR st l B false)
    (hb : s'.out.written = s.out.written ++ st.inp.bytes) :
    ∃ evs st', listen envR h st = (.ret (), st') ∧ st'.sock.trace = st.sock.trace ++ evs ∧
      reassemble [] evs = (before.map SendCall.msg ++ between.flatMap Between.own ++
        [.data 0 (first.getD [] ++ between.flatMap Between.data ++ last.getD [])], []) := by
  have hw := (C42_sends envS _ _ _ hsent).1
  rw [hb] at hw
  have hw := List.append_cancel_left hw
  have hlen := hsent.lengths
  rw [framesFrom_append] at hw
  generalize s.config.maskOutgoingMessages = m at hw
  generalize s.rngPos + 4 * before.length = pos at hw
  rw [List.cons_append, framesFrom, framesFrom_append] at hw
  generalize pos + 4 + 4 * (between.map Between.call).length = pos' at hw
  obtain ⟨a1, _, _⟩ := framesFrom_accepted envS m before hbefore (fun c hc => hlen c (by simp [hc])) s.rngPos
  have a2 := between_accepted envS m between hshort (fun b hb => hlen b.call (by
    refine List.mem_append_right _ (List.mem_append_left _ (List.mem_cons_of_mem _ (List.mem_map_of_mem hb)))) ) (pos + 4)
  have hvf := callFrame_valid envS m pos (.oneFrame false op first) (hlen _ (by simp))
  have hvl := callFrame_valid envS m pos' (.oneFrame true 0 last) (hlen _ (by simp))
  have a3 : AcceptedAll true [callFrame envS m pos' (.oneFrame true 0 last)] true :=
    .cons hvl (.inl ⟨.inl rfl, rfl⟩) (by simp [callFrame, SendCall.content]) .nil
  have a4 : AcceptedAll false (callFrame envS m pos (.oneFrame false op first) ::
      (framesFrom envS m (pos + 4) (between.map Between.call) ++ [callFrame envS m pos' (.oneFrame true 0 last)])) true := by
    refine .cons hvf (.inl ⟨?_, ?_⟩) ?_ ?_
    · rcases hop with rfl | rfl
      · exact .inr (.inl rfl)
      · exact .inr (.inr rfl)
    · rcases hop with rfl | rfl <;> rfl
    · rcases hop with rfl | rfl <;> simp [callFrame, SendCall.content]
    · have : openAfterFrame false (callFrame envS m pos (.oneFrame false op first)) = true := by
        rcases hop with rfl | rfl <;> rfl
      rw [this]
      exact a2.append a3
  obtain ⟨evs, st', e, htr, hc⟩ := C05_received envR h st l B false true hU _ (a1.append a4) hw
  refine ⟨evs, st', e, htr, ?_⟩
  rw [hc, contentOf_append, contentOf_messages _ _ _ hbefore]
  have hfirst : ∀ fs, contentOf [] (callFrame envS m pos (.oneFrame false op first) :: fs) = contentOf (first.getD []) fs := by
    intro fs
    rcases hop with rfl | rfl <;> rfl
  have hlast : ∀ acc, contentOf acc [callFrame envS m pos' (.oneFrame true 0 last)] = ([.data 0 (acc ++ last.getD [])], []) := fun _ => rfl
  simp only [hfirst, contentOf_append, between_content, hlast, List.append_assoc]

/-- A masked message in three fragments with a ping between them, behind a text message. -/
example : ∃ s', SucceedAll Fixture.env ([.text (some [0x61])] ++ (.oneFrame false 2 (some [1, 2, 3]) ::
      [Between.ping (some [9]), .fragment (some [4])].map Between.call ++ [.oneFrame true 0 (some [5, 6])])) Fixture.sender s' ∧
    ∃ evs st', listen Fixture.env default (Fixture.receiving s'.out.written) = (.ret (), st') ∧ st'.sock.trace = [] ++ evs ∧
      reassemble [] evs = ([.text [0x61], .ping [9], .other 0 [1, 2, 3, 4, 5, 6]], []) := by
  have key : SucceedAll Fixture.env ([.text (some [0x61])] ++ (.oneFrame false 2 (some [1, 2, 3]) ::
      [Between.ping (some [9]), .fragment (some [4])].map Between.call ++ [.oneFrame true 0 (some [5, 6])])) Fixture.sender _ :=
    .cons (by decide) (.other nofun rfl) (.cons (by decide) (.oneFrame rfl) (.cons (by decide) (.other nofun rfl)
      (.cons (by decide) (.oneFrame rfl) (.cons (by decide) (.oneFrame rfl) .nil))))
  refine ⟨_, key, ?_⟩
  exact C52_fragments_are_one_message Fixture.env Fixture.sender _ [.text (some [0x61])] (by simp [SendCall.isMessage]) 2 (.inr rfl)
    (some [1, 2, 3]) (some [5, 6]) [.ping (some [9]), .fragment (some [4])] (by simp [Between.short]) key _ _ _ 7 2
    (Fixture.undisturbed _ (by decide +kernel)) rfl

end OatWS
