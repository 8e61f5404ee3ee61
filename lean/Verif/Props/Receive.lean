import Verif.Proofs.Events
import Verif.Spec.Fixtures
/-! # C06 - C16, C19: receiving -/

namespace OatWS
open RFC6455

/-- A socket with listener `l` and a read buffer of `B > 0` bytes is about to receive; a fragmented message is open or not
(`o`); the connection delivers all its bytes, in whatever portions; the listener does not change listener or
configuration, returns normally and does not stop listening. -/
structure Undisturbed (env : Env) (st : St) (l B : Nat) (o : Bool) : Prop where
  tame : env.Tame
  passive : env.Passive
  listener : st.sock.listener = some l
  size : st.sock.config.readBufferSize = B
  pos : 0 < B
  isOpen : OpenIs o st.sock.lastOpcode
  healthy : Healthy (st.inp.bytes.length + 1) st.inp.sched

theorem Fixture.undisturbed (bytes : List UInt8) (h : Healthy (bytes.length + 1) (Fixture.slow (bytes.length + 1))) :
    Undisturbed Fixture.env (Fixture.receiving bytes) 7 2 false :=
  ⟨Fixture.env_quiet.tame, Fixture.env_quiet.passive, rfl, rfl, by decide, rfl, h⟩

theorem wireOf_one (f : Frame) : wireOf [f] = f.encode := by simp [wireOf]

/-- The bytes `hel ping lo` are accepted. -/
theorem Fixture.accepted : AcceptedAll false [Fixture.hel, Fixture.ping, Fixture.lo] true := by
  refine .cons ⟨by decide, ?_, by decide⟩ (.inl ⟨.inr (.inl rfl), rfl⟩) (by decide) (.cons ⟨by decide, ?_, by decide⟩
    (.inr ⟨.inr (.inl rfl), by decide⟩) (by decide) (.cons ⟨by decide, ?_, by decide⟩ (.inl ⟨.inl rfl, rfl⟩) (by decide) .nil))
  all_goals (intro k hk; injection hk with hk; rw [← hk]; rfl)

/-! ## C06 -/

/-- **C06** (for every schedule). Whatever the sizes of the reads, retries and failures, and whatever the read buffer size:
the callbacks are a rendering of what the chunk-free interpreter `Receives` says about exactly the bytes consumed. -/
theorem C06_any_schedule (env : Env) (ht : env.Tame) (B : Nat) (hB : 0 < B) (h : Header) (st : St)
    (hs : st.sock.config.readBufferSize = B) (o : Bool) (ho : OpenIs o st.sock.lastOpcode) :
    ∃ k ds r evs x st', listenBody env h st = (x, st') ∧ k ≤ st.inp.bytes.length ∧
      st'.inp.bytes = st.inp.bytes.drop k ∧ Receives o (st.inp.bytes.take k) ds r ∧
      RendersFor st.sock.listener B evs ds ∧ st'.sock.trace = st.sock.trace ++ evs ∧ EndsLike r x := by
  obtain ⟨k, ds, r, evs, x, st', e, hL⟩ := listenBody_receives env ht B hB h st hs o ho
  exact ⟨k, ds, r, evs, x, st', e, hL.le, hL.bytes, hL.receives, hL.renders, hL.sock.trace, hL.ends⟩

/-- A host for the existence part of the next theorem. -/
def quietEnv : Env := { host := .little, rng := fun _ => 0, react := fun _ => [] }

theorem healthy_replicate (n : Nat) : Healthy n (List.replicate n (IoOutcome.upTo 0)) := by
  refine ⟨fun o ho => by rw [List.eq_of_mem_replicate ho]; rfl, ?_⟩
  rw [List.countP_replicate]; simp [IoOutcome.moves]

/-- **C06** (independence). For any bytes there is one list of deliveries `ds` and one number `k` of consumed bytes such
that *every* undisturbed listener, for every schedule of partial reads and retries and every buffer size, hears `ds` (cut
into chunks) and leaves the bytes after `k` unread. -/
theorem C06_independent_of_chunking (o : Bool) (bytes : List UInt8) :
    ∃ k ds r, k ≤ bytes.length ∧ Receives o (bytes.take k) ds r ∧
      ∀ (env : Env) (h : Header) (st : St) (l B : Nat), Undisturbed env st l B o → st.inp.bytes = bytes →
        ∃ evs st', listen env h st = (.ret (), st') ∧ st'.sock.trace = st.sock.trace ++ evs ∧ Renders l B evs ds ∧
          st'.inp.bytes = bytes.drop k := by
  have run : ∀ (env : Env) (h : Header) (st : St) (l B : Nat), Undisturbed env st l B o → st.inp.bytes = bytes →
      ∃ k ds r evs st', listen env h st = (.ret (), st') ∧ st'.sock.trace = st.sock.trace ++ evs ∧ Renders l B evs ds ∧
        st'.inp.bytes = bytes.drop k ∧ k ≤ bytes.length ∧ Receives o (bytes.take k) ds r ∧ r.ofBytes ∧
        (r = .incomplete → k = bytes.length) := by
    intro env h st l B hU hb
    obtain ⟨k, ds, r, evs, x, st', e1, e2, hr, hk, hbytes, hrec, hren, htr, _, _, hinc⟩ :=
      listenBody_frames env hU.tame hU.passive B hU.pos h st hU.size o o hU.isOpen hU.healthy [] bytes
        (by rw [hb]; rfl) .nil
    rw [hU.listener] at hren
    exact ⟨k, ds, r, evs, st', e2, htr, hren, hbytes, hk, hrec, hr, hinc⟩
  obtain ⟨k, ds, r, _, _, _, _, _, _, hk, hrec, hr, hinc⟩ := run quietEnv default
    { sock := { Sock.new { readBufferSize := 1 } ⟨[], []⟩ with listener := some 0, lastOpcode := if o then 1 else -1 }
      inp := ⟨bytes, List.replicate (bytes.length + 1) (.upTo 0)⟩ } 0 1
    ⟨(fun _ _ h => nomatch h), fun _ s => ⟨s, rfl, rfl⟩, rfl, rfl, by decide, (by cases o <;> simp [OpenIs]),
      healthy_replicate _⟩ rfl
  refine ⟨k, ds, r, hk, hrec, fun env h st l B hU hb => ?_⟩
  obtain ⟨k', ds', r', evs, st', e, htr, hren, hbytes, hk', hrec', hr', hinc'⟩ := run env h st l B hU hb
  obtain ⟨g1, g2, g3⟩ := Receives.det hrec (List.take_prefix _ _) hr (fun e => by rw [hinc e, List.take_length])
    hrec' (List.take_prefix _ _) hr' (fun e => by rw [hinc' e, List.take_length])
  subst g2
  have : k = k' := by
    have := congrArg List.length g1
    rwa [List.length_take, List.length_take, Nat.min_eq_left hk, Nat.min_eq_left hk'] at this
  subst this
  exact ⟨evs, st', e, htr, hren, hbytes⟩

/-- A fragmented, masked message with a ping in between, read byte by byte. -/
example : Undisturbed Fixture.env (Fixture.receiving (wireOf [Fixture.hel, Fixture.ping, Fixture.lo])) 7 2 false :=
  Fixture.undisturbed _ (by decide)

/-! ## C07, C08, C09 -/

/-- **C08, C09** (the callbacks of a sequence of frames). An undisturbed listener that is sent any sequence of acceptable
frames hears, in order, exactly the callbacks of each frame: data in pieces of 1..B bytes and, for a FIN frame, one
end marker behind it; one callback with the whole payload for each ping and pong, wherever it stands. -/
theorem C08_C09_frames_heard (env : Env) (h : Header) (st : St) (l B : Nat) (o o' : Bool) (hU : Undisturbed env st l B o)
    (fs : List Frame) (ha : AcceptedAll o fs o') (hb : st.inp.bytes = wireOf fs) :
    ∃ evs st', listen env h st = (.ret (), st') ∧ st'.sock.trace = st.sock.trace ++ evs ∧ FramesEvents l B fs evs ∧
      st'.inp.bytes = [] := by
  obtain ⟨evs, evs', x, st', _, e, hbytes, hf, hr, htr, _⟩ := listen_then_over env hU.tame hU.passive l B hU.pos h st
    hU.listener hU.size o o' hU.isOpen hU.healthy fs [] (by rw [hb, List.append_nil]) ha [] [] .incomplete rfl [] rfl
  rw [hr.nil_inv, List.append_nil] at htr
  exact ⟨evs, st', e, htr, hf, hbytes⟩

example : ∃ evs st', listen Fixture.env default (Fixture.receiving (wireOf [Fixture.hel, Fixture.ping, Fixture.lo])) = (.ret (), st') ∧
    st'.sock.trace = [] ++ evs ∧ FramesEvents 7 2 [Fixture.hel, Fixture.ping, Fixture.lo] evs ∧ st'.inp.bytes = [] :=
  C08_C09_frames_heard Fixture.env default _ 7 2 false true (Fixture.undisturbed _ (by decide)) _ Fixture.accepted rfl

/-- The very callbacks of this example. -/
example : (listen Fixture.env default (Fixture.receiving (wireOf [Fixture.hel, Fixture.ping, Fixture.lo]))).2.sock.trace =
    [.readMessage 7 1 [0x48], .readMessage 7 1 [0x65], .readMessage 7 1 [0x6c], .onPing 7 [0x21],
     .readMessage 7 0 [0x6c], .readMessage 7 0 [0x6f], .readMessage 7 0 []] := by decide +kernel

/-- Is the callback an end-of-message marker? -/
def Event.isEnd : Event → Bool
  | .readMessage _ _ [] => true
  | _ => false

/-- The bytes of a data callback. -/
def Event.dataBytes : Event → List UInt8
  | .readMessage _ _ d => d
  | _ => []

/-- The data bytes of a delivery. -/
def Delivery.dataBytes : Delivery → List UInt8
  | .data _ d => d
  | _ => []

def Delivery.isEnd : Delivery → Bool
  | .endOfMessage _ => true
  | _ => false

/-- Is it a data (non-control) callback? -/
def Event.isData : Event → Bool
  | .readMessage _ _ _ => true
  | _ => false

/-- Is it a data (non-control) frame? -/
def isDataFrame (f : Frame) : Bool := f.opcode = 0 ∨ f.opcode = 1 ∨ f.opcode = 2

theorem dataCallbacks_noEnd {l B op d evs} (h : DataCallbacks l B op d evs) :
    evs.countP Event.isEnd = 0 ∧ evs.filter Event.isData = evs ∧ evs.filter (fun e => !e.isData) = [] := by
  obtain ⟨opc, chunks, rfl, rfl, hc, rfl⟩ := h
  refine ⟨?_, ?_, ?_⟩
  · rw [List.countP_eq_zero]
    intro e he
    obtain ⟨c, hcm, rfl⟩ := List.mem_map.mp he
    have := (hc c hcm).1
    cases c with
    | nil => simp at this
    | cons => simp [Event.isEnd, Delivery.isEnd]
  · rw [List.filter_eq_self]
    intro e he
    obtain ⟨c, hcm, rfl⟩ := List.mem_map.mp he
    rfl
  · rw [List.filter_eq_nil_iff]
    intro e he
    obtain ⟨c, hcm, rfl⟩ := List.mem_map.mp he
    simp [Event.isData]

/-- The number of end-of-message callbacks is the number of FIN data frames. -/
theorem framesEvents_ends (l B : Nat) (fs : List Frame) (evs : List Event) (o o' : Bool) (ha : AcceptedAll o fs o')
    (h : FramesEvents l B fs evs) :
    evs.countP Event.isEnd = fs.countP (fun f => isDataFrame f && f.fin) := by
  induction ha generalizing evs with
  | nil => rw [show evs = [] from h]; rfl
  | @cons o f fs o' hv hacc h8 _ ih =>
    obtain ⟨e, es, rfl, h1, h2⟩ := h
    rw [List.countP_append, ih es h2, List.countP_cons]
    have : e.countP Event.isEnd = if (isDataFrame f && f.fin) = true then 1 else 0 := by
      unfold FrameEvents at h1
      split at h1 <;> rename_i h9
      · rw [h1]; simp [isDataFrame, h9, Event.isEnd]
      · split at h1 <;> rename_i h10
        · rw [h1]; simp [isDataFrame, h10, Event.isEnd]
        · obtain ⟨pieces, hd, rfl⟩ := h1
          have hdf : isDataFrame f = true := by
            rcases hacc with ⟨hd, _⟩ | ⟨hc, _⟩
            · unfold isDataOpcode at hd; simpa [isDataFrame] using hd
            · unfold isControlOpcode at hc; omega
          rw [List.countP_append, (dataCallbacks_noEnd hd).1, hdf]
          cases f.fin <;> simp [Event.isEnd, Delivery.isEnd]
    rw [this]
    omega

/-- The control callbacks are exactly one per ping/pong frame, in order, with the whole payload. -/
theorem framesEvents_control (l B : Nat) (fs : List Frame) (evs : List Event) (o o' : Bool) (ha : AcceptedAll o fs o')
    (h : FramesEvents l B fs evs) :
    evs.filter (fun e => !e.isData) =
      (fs.filter (fun f => !isDataFrame f)).map fun f => if f.opcode = 9 then .onPing l f.payload else .onPong l f.payload := by
  induction ha generalizing evs with
  | nil => rw [show evs = [] from h]; rfl
  | @cons o f fs o' hv hacc h8 _ ih =>
    obtain ⟨e, es, rfl, h1, h2⟩ := h
    rw [List.filter_append, ih es h2]
    unfold FrameEvents at h1
    split at h1 <;> rename_i h9
    · rw [h1]; simp [isDataFrame, h9, Event.isData]
    · split at h1 <;> rename_i h10
      · rw [h1]; simp [isDataFrame, h10, Event.isData]
      · obtain ⟨pieces, hd, rfl⟩ := h1
        have hdf : isDataFrame f = true := by
          rcases hacc with ⟨hd, _⟩ | ⟨hc, _⟩
          · unfold isDataOpcode at hd; simpa [isDataFrame] using hd
          · unfold isControlOpcode at hc; omega
        rw [List.filter_append, (dataCallbacks_noEnd hd).2.2, List.filter_cons, hdf]
        cases f.fin <;> simp [Event.isData]

/-- Taking the pings and pongs away leaves an acceptable sequence with the same fragmentation state,
and its callbacks are the data callbacks of the original one. -/
theorem framesEvents_data (l B : Nat) (fs : List Frame) (evs : List Event) (o o' : Bool) (ha : AcceptedAll o fs o')
    (h : FramesEvents l B fs evs) :
    AcceptedAll o (fs.filter isDataFrame) o' ∧ FramesEvents l B (fs.filter isDataFrame) (evs.filter Event.isData) := by
  induction ha generalizing evs with
  | nil => rw [show evs = [] from h]; exact ⟨.nil, rfl⟩
  | @cons o f fs o' hv hacc h8 _ ih =>
    obtain ⟨e, es, rfl, h1, h2⟩ := h
    obtain ⟨i1, i2⟩ := ih es h2
    rw [List.filter_append]
    have h1' := h1
    unfold FrameEvents at h1
    split at h1 <;> rename_i h9
    · have : isDataFrame f = false := by simp [isDataFrame, h9]
      rw [List.filter_cons, this, h1]
      have ho : openAfterFrame o f = o := by simp [openAfterFrame, h9]
      rw [ho] at i1
      exact ⟨i1, i2⟩
    · split at h1 <;> rename_i h10
      · have : isDataFrame f = false := by simp [isDataFrame, h10]
        rw [List.filter_cons, this, h1]
        have ho : openAfterFrame o f = o := by simp [openAfterFrame, h10]
        rw [ho] at i1
        exact ⟨i1, i2⟩
      · obtain ⟨pieces, hd, rfl⟩ := h1
        have hdf : isDataFrame f = true := by
          rcases hacc with ⟨hd, _⟩ | ⟨hc, _⟩
          · unfold isDataOpcode at hd; simpa [isDataFrame] using hd
          · unfold isControlOpcode at hc; omega
        rw [List.filter_cons, hdf]
        refine ⟨.cons hv hacc h8 i1, _, _, rfl, ?_, i2⟩
        have : ∀ tl : List Event, (∀ e ∈ tl, e.isData = true) → (pieces ++ tl).filter Event.isData = pieces ++ tl := by
          intro tl htl
          rw [List.filter_append, (dataCallbacks_noEnd hd).2.1, List.filter_eq_self.mpr htl]
        rw [this _ (by intro e he; cases hf : f.fin <;> rw [hf] at he <;> simp at he; rw [he]; rfl)]
        exact h1'

/-- **C08** (counting). An undisturbed listener that is sent any sequence of acceptable frames hears as many end-of-message
callbacks as there are FIN data frames. (`C08_C09_frames_heard` says where they stand.) -/
theorem C08_count (env : Env) (h : Header) (st : St) (l B : Nat) (o o' : Bool) (hU : Undisturbed env st l B o)
    (fs : List Frame) (ha : AcceptedAll o fs o') (hb : st.inp.bytes = wireOf fs) :
    ∃ evs st', listen env h st = (.ret (), st') ∧ st'.sock.trace = st.sock.trace ++ evs ∧
      evs.countP Event.isEnd = fs.countP (fun f => isDataFrame f && f.fin) := by
  obtain ⟨evs, st', e, htr, hf, _⟩ := C08_C09_frames_heard env h st l B o o' hU fs ha hb
  exact ⟨evs, st', e, htr, framesEvents_ends l B fs evs o o' ha hf⟩

/-- **C09** (whole). The control callbacks it hears are exactly one per ping/pong frame, in order, with the whole payload. -/
theorem C09_control_whole (env : Env) (h : Header) (st : St) (l B : Nat) (o o' : Bool) (hU : Undisturbed env st l B o)
    (fs : List Frame) (ha : AcceptedAll o fs o') (hb : st.inp.bytes = wireOf fs) :
    ∃ evs st', listen env h st = (.ret (), st') ∧ st'.sock.trace = st.sock.trace ++ evs ∧
      evs.filter (fun e => !e.isData) =
        (fs.filter (fun f => !isDataFrame f)).map fun f => if f.opcode = 9 then .onPing l f.payload else .onPong l f.payload := by
  obtain ⟨evs, st', e, htr, hf, _⟩ := C08_C09_frames_heard env h st l B o o' hU fs ha hb
  exact ⟨evs, st', e, htr, framesEvents_control l B fs evs o o' ha hf⟩

example : ∃ evs st', listen Fixture.env default (Fixture.receiving (wireOf [Fixture.hel, Fixture.ping, Fixture.lo])) = (.ret (), st') ∧
    st'.sock.trace = [] ++ evs ∧ evs.filter (fun e => !e.isData) = [.onPing 7 [0x21]] :=
  C09_control_whole Fixture.env default _ 7 2 false true (Fixture.undisturbed _ (by decide)) _ Fixture.accepted rfl

/-- **C09** (undisturbed). The data callbacks it hears are those of the data frames alone, and these alone are an acceptable
sequence that leaves the same fragmentation state: the pings and pongs in between make no difference to the messages. -/
theorem C09_control_transparent (env : Env) (h : Header) (st : St) (l B : Nat) (o o' : Bool) (hU : Undisturbed env st l B o)
    (fs : List Frame) (ha : AcceptedAll o fs o') (hb : st.inp.bytes = wireOf fs) :
    ∃ evs st', listen env h st = (.ret (), st') ∧ st'.sock.trace = st.sock.trace ++ evs ∧
      AcceptedAll o (fs.filter isDataFrame) o' ∧ FramesEvents l B (fs.filter isDataFrame) (evs.filter Event.isData) := by
  obtain ⟨evs, st', e, htr, hf, _⟩ := C08_C09_frames_heard env h st l B o o' hU fs ha hb
  exact ⟨evs, st', e, htr, framesEvents_data l B fs evs o o' ha hf⟩

example : ∃ evs st', listen Fixture.env default (Fixture.receiving (wireOf [Fixture.hel, Fixture.ping, Fixture.lo])) = (.ret (), st') ∧
    st'.sock.trace = [] ++ evs ∧ evs.countP Event.isEnd = 1 :=
  C08_count Fixture.env default _ 7 2 false true (Fixture.undisturbed _ (by decide)) _ Fixture.accepted rfl

theorem Renders.sizes {l B : Nat} {evs : List Event} {ds : List Delivery} (hren : Renders l B evs ds) :
    (∀ e ∈ evs, ∀ l' op data, e = .readMessage l' op data → l' = l ∧ data.length ≤ B) ∧
      evs.countP Event.isEnd = ds.countP Delivery.isEnd ∧
      (evs.filter Event.isData).flatMap Event.dataBytes
        = ds.flatMap Delivery.dataBytes := by
  induction hren with
  | nil => exact ⟨nofun, rfl, rfl⟩
  | @data op chunks evs ds hc h ih =>
    obtain ⟨i1, i2, i3⟩ := ih
    have hdc : DataCallbacks l B op.toNat chunks.flatten (chunks.map (Event.readMessage l op)) := ⟨op, chunks, rfl, rfl, hc, rfl⟩
    refine ⟨?_, ?_, ?_⟩
    · intro e he l' op' data hd
      rcases List.mem_append.mp he with he | he
      · obtain ⟨c, hcm, rfl⟩ := List.mem_map.mp he
        injection hd with h1 h2 h3
        subst h1 h3
        exact ⟨rfl, (hc _ hcm).2⟩
      · exact i1 e he l' op' data hd
    · rw [List.countP_append, (dataCallbacks_noEnd hdc).1, i2, List.countP_cons]; simp [Delivery.isEnd]
    · rw [List.filter_append, (dataCallbacks_noEnd hdc).2.1, List.flatMap_append, i3, List.flatMap_cons]
      congr 1
      rw [List.flatMap_map]; simp [List.flatMap, Event.dataBytes, Delivery.dataBytes]
  | endOfMessage h ih =>
    obtain ⟨i1, i2, i3⟩ := ih
    refine ⟨?_, ?_, ?_⟩
    · intro e he l' op' data hd
      rcases List.mem_cons.mp he with rfl | he
      · injection hd with h1 h2 h3
        subst h1 h3
        exact ⟨rfl, by simp⟩
      · exact i1 e he l' op' data hd
    · rw [List.countP_cons, i2, List.countP_cons]; simp [Event.isEnd, Delivery.isEnd]
    · rw [List.filter_cons_of_pos (by rfl)]; exact i3
  | ping h ih =>
    obtain ⟨i1, i2, i3⟩ := ih
    refine ⟨?_, ?_, ?_⟩
    · intro e he l' op' data hd
      rcases List.mem_cons.mp he with rfl | he
      · cases hd
      · exact i1 e he l' op' data hd
    · rw [List.countP_cons, i2, List.countP_cons]; simp [Event.isEnd, Delivery.isEnd]
    · simpa [Event.isData, Event.dataBytes, Delivery.dataBytes] using i3
  | pong h ih =>
    obtain ⟨i1, i2, i3⟩ := ih
    refine ⟨?_, ?_, ?_⟩
    · intro e he l' op' data hd
      rcases List.mem_cons.mp he with rfl | he
      · cases hd
      · exact i1 e he l' op' data hd
    · rw [List.countP_cons, i2, List.countP_cons]; simp [Event.isEnd, Delivery.isEnd]
    · simpa [Event.isData, Event.dataBytes, Delivery.dataBytes] using i3
  | close h ih =>
    obtain ⟨i1, i2, i3⟩ := ih
    refine ⟨?_, ?_, ?_⟩
    · intro e he l' op' data hd
      rcases List.mem_cons.mp he with rfl | he
      · cases hd
      · exact i1 e he l' op' data hd
    · rw [List.countP_cons, i2, List.countP_cons]; simp [Event.isEnd, Delivery.isEnd]
    · simpa [Event.isData, Event.dataBytes, Delivery.dataBytes] using i3

/-- **C07.** For every schedule and every listener that keeps listener and configuration: every data callback carries 1 to
`B` bytes, and `readMessage` with size 0 occurs exactly once per end of message (and so never for data). -/
theorem C07_chunk_sizes (env : Env) (ht : env.Tame) (l B : Nat) (hB : 0 < B) (h : Header) (st : St)
    (hl : st.sock.listener = some l) (hs : st.sock.config.readBufferSize = B) (o : Bool) (ho : OpenIs o st.sock.lastOpcode) :
    ∃ k ds r evs x st', listenBody env h st = (x, st') ∧ Receives o (st.inp.bytes.take k) ds r ∧
      st'.sock.trace = st.sock.trace ++ evs ∧
      (∀ e ∈ evs, ∀ l' op data, e = .readMessage l' op data → l' = l ∧ data.length ≤ B) ∧
      evs.countP Event.isEnd = ds.countP Delivery.isEnd ∧
      (evs.filter Event.isData).flatMap Event.dataBytes
        = ds.flatMap Delivery.dataBytes := by
  obtain ⟨k, ds, r, evs, x, st', e, _, _, hrec, hren, htr, _⟩ := C06_any_schedule env ht B hB h st hs o ho
  refine ⟨k, ds, r, evs, x, st', e, hrec, htr, ?_⟩
  rw [hl] at hren
  exact hren.sizes

example : ∃ k ds r evs x st', listenBody Fixture.env default (Fixture.receiving (wireOf [Fixture.hel, Fixture.ping, Fixture.lo])) = (x, st') ∧
    Receives false ((wireOf [Fixture.hel, Fixture.ping, Fixture.lo]).take k) ds r ∧ st'.sock.trace = [] ++ evs ∧
    (∀ e ∈ evs, ∀ l' op data, e = .readMessage l' op data → l' = 7 ∧ data.length ≤ 2) ∧
    evs.countP Event.isEnd = ds.countP Delivery.isEnd ∧ (evs.filter Event.isData).flatMap Event.dataBytes = ds.flatMap Delivery.dataBytes :=
  C07_chunk_sizes Fixture.env Fixture.env_quiet.tame 7 2 (by decide) default _ rfl rfl false rfl

end OatWS
