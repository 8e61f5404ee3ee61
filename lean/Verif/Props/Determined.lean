import Verif.Spec.Determined
import Verif.Props.Receive
import Verif.Props.AsyncPool
import Verif.Props.ThreadListen
import Verif.Props.EndToEnd
/-! # C77: what is heard is determined by the bytes -/

namespace OatWS
open RFC6455

/-- What the usual listener makes of deliveries. -/
def sumUp : List UInt8 → List Delivery → List Msg × List UInt8
  | acc, [] => ([], acc)
  | acc, .data _ d :: r => sumUp (acc ++ d) r
  | acc, .endOfMessage op :: r => (.data (UInt8.ofNat op) acc :: (sumUp [] r).1, (sumUp [] r).2)
  | acc, .ping p :: r => (.ping p :: (sumUp acc r).1, (sumUp acc r).2)
  | acc, .pong p :: r => (.pong p :: (sumUp acc r).1, (sumUp acc r).2)
  | acc, .close c p :: r => (.close (UInt16.ofNat c) p :: (sumUp acc r).1, (sumUp acc r).2)

theorem reassemble_chunks (l : Nat) (op : UInt8) (chunks : List (List UInt8)) (h : ∀ c ∈ chunks, 0 < c.length) (acc : List UInt8) (r : List Event) :
    reassemble acc (chunks.map (Event.readMessage l op) ++ r) = reassemble (acc ++ chunks.flatten) r := by
  induction chunks generalizing acc with
  | nil => simp
  | cons c cs ih =>
    have hc := h c (by simp)
    cases c with
    | nil => simp at hc
    | cons b bs =>
      simp only [List.map_cons, List.cons_append, reassemble, List.flatten_cons]
      rw [ih (fun c hm => h c (by simp [hm]))]
      simp

theorem Renders.sumUp {l B evs ds} (h : Renders l B evs ds) (acc : List UInt8) : reassemble acc evs = OatWS.sumUp acc ds := by
  induction h generalizing acc with
  | nil => rfl
  | data hc _ ih => rw [reassemble_chunks l _ _ (fun c hm => (hc c hm).1), ih]; rfl
  | endOfMessage _ ih => simp [reassemble, OatWS.sumUp, ih]
  | ping _ ih => simp [reassemble, OatWS.sumUp, ih]
  | pong _ ih => simp [reassemble, OatWS.sumUp, ih]
  | close _ ih => simp [reassemble, OatWS.sumUp, ih]

/-- The way a receiver of all of `bytes` goes. -/
structure Course (o : Bool) (bytes : List UInt8) (k : Nat) (ds : List Delivery) (r : Reason) : Prop where
  le : k ≤ bytes.length
  receives : Receives o (bytes.take k) ds r
  ofBytes : r.ofBytes
  all : r = .incomplete → k = bytes.length

theorem Course.det {o bytes k ds r k' ds' r'} (h : Course o bytes k ds r) (h' : Course o bytes k' ds' r') : k = k' ∧ ds = ds' ∧ r = r' := by
  obtain ⟨g1, g2, g3⟩ := Receives.det h.receives (List.take_prefix _ _) h.ofBytes (fun e => by rw [h.all e, List.take_length])
    h'.receives (List.take_prefix _ _) h'.ofBytes (fun e => by rw [h'.all e, List.take_length])
  refine ⟨?_, g2, g3⟩
  have := congrArg List.length g1
  rwa [List.length_take, List.length_take, Nat.min_eq_left h.le, Nat.min_eq_left h'.le] at this

theorem Course.ofSplit {o bytes c left ds r} (hb : bytes = c ++ left) (hr : Receives o c ds r) (ho : r.ofBytes) (hi : r = .incomplete → left = []) :
    Course o bytes c.length ds r := by
  refine ⟨by rw [hb, List.length_append]; omega, ?_, ho, fun e => ?_⟩
  · rw [hb, List.take_left]; exact hr
  · rw [hb, hi e, List.append_nil]

/-- The way of `listen` alone. -/
theorem HeardAlone.course {o bytes l B evs left} (hB : 0 < B) (h : HeardAlone o bytes l B evs left) :
    ∃ k ds r, Course o bytes k ds r ∧ Renders l B evs ds ∧ left = bytes.drop k := by
  obtain ⟨env, hd, st, st', ht, hp, hl, hs, ho, hh, hb, e, htr, hleft⟩ := h.run
  obtain ⟨k, ds, r, evs', x, st'', e1, e2, hr, hk, hbytes, hrec, hren, htr', _, _, hinc⟩ :=
    listenBody_frames env ht hp B hB hd st hs o o ho hh [] bytes (by rw [hb]; rfl) .nil
  rw [hl] at hren
  rw [e] at e2
  injection e2 with _ e2
  subst e2
  rw [htr] at htr'
  have := List.append_cancel_left htr'
  subst this
  exact ⟨k, ds, r, ⟨hk, hrec, hr, hinc⟩, hren, by rw [← hleft, hbytes]⟩

/-- The way of `listenAsync` among tasks. -/
theorem HeardAmongTasks.course {o bytes l B evs left out} (hB : 0 < B) (h : HeardAmongTasks o bytes l B evs left out) :
    ∃ k ds r, Course o bytes k ds r ∧ Renders l B evs ds ∧ left = bytes.drop k ∧ (out = .finished ↔ r = .closed) ∧ (∀ e, out = .failed e → Async.FailsLike r e) ∧
      (out = .finished ∨ ∃ e, e.refusal ∧ out = .failed (.thrown e)) := by
  obtain ⟨env, hd, w, others, p, hS, hl, hs, ho, hb, hoth, hst, hout, hend, htr, hleft⟩ := h.run
  obtain ⟨c, ds, r, evs', e1, hrec, e3, hren, hfin, hfail⟩ := Async.C47_only_senders env l B (by omega) hS hd w o ho hl hs others hoth p hst out hout
    (hend.imp id (fun ⟨e, _, he⟩ => ⟨_, he⟩))
  rw [htr] at e3
  have := List.append_cancel_left e3
  subst this
  rw [hb, hleft] at e1
  have hr : r.ofBytes ∧ r ≠ .incomplete := by
    rcases hend with rfl | ⟨e, he, rfl⟩
    · rw [hfin.mp rfl]; exact ⟨trivial, nofun⟩
    · have hf := hfail _ rfl
      cases r <;> simp [Async.FailsLike] at hf <;> first | (subst hf; exact he.elim) | exact ⟨trivial, fun h => by cases h⟩
  refine ⟨_, ds, r, Course.ofSplit e1 hrec hr.1 (fun e => absurd e hr.2), by simpa using hren, ?_, hfin, hfail, hend⟩
  rw [e1, List.drop_left]

/-- The way of `listen` among threads. -/
theorem HeardAmongThreads.course {o bytes l B evs left} (hB : 0 < B) (h : HeardAmongThreads o bytes l B evs left) :
    ∃ k ds r, Course o bytes k ds r ∧ Renders l B evs ds ∧ left = bytes.drop k := by
  obtain ⟨C, env, fuel, hd, st, others, p, hl, hs, henv, hin, hfine, hcalm, hb, hoth, hst, hend, hon, htr, hleft⟩ := h.run
  obtain ⟨whole, part, fe, hh, hsh⟩ := Threads.C59_reception C env o fuel hd st others p henv (by omega) hin hoth hst _ hend (.ret ()) rfl
  obtain ⟨ds, o1, ds', evs', h1, h2, h3, h4⟩ := hh.told
  rw [hl, hs] at h4
  have h4 := h4.renders
  rw [htr] at h3
  have := List.append_cancel_left h3
  subst this
  obtain ⟨r, hfe, hr, hinc⟩ : ∃ r, fe = .over r ∧ r.ofBytes ∧ (r = .incomplete → p.st.inp.bytes = []) := by
    cases fe with
    | next o2 => have := hsh.2; rw [hon] at this; cases this
    | over r =>
      refine ⟨r, rfl, ?_⟩
      cases r with
      | stopped => exact hsh.elim
      | interrupted =>
        rcases hsh with h | ⟨h, _⟩
        · cases h
        · exact absurd hcalm h
      | incomplete =>
        rcases hsh with h | ⟨_, h⟩
        · cases h
        · exact ⟨trivial, fun _ => h hfine⟩
      | _ => exact ⟨trivial, fun h => (by cases h)⟩
  subst hfe
  have e1 := hh.bytes
  rw [hb, hleft] at e1
  rw [hleft] at hinc
  refine ⟨_, _, r, Course.ofSplit e1 (h1.receives (.last h2)) hr hinc, h4, ?_⟩
  rw [e1, List.drop_left]

theorem HeardBy.course {o bytes l B evs left} (hB : 0 < B) (h : HeardBy o bytes l B evs left) :
    ∃ k ds r, Course o bytes k ds r ∧ Renders l B evs ds ∧ left = bytes.drop k := by
  rcases h with h | ⟨out, h⟩ | h
  · exact h.course hB
  · obtain ⟨k, ds, r, h1, h2, h3, _⟩ := h.course hB
    exact ⟨k, ds, r, h1, h2, h3⟩
  · exact h.course hB

/-- There is always one. -/
theorem course_exists (o : Bool) (bytes : List UInt8) : ∃ k ds r, Course o bytes k ds r := by
  obtain ⟨k, ds, r, evs, x, st', e1, e2, hr, hk, hbytes, hrec, hren, htr, _, _, hinc⟩ :=
    listenBody_frames quietEnv (fun _ _ h => nomatch h) (fun _ s => ⟨s, rfl, rfl⟩) 1 (by decide) default
      { sock := { Sock.new { readBufferSize := 1 } ⟨[], []⟩ with listener := some 0, lastOpcode := if o then 1 else -1 }
        inp := ⟨bytes, List.replicate (bytes.length + 1) (.upTo 0)⟩ } rfl o o (by cases o <;> simp [OpenIs]) (healthy_replicate _) [] bytes rfl .nil
  exact ⟨k, ds, r, hk, hrec, hr, hinc⟩

/-- **C77.** For any bytes there is one list of deliveries `ds`, one number `k` of bytes and one outcome `r` such that every receiver of these bytes, of the blocking or of
the asynchronous API, alone or among other threads or tasks that send, whatever they do and in whatever order, whatever the size of the read buffer and however the bytes
arrive, is told `ds` and leaves what follows the first `k` bytes. -/
theorem C77_determined_by_the_bytes (o : Bool) (bytes : List UInt8) :
    ∃ k ds r, k ≤ bytes.length ∧ Receives o (bytes.take k) ds r ∧
      ∀ (l B : Nat) (evs : List Event) (left : List UInt8), 0 < B → HeardBy o bytes l B evs left → Renders l B evs ds ∧ left = bytes.drop k := by
  obtain ⟨k, ds, r, hc⟩ := course_exists o bytes
  refine ⟨k, ds, r, hc.le, hc.receives, fun l B evs left hB h => ?_⟩
  obtain ⟨k', ds', r', hc', h1, h2⟩ := h.course hB
  obtain ⟨rfl, rfl, _⟩ := hc.det hc'
  exact ⟨h1, h2⟩

/-- **C77** (the messages). Any two receivers of the same bytes have heard the same messages (and the same data of an unfinished one), in the same order, and leave the same bytes
unread. -/
theorem C77_same_messages (o : Bool) (bytes : List UInt8) (l B l' B' : Nat) (evs evs' : List Event) (left left' : List UInt8) (hB : 0 < B) (hB' : 0 < B')
    (h : HeardBy o bytes l B evs left) (h' : HeardBy o bytes l' B' evs' left') : reassemble [] evs = reassemble [] evs' ∧ left = left' := by
  obtain ⟨k, ds, r, _, _, hall⟩ := C77_determined_by_the_bytes o bytes
  obtain ⟨h1, h2⟩ := hall _ _ _ _ hB h
  obtain ⟨h3, h4⟩ := hall _ _ _ _ hB' h'
  exact ⟨by rw [h1.sumUp, h3.sumUp], by rw [h2, h4]⟩

/-- **C77** (the outcome). Any two `listenAsync` that were sent the same bytes and have ended have ended the same way: both normally, or both with the same error. -/
theorem C77_same_outcome (o : Bool) (bytes : List UInt8) (l B l' B' : Nat) (evs evs' : List Event) (left left' : List UInt8) (out out' : Async.Outcome) (hB : 0 < B) (hB' : 0 < B')
    (h : HeardAmongTasks o bytes l B evs left out) (h' : HeardAmongTasks o bytes l' B' evs' left' out') : out = out' := by
  obtain ⟨k, ds, r, h1, _, _, h4, h5, h6⟩ := h.course hB
  obtain ⟨k', ds', r', h1', _, _, h4', h5', h6'⟩ := h'.course hB'
  obtain ⟨_, _, rfl⟩ := h1.det h1'
  rcases h6 with rfl | ⟨e, he, rfl⟩
  · exact (h4'.mpr (h4.mp rfl)).symm
  · rcases h6' with rfl | ⟨e', he', rfl⟩
    · exact absurd (h4.mpr (h4'.mp rfl)) (fun h => by cases h)
    · have f := h5 _ rfl
      have f' := h5' _ rfl
      cases r <;> simp only [Async.FailsLike] at f f' <;> first | (rw [f, f']) | exact f.elim | skip
      · rcases f with f | f
        · cases f
        · injection f with f; subst f; exact he.elim
      · rcases f with f | f
        · cases f
        · injection f with f; subst f; exact he.elim

/-! ## A case: the same bytes received in three ways -/

/-- A text message in two fragments, a ping in between, a frame with an unknown opcode, and more. -/
def exBytes : List UInt8 := wireOf [Fixture.hel, Fixture.ping, Fixture.lo] ++ [0x83, 0x00, 0x55]

/-- What was heard of it with read buffers of two bytes. -/
def exHeardOf (l : Nat) : List Event := [.readMessage l 1 [0x48], .readMessage l 1 [0x65], .readMessage l 1 [0x6c], .onPing l [0x21],
     .readMessage l 0 [0x6c], .readMessage l 0 [0x6f], .readMessage l 0 []]

theorem exAloneTrace : (listen Fixture.env default (Fixture.receiving exBytes)).2.sock.trace = exHeardOf 7 := by decide +kernel

theorem exAloneLeft : (listen Fixture.env default (Fixture.receiving exBytes)).2.inp.bytes = [0x55] := by decide +kernel

/-- `listen`. -/
theorem exAlone : HeardAlone false exBytes 7 2 (exHeardOf 7) [0x55] := by
  have hU : Undisturbed Fixture.env (Fixture.receiving exBytes) 7 2 false := Fixture.undisturbed _ (by decide +kernel)
  obtain ⟨k, ds, r, _, _, hall⟩ := C06_independent_of_chunking false exBytes
  obtain ⟨evs, st', e, _, _, _⟩ := hall Fixture.env default (Fixture.receiving exBytes) 7 2 hU rfl
  have h1 := exAloneTrace
  have h2 := exAloneLeft
  rw [e] at h1 h2
  exact ⟨Fixture.env, default, Fixture.receiving exBytes, st', hU.tame, hU.passive, rfl, rfl, rfl, hU.healthy, rfl, e, h1, h2⟩

/-- `listenAsync`, with another task that sends, and a listener that answers the ping; the bytes arrive four at a time. -/
def exTaskPool : Async.Pool :=
  ⟨.run (Async.listenTask default) :: Async.exOthers, { st := { sock := { Sock.new { readBufferSize := 3 } ⟨[], Fixture.slow 30⟩ with listener := some 4 }, inp := ⟨exBytes, List.replicate 30 (.upTo 3)⟩ } }⟩

theorem exTaskRun : (Async.Pool.exec Async.exEnv ([0, 1, 1, 0, 1, 1, 1, 1, 1, 0, 1, 0, 1, 1, 1, 1, 1] ++ List.replicate 51 0) exTaskPool).map (fun p => (p.tasks[0]?, p.world.st.sock.trace, p.world.st.inp.bytes)) =
    some (some (.failed (.thrown .unknownFrame)), [.readMessage 4 1 [0x48, 0x65, 0x6c], .onPing 4 [0x21], .readMessage 4 0 [0x6c, 0x6f], .readMessage 4 0 []], [0x55]) := by
  decide +kernel

theorem exAmongTasks : HeardAmongTasks false exBytes 4 3 [.readMessage 4 1 [0x48, 0x65, 0x6c], .onPing 4 [0x21], .readMessage 4 0 [0x6c, 0x6f], .readMessage 4 0 []] [0x55]
    (.failed (.thrown .unknownFrame)) := by
  have h := exTaskRun
  rcases hp : Async.Pool.exec Async.exEnv ([0, 1, 1, 0, 1, 1, 1, 1, 1, 0, 1, 0, 1, 1, 1, 1, 1] ++ List.replicate 51 0) exTaskPool with _ | p
  · rw [hp] at h; cases h
  · rw [hp] at h
    injection h with h
    injection h with h1 h; injection h with h2 h3
    refine ⟨Async.exEnv, default, exTaskPool.world, Async.exOthers, p, ?_, rfl, rfl, rfl, rfl, ?_, Async.Pool.exec_steps hp, h1, .inr ⟨.unknownFrame, trivial, rfl⟩, h2, h3⟩
    · intro tr op hop
      simp only [Async.exEnv] at hop
      split at hop
      · rw [List.mem_singleton] at hop; subst hop; trivial
      · cases hop
    · intro t ht
      rw [Async.exOthers, List.mem_singleton] at ht
      subst ht
      intro c hc
      rw [Async.userTask, List.mem_singleton] at hc
      subst hc
      refine ⟨trivial, ?_⟩
      intro u hu op hop
      injection hu with hu
      subst hu
      rw [List.mem_singleton] at hop
      subst hop
      trivial

/-- `listen` in a thread while another one sends. -/
def exThreadPool : Threads.Pool := ⟨[Threads.listenT Fixture.env 60 default, Threads.userOpsT Fixture.env 60 [.send (.text (some [7, 8])) false]],
  { sock := { Sock.new { readBufferSize := 2 } ⟨[], Fixture.slow 30⟩ with listener := some 9 }
    inp := ⟨exBytes, Fixture.slow 60⟩ }⟩

theorem exThreadRun : Threads.viewOf (Threads.Pool.execLog Fixture.env ([0, 0, 0] ++ List.replicate 6 1 ++ List.replicate 85 0) exThreadPool) =
    some ⟨[0x55], exHeardOf 9, [0x81, 2], true, 0⟩ := by
  decide +kernel

theorem exAmongThreads : HeardAmongThreads false exBytes 9 2 (exHeardOf 9) [0x55] := by
  obtain ⟨log, p, e, h1, h2, h3, h4, h5⟩ := Threads.viewOf_some exThreadRun
  refine ⟨⟨(· = 9), 2, fun o => o.fine = true⟩, Fixture.env, 60, default, exThreadPool.st, _, p, rfl, rfl, fun _ _ h => (by cases h), ?_, fun _ h => h, fun _ _ h => (by cases h), rfl, ?_,
    Threads.execLog_steps_from _ _ _ _ .refl e, Threads.placeOf_ret h5, h4, h2, h1⟩
  · exact ⟨⟨9, rfl, rfl⟩, rfl, fun x hx => List.all_eq_true.mp (by decide +kernel : exThreadPool.st.inp.sched.all IoOutcome.fine = true) x hx, rfl⟩
  · intro q hq
    rw [List.mem_singleton] at hq
    subst hq
    exact .code _ (by
      intro op hop
      rw [List.mem_singleton] at hop
      subst hop; trivial)

/-- They have heard the same messages. -/
example : reassemble [] (exHeardOf 7) = reassemble [] (exHeardOf 9) ∧ (reassemble [] (exHeardOf 7)).1 = [.ping [0x21], .data 0 [0x48, 0x65, 0x6c, 0x6c, 0x6f]] :=
  ⟨(C77_same_messages false exBytes 7 2 9 2 _ _ _ _ (by decide) (by decide) (.inl exAlone) (.inr (.inr exAmongThreads))).1, by decide⟩

example : reassemble [] (exHeardOf 7) = reassemble [] [.readMessage 4 1 [0x48, 0x65, 0x6c], .onPing 4 [0x21], .readMessage 4 0 [0x6c, 0x6f], .readMessage 4 0 []] :=
  (C77_same_messages false exBytes 7 2 4 3 _ _ _ _ (by decide) (by decide) (.inl exAlone) (.inr (.inl ⟨_, exAmongTasks⟩))).1

end OatWS
