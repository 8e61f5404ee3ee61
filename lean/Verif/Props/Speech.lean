import Verif.Proofs.Speech
/-! # C71: messages in fragments between two endpoints -/

namespace OatWS.Network
open RFC6455 Async

/-- **C71** (what `told` says). Any messages, then one message in fragments with pings and pongs between them, then pings and pongs, then perhaps a close: the messages before, the pings and pongs between the
fragments, the one message with the data of all fragments, the pings and pongs after it, the close; nothing is left over. -/
theorem C71_told (before after last : List SendCall) (hb : ∀ c ∈ before, c.isMessage) (ha : ∀ c ∈ after, (∃ m, c = .ping m) ∨ ∃ m, c = .pong m) (hl : last = [] ∨ ∃ c, last = [c] ∧ c.isClose)
    (op : UInt8) (first final : Option (List UInt8)) (between : List Between) :
    told [] (before ++ .oneFrame false op first :: between.map Between.call ++ .oneFrame true 0 final :: after ++ last) =
      (before.map SendCall.msg ++ between.flatMap Between.own ++ [.other 0 (first.getD [] ++ between.flatMap Between.data ++ final.getD [])] ++ after.map SendCall.msg ++ last.map SendCall.msg, []) := by
  have whole : ∀ (cs : List SendCall) (acc : List UInt8), (∀ c ∈ cs, c.isMessage ∨ (∃ m, c = .ping m) ∨ (∃ m, c = .pong m) ∨ c.isClose) → told acc cs = (cs.map SendCall.msg, acc) := by
    intro cs acc h
    induction cs with
    | nil => rfl
    | cons c cs ih =>
      have := ih fun c hc => h c (by simp [hc])
      rcases h c (by simp) with h | ⟨m, rfl⟩ | ⟨m, rfl⟩ | h
      · cases c <;> first | exact h.elim | simp [told, this]
      · simp [told, this]
      · simp [told, this]
      · cases c <;> first | exact h.elim | simp [told, this]
  have btw : ∀ (bs : List Between) (acc : List UInt8), told acc (bs.map Between.call) = (bs.flatMap Between.own, acc ++ bs.flatMap Between.data) := by
    intro bs
    induction bs with
    | nil => intro acc; simp [told]
    | cons b bs ih =>
      intro acc
      cases b <;> simp [told, Between.call, Between.own, Between.data, SendCall.msg, ih]
  have h1 := whole before [] fun c hc => .inl (hb c hc)
  have h2 := whole after [] fun c hc => by
    rcases ha c hc with h | h
    · exact .inr (.inl h)
    · exact .inr (.inr (.inl h))
  have h3 : told [] last = (last.map SendCall.msg, []) := by
    refine whole last [] fun c hc => ?_
    rcases hl with rfl | ⟨d, rfl, hd⟩
    · cases hc
    · rw [List.mem_singleton.mp hc]; exact .inr (.inr (.inr hd))
  simp only [Threads.told_append, h1, List.cons_append, List.append_assoc]
  simp only [told, Threads.told_append, btw, h2, h3, List.nil_append]
  simp [Msg.data]

/-- **C71.** Two endpoints of any kind are connected. At one of them (the sender) sends are serialised; the calls were messages, one of them perhaps in fragments, with pings and pongs (of any thread, task or
callback) also between the fragments, ended or not by a close; any send may have failed, and nobody has called a send after that. At the other one (the receiver) one thread or task listens; reads
and writes may fail, callbacks may throw, send, and not have returned yet. At every moment its listener has heard exactly what the first calls say, and at most a beginning of the data of the
next one. -/
theorem C71_any_moment (envA envB : Env) (fuelA fuelB l B : Nat) (a0 b0 a b : Endpoint) (logA logB : List Entry)
    (hA : a0.App envA fuelA) (hB : b0.Listening envB fuelB l B) (hf : b0.Enough fuelB) (h : Linked envA envB a0 b0 logA logB a b)
    (hser : Serialised logA) (hres : Resigned logA) (cs last : List SendCall) (hc : callsOf logA = cs ++ last) (ht : Speech cs last) :
    ∃ evs n part, b.st.sock.trace = b0.st.sock.trace ++ evs ∧ HeardUpTo (callsOf logA) l n part evs := by
  obtain ⟨F, hF, hpre⟩ := h.fed.1.sent_some hA hser hres (by rw [hc]; exact ht.small)
  obtain ⟨got, evs, h1, h2, ds, r, evs', h3, h4, h5, h6⟩ := h.fed.2.moment hB hf
  rw [hc] at hF ⊢
  obtain ⟨n, part, hn⟩ := ht.heard_some hF (h1.trans hpre) h3 h4 h5 h6
  exact ⟨evs, n, part, h2, hn⟩

/-- **C71** (sessions). The same for the session of a threaded server. -/
theorem C71_session (envA envB : Env) (fuelA fuelB l B : Nat) (a0 a b : Endpoint) (p0 : Threads.Pool) (created destroyed : List UserOp) (logA logB : List Entry)
    (hA : a0.App envA fuelA) (hB : Threads.Session envB fuelB l B created destroyed p0) (hf : (Endpoint.threads p0).Enough fuelB) (h : Linked envA envB a0 (.threads p0) logA logB a b)
    (hser : Serialised logA) (hres : Resigned logA) (cs last : List SendCall) (hc : callsOf logA = cs ++ last) (ht : Speech cs last) :
    ∃ evs n part, b.st.sock.trace = p0.st.sock.trace ++ evs ∧ HeardUpTo (callsOf logA) l n part evs := by
  obtain ⟨F, hF, hpre⟩ := h.fed.1.sent_some hA hser hres (by rw [hc]; exact ht.small)
  obtain ⟨q, e, hq⟩ := h.fed.2.threads
  subst e
  obtain ⟨got, evs, h1, h2, ds, r, evs', h3, h4, h5, h6⟩ := hq.session_moment hB fun t ht => (hB.app t ht).live _ _ hf.1 hf.2
  rw [hc] at hF ⊢
  obtain ⟨n, part, hn⟩ := ht.heard_some hF (h1.trans hpre) h3 h4 h5 h6
  exact ⟨evs, n, part, h2, hn⟩

/-- **C71** (everything is heard). When no thread or task of either endpoint can make a step any more, the connection still working, no send has failed and nothing but a close has ended listening, then
everything has been heard: exactly what the calls say; and listening has ended exactly if the last call was a close. -/
theorem C71_all_heard (envA envB : Env) (fuelA fuelB l B : Nat) (a0 b0 a b : Endpoint) (logA logB : List Entry)
    (hA : a0.App envA fuelA) (hB : b0.Listening envB fuelB l B) (hfA : a0.Enough fuelA) (hfB : b0.Enough fuelB) (h : Linked envA envB a0 b0 logA logB a b)
    (hser : Serialised logA) (hok : ∀ e ∈ logA, e.failed = false) (cs last : List SendCall) (hc : callsOf logA = cs ++ last) (ht : Speech cs last)
    (hrA : a.AtRest envA) (hrB : b.AtRest envB) (hdA : a.Defined) (hwA : a.Writable) (hwB : b.Writable) (hrdB : b.Readable) (hn : Endpoint.Unbroken envB b0 b) :
    ∃ evs, b.st.sock.trace = b0.st.sock.trace ++ evs ∧ HeardWhole (callsOf logA) l evs ∧ ((b.Waits ∧ last = []) ∨ (b.Ended envB ∧ last ≠ [])) := by
  have hns := h.fed.1.not_sending hA hfA hrA hdA hwA
  obtain ⟨F, hF, hpre, hall⟩ := h.fed.1.sent hA hser hok (by rw [hc]; exact ht.small)
  rw [hc] at hF ⊢
  rcases h.fed.2.listening hB hfB hrB hn hwB hrdB with ⟨h1, h2⟩ | ⟨h1, h2⟩
  · obtain ⟨got, ds, r, evs, g1, g2, g3, g4, g5, g6, g7⟩ := h.fed.2.heard hB (.inl h1)
    obtain ⟨k1, k2, k3⟩ := ht.heard hF hpre g1 g3 g5 g4
    refine ⟨evs, g2, k1 (hall hns) h2, .inl ⟨h1, ?_⟩⟩
    rcases Classical.em (last = []) with hl | hl
    · exact hl
    · exact absurd (g7 h1) (k3 (hall hns) h2 hl)
  · obtain ⟨got, ds, r, evs, g1, g2, g3, g4, g5, g6, g7⟩ := h.fed.2.heard hB (.inr h1)
    obtain ⟨k1, k2, k3⟩ := ht.heard hF hpre g1 g3 g5 g4
    have := k2 (g6 h1 h2).1 (g6 h1 h2).2
    exact ⟨evs, g2, this.1, .inr ⟨h1, this.2⟩⟩

/-- **C71** (everything is heard, sessions). The same for the session of a threaded server. -/
theorem C71_session_all_heard (envA envB : Env) (fuelA fuelB l B : Nat) (a0 a b : Endpoint) (p0 : Threads.Pool) (created destroyed : List UserOp) (logA logB : List Entry)
    (hA : a0.App envA fuelA) (hB : Threads.Session envB fuelB l B created destroyed p0) (hcc : ∀ op ∈ created, op.calm) (hcd : ∀ op ∈ destroyed, op.calm)
    (hfA : a0.Enough fuelA) (hfB : (Endpoint.threads p0).Enough fuelB) (h : Linked envA envB a0 (.threads p0) logA logB a b)
    (hser : Serialised logA) (hok : ∀ e ∈ logA, e.failed = false) (cs last : List SendCall) (hc : callsOf logA = cs ++ last) (ht : Speech cs last)
    (hrA : a.AtRest envA) (hrB : b.AtRest envB) (hdA : a.Defined) (hwA : a.Writable) (hwB : b.Writable) (hrdB : b.Readable) (hn : Endpoint.Unbroken envB (.threads p0) b) :
    ∃ evs, b.st.sock.trace = p0.st.sock.trace ++ evs ∧ HeardWhole (callsOf logA) l evs ∧ ((b.Waits ∧ last = []) ∨ (b.Ended envB ∧ last ≠ [])) := by
  have hns := h.fed.1.not_sending hA hfA hrA hdA hwA
  obtain ⟨F, hF, hpre, hall⟩ := h.fed.1.sent hA hser hok (by rw [hc]; exact ht.small)
  rw [hc] at hF ⊢
  rcases h.fed.2.session_rest hB hfB hcc hcd hrB hn hwB hrdB with ⟨h1, h2⟩ | ⟨h1, h2⟩
  · obtain ⟨got, ds, r, evs, g1, g2, g3, g4, g5, g6, g7⟩ := h.fed.2.session hB (.inl h1)
    obtain ⟨k1, k2, k3⟩ := ht.heard hF hpre g1 g3 g5 g4
    refine ⟨evs, g2, k1 (hall hns) h2, .inl ⟨h1, ?_⟩⟩
    rcases Classical.em (last = []) with hl | hl
    · exact hl
    · exact absurd (g7 h1) (k3 (hall hns) h2 hl)
  · obtain ⟨got, ds, r, evs, g1, g2, g3, g4, g5, g6, g7⟩ := h.fed.2.session hB (.inr h1)
    obtain ⟨k1, k2, k3⟩ := ht.heard hF hpre g1 g3 g5 g4
    have := k2 (g6 h1 h2).1 (g6 h1 h2).2
    exact ⟨evs, g2, this.1, .inr ⟨h1, this.2⟩⟩

/-! ## Examples -/

/-- A client that sends a text, a binary message in three fragments and a close; its listener answers pings. -/
def exAuthor : Endpoint := .threads
  ⟨[Threads.listenT exPolite 100 default,
    Threads.userOpsT exPolite 100 [.send (.text (some [7, 8])) true, .send (.oneFrame false 2 (some [1, 2])) true, .send (.oneFrame false 0 (some [3])) true,
      .send (.oneFrame true 0 (some [4, 5])) true, .send (.close 1000 (some [])) true]],
    { sock := { Sock.new { maskOutgoingMessages := true, readBufferSize := 2 } ⟨[], Fixture.slow 49⟩ with listener := some 1 }, inp := ⟨[], Fixture.slow 12⟩ }⟩

/-- `onAfterCreate` installs a listener and sends a ping. -/
def exGreets : List UserOp := [.setListener (some 7), .setConfig { readBufferSize := 2 }, .send (.ping (some [0x21])) true]

def exReader : Threads.Pool := Threads.newSession Fixture.env 100 exGreets default exDestroyed [] ⟨[], Fixture.slow 49⟩ ⟨[], Fixture.slow 20⟩

/-- The pong goes out between two fragments. -/
def exBook := run exPolite Fixture.env (List.replicate 2 (false, 0) ++ List.replicate 40 (false, 1) ++ List.replicate 80 (true, 0) ++ List.replicate 40 (false, 0) ++ List.replicate 150 (false, 1) ++
  List.replicate 250 (true, 0) ++ List.replicate 100 (false, 0)) [] [] exAuthor (.threads exReader)

theorem exBook_author : (restView exPolite exBook.1 exBook.2.2.1, resignedNow exBook.1) =
    (⟨⟨true, true, [.text (some [7, 8]), .oneFrame false 2 (some [1, 2]), .pong (some [0x21]), .oneFrame false 0 (some [3]), .oneFrame true 0 (some [4, 5]), .close 1000 (some [])],
      [.completed], [.completed, .completed, .completed, .completed, .completed], [.onPing 1 [0x21], .onClose 1 0 []], [], false⟩, true, true, true, true⟩, true) := by decide +kernel

theorem exBook_reader : restView Fixture.env exBook.2.1 exBook.2.2.2 =
    ⟨⟨true, true, [.ping (some [0x21]), .closeEmpty], [.completed, .completed], [],
      [.readMessage 7 1 [7], .readMessage 7 1 [8], .readMessage 7 1 [], .readMessage 7 2 [1], .readMessage 7 2 [2], .onPong 7 [0x21], .readMessage 7 0 [3], .readMessage 7 0 [4],
        .readMessage 7 0 [5], .readMessage 7 0 [], .onClose 7 1000 []], [], false⟩, true, true, true, true⟩ := by decide +kernel

theorem exReader_session : Threads.Session Fixture.env 100 7 2 exGreets exDestroyed exReader := by
  refine Threads.newSession_session Fixture.env 100 7 2 exGreets exDestroyed default [] _ _ rfl rfl (by decide) (fun op h => ?_) (fun tr op h => (by cases h)) (fun _ h => (by cases h))
  rw [List.mem_singleton.mp h]; trivial

theorem exAuthor_app : exAuthor.App exPolite 100 := by
  intro t ht
  simp only [exAuthor, List.mem_cons, List.not_mem_nil, or_false] at ht
  rcases ht with rfl | rfl
  · exact .listen _
  · exact .code _

theorem exBook_speech : Speech [.text (some [7, 8]), .oneFrame false 2 (some [1, 2]), .pong (some [0x21]), .oneFrame false 0 (some [3]), .oneFrame true 0 (some [4, 5])]
    [.close 1000 (some [])] := by
  refine ⟨⟨rfl, .inr ⟨.inr rfl, rfl⟩, (by decide : 1 ≤ 125), .inl ⟨rfl, rfl⟩, .inl ⟨rfl, rfl⟩, trivial⟩, .inr ⟨_, rfl, Nat.zero_le _⟩, ?_⟩
  intro c hc
  simp only [List.cons_append, List.nil_append, List.mem_cons, List.not_mem_nil, or_false] at hc
  rcases hc with rfl | rfl | rfl | rfl | rfl | rfl <;> exact Nat.lt_of_le_of_lt (by decide : _ ≤ 4) (by decide)

/-- The pong goes out between two fragments; the listener of the session hears the text, the pong, the binary message in one piece, and the close; the session is over. -/
example : ∃ a b logA logB, Linked exPolite Fixture.env exAuthor (.threads exReader) logA logB a b ∧ a.AtRest exPolite ∧ b.AtRest Fixture.env ∧
    callsOf logA = [.text (some [7, 8]), .oneFrame false 2 (some [1, 2]), .pong (some [0x21]), .oneFrame false 0 (some [3]), .oneFrame true 0 (some [4, 5]), .close 1000 (some [])] ∧
    HeardWhole (callsOf logA) 7 b.st.sock.trace ∧ b.Ended Fixture.env ∧ (∃ n part, HeardUpTo (callsOf logA) 7 n part b.st.sock.trace) ∧
    reassemble [] b.st.sock.trace = ([.text [7, 8], .pong [0x21], .other 0 [1, 2, 3, 4, 5], .close 1000 []], []) := by
  have hl : Linked exPolite Fixture.env exAuthor (.threads exReader) exBook.1 exBook.2.1 exBook.2.2.1 exBook.2.2.2 := by
    unfold exBook
    exact run_linked _ .refl
  have hA := exBook_author
  have hB := exBook_reader
  generalize exBook.1 = logA, exBook.2.1 = logB, exBook.2.2.1 = a, exBook.2.2.2 = b at hl hA hB
  injection hA with hA hr
  injection hA with hA ar ad aw al
  injection hA with a1 a2 a3 a4 a5 a6 a7 a8
  injection hB with hB br bd bw bl
  injection hB with b1 b2 b3 b4 b5 b6 b7 b8
  have ok : ∀ e ∈ logA, e.failed = false := by
    intro e hm
    have := List.all_eq_true.mp a2 e hm
    simp at this
    exact this.1
  have uB : Endpoint.Unbroken Fixture.env (.threads exReader) b := by
    obtain ⟨q, e, _⟩ := Fed.threads hl.fed.2
    subst e
    exact ⟨fun _ _ h => (by cases h), bl, by decide⟩
  have cc : ∀ op ∈ exGreets, op.calm := by
    intro op h
    simp only [exGreets, List.mem_cons, List.not_mem_nil, or_false] at h
    rcases h with rfl | rfl | rfl
    · trivial
    · trivial
    · exact ⟨rfl, by decide⟩
  have cd : ∀ op ∈ exDestroyed, op.calm := by
    intro op h
    rw [List.mem_singleton.mp h]
    exact ⟨rfl, by decide⟩
  have fA : exAuthor.Enough 100 := ⟨by decide, by decide⟩
  have fB : (Endpoint.threads exReader).Enough 100 := ⟨by decide, by decide⟩
  obtain ⟨evs, g1, g2, g3⟩ := C71_session_all_heard exPolite Fixture.env 100 100 7 2 exAuthor a b exReader exGreets exDestroyed logA logB exAuthor_app exReader_session cc cd fA fB hl
    (serialCheck_sound a1) ok _ _ a3 exBook_speech (restNow_sound ar) (restNow_sound br) (definedNow_sound ad) (worksNow_sound aw).1 (worksNow_sound bw).1 (worksNow_sound bw).2 uB
  obtain ⟨evs', n, part, k1, k2⟩ := C71_session exPolite Fixture.env 100 100 7 2 exAuthor a b exReader exGreets exDestroyed logA logB exAuthor_app exReader_session fB hl
    (serialCheck_sound a1) (resignedNow_sound hr) _ _ a3 exBook_speech
  have g1 : b.st.sock.trace = evs := g1
  have k1 : b.st.sock.trace = evs' := k1
  subst g1 k1
  refine ⟨a, b, logA, logB, hl, restNow_sound ar, restNow_sound br, a3, g2, ?_, ⟨n, part, k2⟩, ?_⟩
  · rcases g3 with ⟨_, h⟩ | ⟨h, _⟩
    · cases h
    · exact h
  · rw [g2.heard, a3]; rfl

/-- A client that sends a text message in two fragments with a ping between them, and the asynchronous server of `exEnd`. -/
def exParts : Endpoint := .threads
  ⟨[Threads.userOpsT Fixture.env 100 [.send (.oneFrame false 1 (some [7, 8])) true, .send (.ping (some [0x21])) true, .send (.oneFrame true 0 (some [9])) true]],
    { sock := Sock.new { maskOutgoingMessages := true } ⟨[], Fixture.slow 40⟩, inp := ⟨[], [.retry]⟩ }⟩

def exPartsRun := run Fixture.env Async.exEnv (List.replicate 20 (true, 1) ++ List.replicate 200 (false, 0) ++ List.replicate 250 (true, 0) ++ List.replicate 50 (true, 1)) [] [] exParts exServer

theorem exParts_client : (restView Fixture.env exPartsRun.1 exPartsRun.2.2.1, resignedNow exPartsRun.1) =
    (⟨⟨true, true, [.oneFrame false 1 (some [7, 8]), .ping (some [0x21]), .oneFrame true 0 (some [9])], [.completed, .completed, .completed], [], [],
      [130, 3, 1, 2, 3, 138, 1, 33], false⟩, true, true, true, false⟩, true) := by decide +kernel

theorem exParts_server : restView Async.exEnv exPartsRun.2.1 exPartsRun.2.2.2 =
    ⟨⟨true, true, [.binary (some [1, 2, 3]), .pong (some [0x21])], [.completed], [.completed],
      [.readMessage 7 1 [7], .readMessage 7 1 [8], .onPing 7 [0x21], .readMessage 7 0 [9], .readMessage 7 0 []], [], true⟩, true, true, true, false⟩ := by decide +kernel

theorem exParts_speech : Speech [.oneFrame false 1 (some [7, 8]), .ping (some [0x21]), .oneFrame true 0 (some [9])] [] := by
  refine ⟨⟨.inr ⟨.inl rfl, rfl⟩, (by decide : 1 ≤ 125), .inl ⟨rfl, rfl⟩, trivial⟩, .inl rfl, ?_⟩
  intro c hc
  simp only [List.append_nil, List.mem_cons, List.not_mem_nil, or_false] at hc
  rcases hc with rfl | rfl | rfl <;> exact Nat.lt_of_le_of_lt (by decide : _ ≤ 4) (by decide)

example : ∃ a b logA logB, Linked Fixture.env Async.exEnv exParts exServer logA logB a b ∧ a.AtRest Fixture.env ∧ b.AtRest Async.exEnv ∧
    callsOf logA = [.oneFrame false 1 (some [7, 8]), .ping (some [0x21]), .oneFrame true 0 (some [9])] ∧
    HeardWhole (callsOf logA) 7 b.st.sock.trace ∧ b.Waits ∧ (∃ n part, HeardUpTo (callsOf logA) 7 n part b.st.sock.trace) ∧
    reassemble [] b.st.sock.trace = ([.ping [0x21], .other 0 [7, 8, 9]], []) := by
  have hl : Linked Fixture.env Async.exEnv exParts exServer exPartsRun.1 exPartsRun.2.1 exPartsRun.2.2.1 exPartsRun.2.2.2 := by
    unfold exPartsRun
    exact run_linked _ .refl
  have hA := exParts_client
  have hB := exParts_server
  generalize exPartsRun.1 = logA, exPartsRun.2.1 = logB, exPartsRun.2.2.1 = a, exPartsRun.2.2.2 = b at hl hA hB
  injection hA with hA hr
  injection hA with hA ar ad aw al
  injection hA with a1 a2 a3 a4 a5 a6 a7 a8
  injection hB with hB br bd bw bl
  injection hB with b1 b2 b3 b4 b5 b6 b7 b8
  have ok : ∀ e ∈ logA, e.failed = false := by
    intro e hm
    have := List.all_eq_true.mp a2 e hm
    simp at this
    exact this.1
  have app : exParts.App Fixture.env 100 := by
    intro t ht
    simp only [exParts, List.mem_singleton] at ht
    subst ht
    exact .code _
  have uB : Endpoint.Unbroken Async.exEnv exServer b := by
    obtain ⟨q, e, _⟩ := Fed.tasks hl.fed.2
    subst e
    obtain ⟨t, h1, _⟩ := Endpoint.waitsNow_waits b8
    exact .inl ⟨t, h1⟩
  have fA : exParts.Enough 100 := ⟨by decide, by decide⟩
  have fB : exServer.Enough 40 := by
    intro o ho
    simp only [exServer, List.mem_cons, List.not_mem_nil, or_false] at ho
    rcases ho with rfl | rfl <;> exact fun h => (by cases h)
  obtain ⟨evs, g1, g2, g3⟩ := C71_all_heard Fixture.env Async.exEnv 100 40 7 2 exParts exServer a b logA logB app exServer_listening fA fB hl
    (serialCheck_sound a1) ok _ _ (a3.trans (List.append_nil _).symm) exParts_speech (restNow_sound ar) (restNow_sound br) (definedNow_sound ad) (worksNow_sound aw).1 (worksNow_sound bw).1 (worksNow_sound bw).2 uB
  obtain ⟨evs', n, part, k1, k2⟩ := C71_any_moment Fixture.env Async.exEnv 100 40 7 2 exParts exServer a b logA logB app exServer_listening fB hl
    (serialCheck_sound a1) (resignedNow_sound hr) _ _ (a3.trans (List.append_nil _).symm) exParts_speech
  have g1 : b.st.sock.trace = evs := g1
  have k1 : b.st.sock.trace = evs' := k1
  subst g1 k1
  exact ⟨a, b, logA, logB, hl, restNow_sound ar, restNow_sound br, a3, g2, Endpoint.waitsNow_waits b8, ⟨n, part, k2⟩, by rw [g2.heard, a3]; rfl⟩

end OatWS.Network
