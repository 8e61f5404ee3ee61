import Verif.Proofs.SessionSays
import Verif.Props.NetworkLive
/-! # C69: a whole session on a server -/

namespace OatWS.Threads
open RFC6455 Async Prog

theorem Session.app {env : Env} {fuel l B : Nat} {created destroyed : List UserOp} {p : Pool} (h : Session env fuel l B created destroyed p) : ∀ t ∈ p.threads, AppThread env fuel t := by
  obtain ⟨hd, others, e, ho⟩ := h.threads
  rw [e]
  intro t ht
  rcases List.mem_cons.mp ht with rfl | ht
  · exact .seq (.code _) (.seq (.listen _) (.code _))
  · exact HelperCode.app (ho t ht)

/-- What the thread of a session has heard, and where it can be. -/
theorem Fed.session {env : Env} {p0 p : Pool} {log sent} (hfed : Fed env p0 log sent p) {fuel l B : Nat} {created destroyed : List UserOp}
    (hB : Session env fuel l B created destroyed p0) (q : Prog Unit) (hq : p.threads[0]? = some q) :
    ((IsAt q .reading ∨ IsAt q (.ret ()) ∧ env.Calm) →
      ∃ got ds r evs, sent = got ++ p.st.inp.bytes ∧ p.st.sock.trace = p0.st.sock.trace ++ evs ∧ Receives false got ds r ∧ Renders l B evs ds ∧ r ≠ .interrupted ∧
        ((∀ o ∈ p0.st.inp.sched, o.fine = true) → IsAt q (.ret ()) → p.st.sock.listening = true → r ≠ .incomplete ∧ r ≠ .stopped) ∧
        (IsAt q .reading → r = .incomplete)) ∧
    (env.Calm → (∀ op ∈ created, op.calm) → (∀ op ∈ destroyed, op.calm) → ∀ x, IsAt q x → x = .ret () ∨ x = .reading ∨ x = .writing) := by
  obtain ⟨used, hlog, hused⟩ := hfed.logged [0] []
  obtain ⟨hd, others, hts, hoth⟩ := hB.threads
  rw [hB.nothing, List.nil_append, List.append_nil] at hlog
  have hsteps : Pool.Steps env ⟨sessionT env fuel created hd destroyed :: others, { p0.st with inp := ⟨sent ++ [0], used⟩ }⟩
      (withInp p (p.st.inp.bytes ++ [0]) []) := by
    have := hlog.steps
    unfold withInp at this
    rw [hts] at this
    exact this
  have hrec := fun x hx => session_reception (fineRules l B p0.st) env false fuel l created hd destroyed others { p0.st with inp := ⟨sent ++ [0], used⟩ } _ (fun tr op h => fineRules_op op (hB.callbacks tr op h)) hB.size rfl
    (fineRules_sched hused) hB.noMessage hB.listener hB.bufferSize (fun op ho => fineRules_op op (hB.destroyed op ho))
    (fun q h => (hoth q h).weaken fineRules_op) hsteps q hq x hx
  exact ⟨fun hx => heard_of q hx fun x hx hx' => by
    obtain ⟨whole, part, fe, g1, g2⟩ := (hrec x hx).1
    exact ⟨whole, part, fe, g1, g2 hx'⟩, fun h1 h2 h3 x hx => (hrec x hx).2 h1 h2 h3⟩

/-- A new session is one. -/
theorem newSession_session (env : Env) (fuel l B : Nat) (created destroyed : List UserOp) (h : Header) (others : List (Prog Unit)) (sched : List IoOutcome) (out : OutStream)
    (h1 : listenerAfter created none = some l) (h2 : sizeAfter created ({} : Config).readBufferSize = B) (hB : 0 < B)
    (h3 : ∀ op ∈ destroyed, (steady l B).Op op) (h4 : (steady l B).Reacts env) (h5 : ∀ q ∈ others, (steady l B).Helper env fuel q) :
    Session env fuel l B created destroyed (newSession env fuel created h destroyed others ⟨[], sched⟩ out) :=
  ⟨⟨h, others, rfl, h5⟩, h1, h2, h3, h4, hB, rfl, rfl⟩

end OatWS.Threads

namespace OatWS.Async

/-- Sends that are all called by one thread or task are serialised. -/
theorem OneSender.serialised {log : List Entry} (h : OneSender log) : Serialised log := by
  obtain ⟨i, h⟩ := h
  intro a e b e1 hc j hj
  have hi : e.task = i := h e (by rw [e1]; simp) hc
  rintro ⟨s, ss, e2, _⟩
  have quiet : ∀ x ∈ a.filter (fun x => x.task == j), x.called = none := by
    intro x hx
    obtain ⟨h1, h2⟩ := List.mem_filter.mp hx
    cases hx' : x.called with
    | none => rfl
    | some c =>
      have := h x (by rw [e1]; exact List.mem_append_left _ h1) (by rw [hx']; rfl)
      have := eq_of_beq h2
      omega
  have key : ∀ (xs : List Entry), (∀ x ∈ xs, x.called = none) → xs.foldl feed [] = [] := by
    intro xs
    induction xs with
    | nil => intro _; rfl
    | cons x xs ih =>
      intro hx
      rw [List.foldl_cons]
      have : feed [] x = [] := by
        unfold feed
        rw [hx x (List.mem_cons_self ..)]
      rw [this]
      exact ih fun y hy => hx y (List.mem_cons_of_mem _ hy)
  rw [sendsOf, key _ quiet] at e2
  cases e2

end OatWS.Async

namespace OatWS.Network
open RFC6455 Async

theorem Fed.session {env : Env} {p0 : Threads.Pool} {e : Endpoint} {log sent} (h : Fed env (.threads p0) log sent e) {fuel l B : Nat} {created destroyed : List UserOp}
    (hB : Threads.Session env fuel l B created destroyed p0) (hx : e.Waits ∨ e.Ended env) :
    ∃ got ds r evs, sent = got ++ e.st.inp.bytes ∧ e.st.sock.trace = p0.st.sock.trace ++ evs ∧ Receives false got ds r ∧ Renders l B evs ds ∧ r ≠ .interrupted ∧
      (e.Ended env → Endpoint.Undisturbed (.threads p0) e → r ≠ .incomplete ∧ r ≠ .stopped) ∧ (e.Waits → r = .incomplete) := by
  obtain ⟨q, rfl, hq⟩ := h.threads
  obtain ⟨t, ht, hx⟩ : ∃ t, q.threads[0]? = some t ∧ (Threads.IsAt t .reading ∨ Threads.IsAt t (.ret ()) ∧ env.Calm) := by
    rcases hx with ⟨t, h1, h2⟩ | ⟨t, h1, h2, h3⟩
    · exact ⟨t, h1, .inl h2⟩
    · exact ⟨t, h1, .inr ⟨h2, h3⟩⟩
  obtain ⟨got, ds, r, evs, k1, k2, k3, k4, k5, k6, k7⟩ := (hq.session hB t ht).1 hx
  refine ⟨got, ds, r, evs, k1, k2, k3, k4, k5, ?_, ?_⟩
  · rintro ⟨t', e1, e2, _⟩ ⟨e3, e4⟩
    rw [ht] at e1
    injection e1 with e1
    subst e1
    exact k6 e4 e2 e3
  · rintro ⟨t', e1, e2⟩
    rw [ht] at e1
    injection e1 with e1
    subst e1
    exact k7 e2

/-- **C69.** A client (of any kind) is connected to a threaded server, which runs a session: `onAfterCreate`, `listen`, `onBeforeDestroy`. Whenever the server's thread is about to
read, and when the session is over, the listener that `onAfterCreate` has installed has heard exactly the messages of the client's first calls, in order, each once, unchanged,
and at most a proper part of the data of the next one, however early the client has sent them: also what arrived before there was a listener, or while
`onAfterCreate` was still sending. It has heard all of them when the client is not in the middle of a send and there is nothing more to read, and when listening has ended by itself;
then the last call was a close. -/
theorem C69_in_order (envA envB : Env) (fuelA fuelB l B : Nat) (a0 a b : Endpoint) (p0 : Threads.Pool) (created destroyed : List UserOp) (logA logB : List Entry)
    (hA : a0.App envA fuelA) (hB : Threads.Session envB fuelB l B created destroyed p0) (h : Linked envA envB a0 (.threads p0) logA logB a b)
    (hser : Serialised logA) (hok : ∀ e ∈ logA, e.failed = false) (cs last : List SendCall) (hc : callsOf logA = cs ++ last) (ht : Threads.Talk cs last)
    (hx : b.Waits ∨ b.Ended envB) :
    ∃ evs, b.st.sock.trace = p0.st.sock.trace ++ evs ∧ (∃ n, HeardFirst (callsOf logA) l n evs) ∧
      ((∀ j, ¬ Sending j logA) → b.st.inp.bytes = [] → HeardAll (callsOf logA) l evs ∧ (b.Waits → last = [])) ∧
      (b.Ended envB → Endpoint.Undisturbed (.threads p0) b → HeardAll (callsOf logA) l evs ∧ last ≠ []) := by
  obtain ⟨F, hF, hpre, hall⟩ := h.fed.1.sent hA hser hok (by rw [hc]; exact ht.small)
  obtain ⟨got, ds, r, evs, h1, h2, h3, h4, h5, h6, h7⟩ := h.fed.2.session hB hx
  rw [hc] at hF ⊢
  obtain ⟨k0, k1, k2, k3⟩ := ht.heard hF hpre h1 h3 h5 h4
  refine ⟨evs, h2, k0, fun x y => ⟨k1 (hall x) y, fun z => ?_⟩, fun x y => k2 (h6 x y).1 (h6 x y).2⟩
  rcases Classical.em (last = []) with hl | hl
  · exact hl
  · exact absurd (h7 z) (k3 (hall x) y hl)

/-- At rest, the thread of a session waits for input, or the session is over. -/
theorem Fed.session_rest {env : Env} {p0 : Threads.Pool} {b : Endpoint} {log fed} (h : Fed env (.threads p0) log fed b) {fuel l B : Nat} {created destroyed : List UserOp}
    (hB : Threads.Session env fuel l B created destroyed p0) (hf : (Endpoint.threads p0).Enough fuel) (hcc : ∀ op ∈ created, op.calm) (hcd : ∀ op ∈ destroyed, op.calm)
    (hrest : b.AtRest env) (hn : Endpoint.Unbroken env (.threads p0) b) (hw : b.Writable) (hr : b.Readable) :
    (b.Waits ∧ b.st.inp.bytes = []) ∨ b.Ended env ∧ Endpoint.Undisturbed (.threads p0) b := by
  obtain ⟨q, rfl, hq⟩ := h.threads
  obtain ⟨hcalm, hund⟩ := hn
  have happ := hB.app
  obtain ⟨hd, others, hts, -⟩ := hB.threads
  have hlen : 0 < q.threads.length := by rw [hq.indices.1, hts]; simp
  have h0 : q.threads[0]? = some q.threads[0] := List.getElem?_eq_getElem hlen
  have place := (hq.session hB _ h0).2 hcalm hcc hcd
  rcases hq.rest (fun t ht => (happ t ht).live _ _ hf.1 hf.2) (fun i a k r st' h1 h2 h3 => hrest _ _ (.thread h1 h2 h3)) _ (List.getElem_mem hlen) with
    (e | ⟨x, e⟩ | ⟨u, e⟩) | ⟨n, k, e, hb⟩ | ⟨d, k, _, e⟩
  · exact .inr ⟨⟨_, h0, by rw [e]; rfl, hcalm⟩, hund⟩
  · rcases place (.throw x) (by rw [e]; rfl) with h | h | h <;> cases h
  · rcases place (.ub u) (by rw [e]; rfl) with h | h | h <;> cases h
  · refine .inl ⟨⟨_, h0, by rw [e]; rfl⟩, ?_⟩
    rcases hb with hb | hb
    · exact absurd hb hr
    · exact hb
  · exact absurd e hw

/-- **C69** (everything is heard). When no thread or task of client or server can make a step any more, the connection still working and nothing but a close having ended listening: the
session's listener has been told exactly the messages the client has sent, in order, each once, unchanged; the server still listens, or the session is over,
`onBeforeDestroy` included, and then the client has sent a close. -/
theorem C69_all_heard (envA envB : Env) (fuelA fuelB l B : Nat) (a0 a b : Endpoint) (p0 : Threads.Pool) (created destroyed : List UserOp) (logA logB : List Entry)
    (hA : a0.App envA fuelA) (hB : Threads.Session envB fuelB l B created destroyed p0) (hcc : ∀ op ∈ created, op.calm) (hcd : ∀ op ∈ destroyed, op.calm)
    (hfA : a0.Enough fuelA) (hfB : (Endpoint.threads p0).Enough fuelB) (h : Linked envA envB a0 (.threads p0) logA logB a b)
    (hser : Serialised logA) (hok : ∀ e ∈ logA, e.failed = false) (cs last : List SendCall) (hc : callsOf logA = cs ++ last) (ht : Threads.Talk cs last)
    (hrA : a.AtRest envA) (hrB : b.AtRest envB) (hdA : a.Defined) (hwA : a.Writable) (hwB : b.Writable) (hrdB : b.Readable) (hn : Endpoint.Unbroken envB (.threads p0) b) :
    ∃ evs, b.st.sock.trace = p0.st.sock.trace ++ evs ∧ HeardAll (callsOf logA) l evs ∧ ((b.Waits ∧ last = []) ∨ (b.Ended envB ∧ last ≠ [])) := by
  have hns := h.fed.1.not_sending hA hfA hrA hdA hwA
  rcases h.fed.2.session_rest hB hfB hcc hcd hrB hn hwB hrdB with ⟨h1, h2⟩ | ⟨h1, h2⟩
  · obtain ⟨evs, k1, _, k2, _⟩ := C69_in_order envA envB fuelA fuelB l B a0 a b p0 created destroyed logA logB hA hB h hser hok cs last hc ht (.inl h1)
    exact ⟨evs, k1, (k2 hns h2).1, .inl ⟨h1, (k2 hns h2).2 h1⟩⟩
  · obtain ⟨evs, k1, _, _, k2⟩ := C69_in_order envA envB fuelA fuelB l B a0 a b p0 created destroyed logA logB hA hB h hser hok cs last hc ht (.inr h1)
    exact ⟨evs, k1, (k2 h1 h2).1, .inr ⟨h1, (k2 h1 h2).2⟩⟩

/-- **C69** (the client hears the session). The client listens. When nobody can make a step any more, the client's listener has been told exactly what was sent at the server, in the order of the
calls: what `onAfterCreate` sent, what callbacks and other threads sent, what `onBeforeDestroy` sent. -/
theorem C69_client_hears (envA envB : Env) (fuelA fuelB l B lA BA : Nat) (a0 a b : Endpoint) (p0 : Threads.Pool) (created destroyed : List UserOp) (logA logB : List Entry)
    (hA : a0.Listening envA fuelA lA BA) (hB : Threads.Session envB fuelB l B created destroyed p0)
    (hfA : a0.Enough fuelA) (hfB : (Endpoint.threads p0).Enough fuelB) (h : Linked envA envB a0 (.threads p0) logA logB a b)
    (hser : Serialised logB) (hok : ∀ e ∈ logB, e.failed = false) (cs last : List SendCall) (hc : callsOf logB = cs ++ last) (ht : Threads.Talk cs last)
    (hrA : a.AtRest envA) (hrB : b.AtRest envB) (hdB : b.Defined) (hwA : a.Writable) (hwB : b.Writable) (hrdA : a.Readable) (hn : Endpoint.Unbroken envA a0 a) :
    ∃ evs, a.st.sock.trace = a0.st.sock.trace ++ evs ∧ HeardAll (callsOf logB) lA evs ∧ ((a.Waits ∧ last = []) ∨ (a.Ended envA ∧ last ≠ [])) :=
  C68_all_heard envB envA fuelB fuelA lA BA (.threads p0) a0 b a logB logA hB.app hA hfB hfA h.swap hser hok cs last hc ht hrB hrA hdB hwB hwA hrdA hn

/-- **C69** (what the session says). If no send fails: whenever the thread of a session is about to read, it has called exactly the sends of `onAfterCreate` and then, callback by callback, those of the
listener, in this order; when the session is over, after these the sends of `onBeforeDestroy`. -/
theorem C69_says (envA env : Env) (fuel l B : Nat) (a0 a b : Endpoint) (p0 : Threads.Pool) (created destroyed : List UserOp) (logA log : List Entry)
    (hB : Threads.Session env fuel l B created destroyed p0) (h : Linked envA env a0 (.threads p0) logA log a b) (hok : ∀ e ∈ log, e.failed = false) :
    (b.Waits → ∃ evs, b.st.sock.trace = p0.st.sock.trace ++ evs ∧
      callsOf (log.filter fun e => e.task == 0) = said created ++ replies env p0.st.sock.trace evs) ∧
    (b.Over → ∃ evs, b.st.sock.trace = p0.st.sock.trace ++ evs ∧
      callsOf (log.filter fun e => e.task == 0) = said created ++ replies env p0.st.sock.trace evs ++ said destroyed) := by
  obtain ⟨p, rfl, hq⟩ := h.fed.2.threads
  obtain ⟨used, hlog, -⟩ := hq.logged [] []
  obtain ⟨hd, others, hts, hoth⟩ := hB.threads
  obtain ⟨t', others', e1, e2, _⟩ := hlog.says (t := Threads.sessionT env fuel created hd destroyed) (others := others) hts (Threads.saying_session env fuel created destroyed hd _)
    (fun q hq => (Threads.by_helper (hoth q hq)).noCallback) hok
  have e1 : p.threads = t' :: others' := e1
  constructor
  · rintro ⟨t, ht, hx⟩
    rw [e1] at ht
    injection ht with ht
    subst ht
    cases t' with
    | act a k =>
      cases a with
      | read n => exact e2.1
      | write d => cases hx
      | _ => exact hx.elim
    | stuck => exact hx.elim
    | _ => cases hx
  · rintro ⟨u, ht⟩
    rw [e1] at ht
    injection ht with ht
    subst ht
    exact e2

/-- **C69** (async server). A new session of the async server is an endpoint that listens, to which C66 and C68 apply: `onAfterCreate_NonBlocking` has installed listener `l` and buffer size `B`,
which callbacks and the coroutines it has started leave. -/
theorem C69_async (env : Env) (fuel l B : Nat) (created : List Setting) (h : Header) (others : List Outcome) (sched : List IoOutcome) (out : OutStream) (hB : 0 < B)
    (h1 : lastListener created none = some l) (h2 : lastSize created ({} : Config).readBufferSize = B)
    (h3 : (fixedSettings l B).Env env) (h4 : ∀ t ∈ others, (fixedSettings l B).Task t) (h5 : ∀ t ∈ others, t.quiet) :
    (Endpoint.tasks (Async.newSession created h others ⟨[], sched⟩ out)).Listening env fuel l B := by
  have hs : ∀ (cs : List Setting) (s : Sock), (cs.foldl Setting.apply s).listener = lastListener cs s.listener ∧
      (cs.foldl Setting.apply s).config.readBufferSize = lastSize cs s.config.readBufferSize := by
    intro cs
    induction cs with
    | nil => intro _; exact ⟨rfl, rfl⟩
    | cons c cs ih =>
      intro s
      rw [List.foldl_cons]
      cases c <;> exact ih _
  refine ⟨⟨⟨h, others, rfl, h4⟩, h3, by omega, ⟨(hs _ _).1.trans h1, (hs _ _).2.trans h2⟩, ?_, rfl⟩, ?_⟩
  · have : ∀ (cs : List Setting) (s : Sock), (cs.foldl Setting.apply s).lastOpcode = s.lastOpcode := by
      intro cs
      induction cs with
      | nil => intro _; rfl
      | cons c cs ih =>
        intro s
        rw [List.foldl_cons, ih]
        cases c <;> rfl
    show OpenIs false (created.foldl Setting.apply (Sock.newMask false out)).lastOpcode
    rw [this]
    rfl
  · intro t ht
    rcases List.mem_cons.mp ht with rfl | ht
    · intro co hco
      rw [List.mem_singleton.mp hco]
      exact ⟨fun _ h => (by cases h), fun _ h => (by cases h)⟩
    · exact h5 t ht

/-- **C69** (no locks needed). If all sends at an endpoint are called by one and the same thread or task (for instance all from `onAfterCreate`, callbacks and `onBeforeDestroy` of a session), they are
serialised, as C33, C58, C63, C66, C68 and this property require. -/
theorem C69_one_sender (log : List Entry) (h : OneSender log) : Serialised log := h.serialised

/-! ## Example -/

/-- A listener that answers pings. -/
def exPolite : Env := { Fixture.env with react := fun tr => match tr.getLast? with
  | some (.onPing _ m) => [.send (.pong (some (m.take 125))) true]
  | _ => [] }

/-- A client that sends a text, a ping and a close, and listens. -/
def exGuest : Endpoint := .threads
  ⟨[Threads.listenT Fixture.env 100 default,
    Threads.userOpsT Fixture.env 100 [.send (.text (some [7, 8])) true, .send (.ping (some [0x21])) true, .send (.close 1000 (some [])) true]],
    { sock := { Sock.new { readBufferSize := 2, maskOutgoingMessages := true } ⟨[], Fixture.slow 30⟩ with listener := some 1 }, inp := ⟨[], Fixture.slow 30⟩ }⟩

/-- `onAfterCreate` sends a text, then installs a listener, then makes the read buffer small; `onBeforeDestroy` sends a close. -/
def exCreated : List UserOp := [.send (.text (some [1, 2])) true, .setListener (some 7), .setConfig { readBufferSize := 2 }]
def exDestroyed : List UserOp := [.send .closeEmpty true]

def exHost : Threads.Pool := Threads.newSession exPolite 100 exCreated default exDestroyed [] ⟨[], Fixture.slow 40⟩ ⟨[], Fixture.slow 30⟩

/-- The text of the client arrives before the server has begun; the rest when it listens. -/
def exVisit := run Fixture.env exPolite (List.replicate 2 (false, 0) ++ List.replicate 30 (false, 1) ++ List.replicate 80 (true, 0) ++ List.replicate 100 (false, 1) ++
  List.replicate 200 (true, 0) ++ List.replicate 100 (false, 0)) [] [] exGuest (.threads exHost)

theorem exVisit_guest : restView Fixture.env exVisit.1 exVisit.2.2.1 =
    ⟨⟨true, true, [.text (some [7, 8]), .ping (some [0x21]), .close 1000 (some [])], [], [.completed, .completed, .completed],
      [.readMessage 1 1 [1], .readMessage 1 1 [2], .readMessage 1 1 [], .onPong 1 [0x21], .onClose 1 0 []], [], false⟩, true, true, true, true⟩ := by decide +kernel

theorem exVisit_host : restView exPolite exVisit.2.1 exVisit.2.2.2 =
    ⟨⟨true, true, [.text (some [1, 2]), .pong (some [0x21]), .closeEmpty], [.completed, .completed, .completed], [],
      [.readMessage 7 1 [7], .readMessage 7 1 [8], .readMessage 7 1 [], .onPing 7 [0x21], .onClose 7 1000 []], [], false⟩, true, true, true, true⟩ := by decide +kernel

theorem exPolite_react (tr : List Event) (op : UserOp) (h : op ∈ exPolite.react tr) : ∃ m : List UInt8, op = .send (.pong (some (m.take 125))) true := by
  unfold exPolite at h
  dsimp only at h
  split at h
  · exact ⟨_, List.mem_singleton.mp h⟩
  · cases h

theorem exHost_session : Threads.Session exPolite 100 7 2 exCreated exDestroyed exHost := by
  refine Threads.newSession_session exPolite 100 7 2 exCreated exDestroyed default [] _ _ rfl rfl (by decide) (fun op h => ?_) (fun tr op h => ?_) (fun _ h => (by cases h))
  · rw [List.mem_singleton.mp h]; trivial
  · obtain ⟨m, rfl⟩ := exPolite_react tr op h; trivial

/-- The hypotheses of `C69_async` are met: settings are changed twice, a coroutine that sends has been started. -/
example : (Endpoint.tasks (Async.newSession [.listener (some 3), .config { readBufferSize := 9 }, .listener (some 7), .config { readBufferSize := 2 }] default
    [.run (userTask [.send (.text (some [7, 8])) false])] ⟨[], Fixture.slow 30⟩ ⟨[], Fixture.slow 30⟩)).Listening exPolite 100 7 2 := by
  refine C69_async exPolite 100 7 2 _ default _ _ _ (by decide) rfl rfl (fun tr op h => ?_) (fun t ht => ?_) (fun t ht => ?_)
  · obtain ⟨m, rfl⟩ := exPolite_react tr op h; trivial
  · rw [List.mem_singleton.mp ht]
    intro c hc
    rw [List.mem_singleton.mp hc]
    refine ⟨trivial, fun u hu op hop => ?_⟩
    injection hu with hu
    subst hu
    rw [List.mem_singleton.mp hop]; trivial
  · rw [List.mem_singleton.mp ht]
    intro c hc
    rw [List.mem_singleton.mp hc]
    exact ⟨fun _ h => (by cases h), fun _ h => (by cases h)⟩

theorem exGuest_listening : exGuest.Listening Fixture.env 100 1 2 := by
  refine ⟨⟨default, _, rfl, ?_⟩, fun _ _ h => (by cases h), by decide, ⟨⟨1, rfl, rfl⟩, rfl, fun _ _ => trivial, rfl⟩, rfl⟩
  intro q hq
  rw [List.mem_singleton] at hq
  subst hq
  refine .code _ fun op h => ?_
  simp only [List.mem_cons, List.not_mem_nil, or_false] at h
  rcases h with rfl | rfl | rfl <;> trivial

/-- The hypotheses of `C69_all_heard`, `C69_client_hears`, `C69_says` (and `C69_in_order`) are met. -/
example : ∃ a b logA logB, Linked Fixture.env exPolite exGuest (.threads exHost) logA logB a b ∧ a.AtRest Fixture.env ∧ b.AtRest exPolite ∧
    callsOf logA = [.text (some [7, 8]), .ping (some [0x21]), .close 1000 (some [])] ∧ callsOf logB = [.text (some [1, 2]), .pong (some [0x21]), .closeEmpty] ∧
    HeardAll (callsOf logB) 1 a.st.sock.trace ∧ HeardAll (callsOf logA) 7 b.st.sock.trace ∧ b.Ended exPolite ∧ a.Ended Fixture.env ∧
    callsOf (logB.filter fun e => e.task == 0) = said exCreated ++ replies exPolite [] b.st.sock.trace ++ said exDestroyed := by
  have hl : Linked Fixture.env exPolite exGuest (.threads exHost) exVisit.1 exVisit.2.1 exVisit.2.2.1 exVisit.2.2.2 := by
    unfold exVisit
    exact run_linked _ .refl
  have hA := exVisit_guest
  have hB := exVisit_host
  generalize exVisit.1 = logA, exVisit.2.1 = logB, exVisit.2.2.1 = a, exVisit.2.2.2 = b at hl hA hB
  injection hA with hA ar ad aw al
  injection hA with a1 a2 a3 a4 a5 a6 a7 a8
  injection hB with hB br bd bw bl
  injection hB with b1 b2 b3 b4 b5 b6 b7 b8
  have okOf : ∀ {l : List Entry}, l.all (fun e => !e.failed && (e.task == 0 || e.task == 1)) = true → ∀ e ∈ l, e.failed = false := by
    intro l h e hm
    have := List.all_eq_true.mp h e hm
    simp at this
    exact this.1
  have short : ∀ m : List UInt8, m.length ≤ 3 → m.length < 2 ^ 63 := fun m h => Nat.lt_of_le_of_lt h (by decide)
  have tA : Threads.Talk [.text (some [7, 8]), .ping (some [0x21])] [.close 1000 (some [])] := by
    refine ⟨?_, .inr ⟨_, rfl, Nat.zero_le _⟩, ?_⟩
    · intro c hc
      simp only [List.mem_cons, List.not_mem_nil, or_false] at hc
      rcases hc with rfl | rfl
      · trivial
      · exact (by decide : 1 ≤ 125)
    · intro c hc
      simp only [List.cons_append, List.nil_append, List.mem_cons, List.not_mem_nil, or_false] at hc
      rcases hc with rfl | rfl | rfl <;> exact short _ (by decide)
  have tB : Threads.Talk [.text (some [1, 2]), .pong (some [0x21])] [.closeEmpty] := by
    refine ⟨?_, .inr ⟨_, rfl, trivial⟩, ?_⟩
    · intro c hc
      simp only [List.mem_cons, List.not_mem_nil, or_false] at hc
      rcases hc with rfl | rfl
      · trivial
      · exact (by decide : 1 ≤ 125)
    · intro c hc
      simp only [List.cons_append, List.nil_append, List.mem_cons, List.not_mem_nil, or_false] at hc
      rcases hc with rfl | rfl | rfl <;> exact short _ (by decide)
  have calmB : exPolite.Calm := fun tr op h => by
    obtain ⟨m, rfl⟩ := exPolite_react tr op h
    exact ⟨rfl, Nat.lt_of_le_of_lt (List.length_take_le ..) (by decide)⟩
  have uA : Endpoint.Unbroken Fixture.env exGuest a := by
    obtain ⟨q, e, _⟩ := Fed.threads hl.fed.1
    subst e
    exact ⟨fun _ _ h => (by cases h), al, by decide⟩
  have uB : Endpoint.Unbroken exPolite (.threads exHost) b := by
    obtain ⟨q, e, _⟩ := Fed.threads hl.fed.2
    subst e
    exact ⟨calmB, bl, by decide⟩
  have cc : ∀ op ∈ exCreated, op.calm := by
    intro op h
    simp only [exCreated, List.mem_cons, List.not_mem_nil, or_false] at h
    rcases h with rfl | rfl | rfl
    · exact ⟨rfl, by decide⟩
    · trivial
    · trivial
  have cd : ∀ op ∈ exDestroyed, op.calm := by
    intro op h
    rw [List.mem_singleton.mp h]
    exact ⟨rfl, by decide⟩
  have fA : exGuest.Enough 100 := ⟨by decide, by decide⟩
  have fB : (Endpoint.threads exHost).Enough 100 := ⟨by decide, by decide⟩
  obtain ⟨evsB, g1, g2, g3⟩ := C69_all_heard Fixture.env exPolite 100 100 7 2 exGuest a b exHost exCreated exDestroyed logA logB exGuest_listening.app exHost_session cc cd fA fB hl
    (serialCheck_sound a1) (okOf a2) _ _ a3 tA (restNow_sound ar) (restNow_sound br) (definedNow_sound ad) (worksNow_sound aw).1 (worksNow_sound bw).1 (worksNow_sound bw).2 uB
  obtain ⟨evsA, k1, k2, k3⟩ := C69_client_hears Fixture.env exPolite 100 100 7 2 1 2 exGuest a b exHost exCreated exDestroyed logA logB exGuest_listening exHost_session fA fB hl
    (serialCheck_sound b1) (okOf b2) _ _ b3 tB (restNow_sound ar) (restNow_sound br) (definedNow_sound bd) (worksNow_sound aw).1 (worksNow_sound bw).1 (worksNow_sound aw).2 uA
  have hse := (C69_says Fixture.env exPolite 100 7 2 exGuest a b exHost exCreated exDestroyed logA logB exHost_session hl (okOf b2)).2
  have g1 : b.st.sock.trace = evsB := g1
  have k1 : a.st.sock.trace = evsA := k1
  subst g1 k1
  have eB : b.Ended exPolite := by
    rcases g3 with ⟨_, h⟩ | ⟨h, _⟩
    · cases h
    · exact h
  have eA : a.Ended Fixture.env := by
    rcases k3 with ⟨_, h⟩ | ⟨h, _⟩
    · cases h
    · exact h
  have oB : b.Over := by
    obtain ⟨q, e, _⟩ := Fed.threads hl.fed.2
    subst e
    obtain ⟨t, h1, h2, _⟩ := eB
    cases t with
    | ret u => exact ⟨u, h1⟩
    | act a k => cases a <;> first | exact h2.elim | cases h2
    | stuck => exact h2.elim
    | _ => cases h2
  obtain ⟨evs, m1, m2⟩ := hse oB
  have m1 : b.st.sock.trace = evs := m1
  subst m1
  exact ⟨a, b, logA, logB, hl, restNow_sound ar, restNow_sound br, a3, b3, k2, g2, eB, eA, m2⟩


end OatWS.Network
