import Verif.Spec.Together
import Verif.Props.Client
import Verif.Props.Session
import Verif.Props.Speech
/-! # C92: a client and a server of this library, from `connect` to the last message -/

namespace OatWS.Together
open Network Http Handshake Connector Client

theorem ClientOn.listening {env : Env} {fuel l B : Nat} {c : Conn} {a : Endpoint} (h : ClientOn env fuel l B c a) (hc : c.inp.bytes = []) : a.Listening env fuel l B ∧ a.st.sock.trace = [] := by
  obtain ⟨⟨bytes, sched⟩, out⟩ := c
  subst hc
  cases h with
  | threads mask settings h others h1 h2 h3 h4 h5 => exact ⟨C87_endpoint env fuel l B mask settings h others sched out h3 h1 h2 h4 h5, (socket_settings mask settings _).2.2.2.1⟩
  | tasks mask settings h others h1 h2 h3 h4 h5 h6 => exact ⟨C87_endpoint_async env fuel l B mask settings h others sched out h3 h1 h2 h4 h5 h6, (socket_settings mask settings _).2.2.2.1⟩

theorem SessionOn.app {env : Env} {fuel l B : Nat} {sched : List IoOutcome} {out : OutStream} {b : Endpoint} (h : SessionOn env fuel l B sched out b) : b.App env fuel ∧ b.st.sock.trace = [] := by
  cases h with
  | threads created destroyed h others h1 h2 h3 h4 h5 h6 h7 h8 => exact ⟨(Threads.newSession_session env fuel l B created destroyed h others sched out h1 h2 h3 h4 h5 h6).app, rfl⟩
  | tasks created h others h1 h2 h3 h4 h5 h6 => exact ⟨(C69_async env fuel l B created h others sched out h3 h1 h2 h4 h5 h6).app, (socket_settings false created ⟨⟨[], sched⟩, out⟩).2.2.2.1⟩

theorem Orderly.close {log : List Async.Entry} {cs last : List SendCall} (hc : Async.callsOf log = cs ++ last) (ht : Speech cs last) : SaidClose log ↔ last ≠ [] := by
  have hn : ∀ (b : Bool) (cs : List SendCall), FitAll b cs → ∀ c ∈ cs, ¬ c.isClose := by
    intro b cs
    induction cs generalizing b with
    | nil => intro _ c hc; cases hc
    | cons d cs ih =>
      intro hf c hc
      rcases List.mem_cons.mp hc with rfl | hc
      · intro hx
        have := hf.1
        cases c <;> first | exact hx.elim | exact this.elim
      · exact ih _ hf.2 c hc
  unfold SaidClose
  rw [hc]
  rcases ht.ends with rfl | ⟨d, rfl, hd⟩
  · constructor
    · rintro ⟨c, h1, h2⟩
      rw [List.append_nil] at h2
      exact absurd h1 (hn false cs ht.fits c (List.mem_of_getLast? h2))
    · intro h; exact absurd rfl h
  · exact ⟨fun _ h => (by cases h), fun _ => ⟨d, hd, (by simp)⟩⟩

variable {envA envB : Env} {fuelA fuelB lA BA lB BB : Nat} {c : Conn} {schedB : List IoOutcome} {outB : OutStream} {a0 b0 a b : Endpoint} {logA logB : List Async.Entry}

/-- **C92** (any moment). At any moment of the conversation the server's listener has heard exactly what the client's first calls say, and at most a beginning of the next one's data; and the other way round. -/
theorem C92_any_moment (hc : c.inp.bytes = []) (hA : ClientOn envA fuelA lA BA c a0) (hB : SessionOn envB fuelB lB BB schedB outB b0) (hfA : a0.Enough fuelA) (hfB : b0.Enough fuelB)
    (h : Linked envA envB a0 b0 logA logB a b) :
    (Orderly logA → Async.Resigned logA → ∃ n part, HeardUpTo (Async.callsOf logA) lB n part b.st.sock.trace) ∧
    (Orderly logB → Async.Resigned logB → ∃ n part, HeardUpTo (Async.callsOf logB) lA n part a.st.sock.trace) := by
  obtain ⟨hA1, hA2⟩ := hA.listening hc
  obtain ⟨hB1, hB2⟩ := hB.app
  constructor
  · rintro ⟨hs, cs, last, hcs, ht⟩ hr
    have : ∃ evs n part, b.st.sock.trace = b0.st.sock.trace ++ evs ∧ HeardUpTo (Async.callsOf logA) lB n part evs := by
      cases hB with
      | threads created destroyed hd others h1 h2 h3 h4 h5 h6 _ _ =>
        exact C71_session envA envB fuelA fuelB lB BB a0 a b _ created destroyed logA logB hA1.app (Threads.newSession_session envB fuelB lB BB created destroyed hd others schedB outB h1 h2 h3 h4 h5 h6) hfB h
          hs hr cs last hcs ht
      | tasks created hd others h1 h2 h3 h4 h5 h6 =>
        exact C71_any_moment envA envB fuelA fuelB lB BB a0 _ a b logA logB hA1.app (C69_async envB fuelB lB BB created hd others schedB outB h3 h1 h2 h4 h5 h6) hfB h hs hr cs last hcs ht
    obtain ⟨evs, n, part, e1, e2⟩ := this
    rw [hB2, List.nil_append] at e1
    exact ⟨n, part, e1 ▸ e2⟩
  · rintro ⟨hs, cs, last, hcs, ht⟩ hr
    obtain ⟨evs, n, part, e1, e2⟩ := C71_any_moment envB envA fuelB fuelA lA BA b0 a0 b a logB logA hB1 hA1 hfA h.swap hs hr cs last hcs ht
    rw [hA2, List.nil_append] at e1
    exact ⟨n, part, e1 ▸ e2⟩

/-- **C92** (everything is heard). When the conversation has come to rest, each side's listener has heard exactly what was sent at the other side; it still waits for more, or its listening has ended because the last call at the
other side was a close. -/
theorem C92_all_heard (hc : c.inp.bytes = []) (hA : ClientOn envA fuelA lA BA c a0) (hB : SessionOn envB fuelB lB BB schedB outB b0) (hfA : a0.Enough fuelA) (hfB : b0.Enough fuelB)
    (h : Linked envA envB a0 b0 logA logB a b) (hoA : Orderly logA) (hoB : Orderly logB) (hr : Rested envA envB a0 b0 logA logB a b) :
    (HeardWhole (Async.callsOf logA) lB b.st.sock.trace ∧ ((b.Waits ∧ ¬ SaidClose logA) ∨ (b.Ended envB ∧ SaidClose logA))) ∧
    (HeardWhole (Async.callsOf logB) lA a.st.sock.trace ∧ ((a.Waits ∧ ¬ SaidClose logB) ∨ (a.Ended envA ∧ SaidClose logB))) := by
  obtain ⟨hA1, hA2⟩ := hA.listening hc
  obtain ⟨hB1, hB2⟩ := hB.app
  constructor
  · obtain ⟨hs, cs, last, hcs, ht⟩ := hoA
    have : ∃ evs, b.st.sock.trace = b0.st.sock.trace ++ evs ∧ HeardWhole (Async.callsOf logA) lB evs ∧ ((b.Waits ∧ last = []) ∨ (b.Ended envB ∧ last ≠ [])) := by
      cases hB with
      | threads created destroyed hd others h1 h2 h3 h4 h5 h6 h7 h8 =>
        exact C71_session_all_heard envA envB fuelA fuelB lB BB a0 a b _ created destroyed logA logB hA1.app
          (Threads.newSession_session envB fuelB lB BB created destroyed hd others schedB outB h1 h2 h3 h4 h5 h6) h7 h8 hfA hfB h hs hr.sends.1 cs last hcs ht hr.rest.1 hr.rest.2 hr.defined.1 hr.takes.1 hr.takes.2
          hr.gives.2 hr.unbroken.2
      | tasks created hd others h1 h2 h3 h4 h5 h6 =>
        exact C71_all_heard envA envB fuelA fuelB lB BB a0 _ a b logA logB hA1.app (C69_async envB fuelB lB BB created hd others schedB outB h3 h1 h2 h4 h5 h6) hfA hfB h hs hr.sends.1 cs last hcs ht
          hr.rest.1 hr.rest.2 hr.defined.1 hr.takes.1 hr.takes.2 hr.gives.2 hr.unbroken.2
    obtain ⟨evs, e1, e2, e3⟩ := this
    rw [hB2, List.nil_append] at e1
    rw [Orderly.close hcs ht]
    exact ⟨e1 ▸ e2, e3.imp (fun x => ⟨x.1, fun y => y x.2⟩) id⟩
  · obtain ⟨hs, cs, last, hcs, ht⟩ := hoB
    obtain ⟨evs, e1, e2, e3⟩ := C71_all_heard envB envA fuelB fuelA lA BA b0 a0 b a logB logA hB1 hA1 hfB hfA h.swap hs hr.sends.2 cs last hcs ht hr.rest.2 hr.rest.1 hr.defined.2 hr.takes.2 hr.takes.1 hr.gives.1
      hr.unbroken.1
    rw [hA2, List.nil_append] at e1
    rw [Orderly.close hcs ht]
    exact ⟨e1 ▸ e2, e3.imp (fun x => ⟨x.1, fun y => y x.2⟩) id⟩

/-- **C92.** A client and a server of this library, with any implementations of oatpp core as it should be, on machines of any byte order. For every key the client may draw, all headers of the user's and all that a proxy adds, reorders or re-cases: if the handshake's
request reaches the server, it answers 101, and if this response reaches the client, `connect` and `connectAsync` return the connection; and then, on this connection, if nothing was read ahead (C87 is about what happens otherwise), whatever kind of
sockets, threads and coroutines both sides use: at any moment each side's listener has heard exactly what was sent at the other side so far, and, at rest, all of it. -/
theorem C92_end_to_end {clientCore serverCore : Core} (hcc : clientCore.Sound) (hsc : serverCore.Sound) (clientHost serverHost : Endian)
    (random : List UInt8) (hrandom : random.length = 16) (user : Headers) (hu : ∀ n ∈ requestNames, values user n = []) (path : Str) (c0 : Conn)
    (handler : H) (request : Headers) (hreq : Carried requestNames (handshakeRequest path user (generateKey random) (some c0)).headers request) :
    ∃ headers, serversideHandshake serverCore serverHost request handler = .response 101 headers handler ∧
      ∀ (execute : Ev Conn → Except String Exchange) (x : Exchange), execute (handshakeRequest path user (generateKey random) (some c0)) = .ok x → x.response.status = 101 →
        Carried responseNames headers x.response.headers →
        connectOver clientCore clientHost c0 execute random path user = some x.after ∧ connectOverAsync clientCore clientHost c0 execute random path user = some x.after ∧
        (x.after.inp.bytes = [] → ∀ (envA envB : Env) (fuelA fuelB lA BA lB BB : Nat) (schedB : List IoOutcome) (outB : OutStream) (a0 b0 a b : Endpoint) (logA logB : List Async.Entry),
          ClientOn envA fuelA lA BA x.after a0 → SessionOn envB fuelB lB BB schedB outB b0 → a0.Enough fuelA → b0.Enough fuelB → Linked envA envB a0 b0 logA logB a b → Orderly logA → Orderly logB →
          (Async.Resigned logA → ∃ n part, HeardUpTo (Async.callsOf logA) lB n part b.st.sock.trace) ∧
          (Async.Resigned logB → ∃ n part, HeardUpTo (Async.callsOf logB) lA n part a.st.sock.trace) ∧
          (Rested envA envB a0 b0 logA logB a b → HeardWhole (Async.callsOf logA) lB b.st.sock.trace ∧ HeardWhole (Async.callsOf logB) lA a.st.sock.trace)) := by
  obtain ⟨headers, h1, h2⟩ := C87_connects hcc hsc clientHost serverHost random hrandom user hu path c0 handler request hreq
  refine ⟨headers, h1, fun execute x hx hs hcar => ?_⟩
  have h3 := h2 execute x hx hs hcar
  refine ⟨h3, by rw [C87_connectAsync]; exact h3, fun hb envA envB fuelA fuelB lA BA lB BB schedB outB a0 b0 a b logA logB hA hB hfA hfB h hoA hoB => ?_⟩
  obtain ⟨k1, k2⟩ := C92_any_moment hb hA hB hfA hfB h
  refine ⟨k1 hoA, k2 hoB, fun hr => ?_⟩
  obtain ⟨k3, k4⟩ := C92_all_heard hb hA hB hfA hfB h hoA hoB hr
  exact ⟨k3.1, k4.1⟩

/-- **C92** (it comes to rest). The conversation can not go on for ever without anything new arriving, and from every moment of it a moment of rest can be reached. -/
theorem C92_comes_to_rest (h : Linked envA envB a0 b0 logA logB a b) :
    ∃ logA' logB' a' b', Linked envA envB a0 b0 (logA ++ logA') (logB ++ logB') a' b' ∧ a'.AtRest envA ∧ b'.AtRest envB := C68_comes_to_rest envA envB a0 b0 a b logA logB h

/-! ## A concrete case: the client and the session of the example of C69, and async ones -/

/-- The connection as the executor left it. -/
def exWire : Conn := ⟨⟨[], Fixture.slow 30⟩, ⟨[], Fixture.slow 30⟩⟩

theorem exGuest_on : ClientOn Fixture.env 100 1 2 exWire exGuest := by
  refine ClientOn.threads true [.config { readBufferSize := 2, maskOutgoingMessages := true }, .listener (some 1)] default
    [Threads.userOpsT Fixture.env 100 [.send (.text (some [7, 8])) true, .send (.ping (some [0x21])) true, .send (.close 1000 (some [])) true]] rfl rfl (by decide) (fun _ _ h => (by cases h)) ?_
  intro q hq
  rw [List.mem_singleton] at hq
  subst hq
  refine .code _ fun op h => ?_
  simp only [List.mem_cons, List.not_mem_nil, or_false] at h
  rcases h with rfl | rfl | rfl <;> trivial

theorem exHost_on : SessionOn exPolite 100 7 2 (Fixture.slow 40) ⟨[], Fixture.slow 30⟩ (.threads exHost) := by
  refine SessionOn.threads exCreated exDestroyed default [] rfl rfl (by decide) (fun op h => ?_) (fun tr op h => ?_) (fun _ h => (by cases h)) (fun op h => ?_) (fun op h => ?_)
  · rw [List.mem_singleton.mp h]; trivial
  · obtain ⟨m, rfl⟩ := exPolite_react tr op h; trivial
  · simp only [exCreated, List.mem_cons, List.not_mem_nil, or_false] at h
    rcases h with rfl | rfl | rfl
    · exact ⟨rfl, by decide⟩
    · trivial
    · trivial
  · rw [List.mem_singleton.mp h]
    exact ⟨rfl, by decide⟩

/-- The async kinds: a coroutine that sends, on both sides. -/
example : ClientOn Fixture.env 0 7 2 exWire (.tasks (Client.tasks true exSettings default [.run (Async.userTask [.send (.text (some [7, 8])) true])] exWire)) ∧
    SessionOn Fixture.env 0 7 2 (Fixture.slow 30) ⟨[], Fixture.slow 30⟩ (.tasks (Async.newSession exSettings default [.run (Async.userTask [.send (.text (some [7, 8])) true])] ⟨[], Fixture.slow 30⟩ ⟨[], Fixture.slow 30⟩)) := by
  have h1 : ∀ t ∈ [Async.Outcome.run (Async.userTask [.send (.text (some [7, 8])) true])], (Async.fixedSettings 7 2).Task t := by
    intro t ht
    rw [List.mem_singleton.mp ht]
    intro c hc
    rw [List.mem_singleton.mp hc]
    refine ⟨trivial, fun u hu op hop => ?_⟩
    injection hu with hu
    subst hu
    rw [List.mem_singleton.mp hop]
    trivial
  have h2 : ∀ t ∈ [Async.Outcome.run (Async.userTask [.send (.text (some [7, 8])) true])], Async.Outcome.quiet t := by
    intro t ht
    rw [List.mem_singleton.mp ht]
    intro c hc
    rw [List.mem_singleton.mp hc]
    exact ⟨fun _ h => (by cases h), fun _ h => (by cases h)⟩
  exact ⟨.tasks true exSettings default _ rfl rfl (by decide) (fun _ _ h => (by cases h)) h1 h2, .tasks exSettings default _ rfl rfl (by decide) (fun _ _ h => (by cases h)) h1 h2⟩

theorem exSmall (m : List UInt8) (h : m.length ≤ 3) : m.length < 2 ^ 63 := Nat.lt_of_le_of_lt h (by decide)

/-- The hypotheses of `C92_any_moment`, `C92_all_heard`, `C92_comes_to_rest` and of the conclusion of `C92_end_to_end` are met: greeting, text, ping, pong, close, close. -/
theorem exTogether : ∃ a b logA logB, Linked Fixture.env exPolite exGuest (.threads exHost) logA logB a b ∧ Orderly logA ∧ Orderly logB ∧ Async.Resigned logA ∧ Async.Resigned logB ∧
    Rested Fixture.env exPolite exGuest (.threads exHost) logA logB a b ∧
    Async.callsOf logA = [.text (some [7, 8]), .ping (some [0x21]), .close 1000 (some [])] ∧ Async.callsOf logB = [.text (some [1, 2]), .pong (some [0x21]), .closeEmpty] := by
  have hl : Linked Fixture.env exPolite exGuest (.threads exHost) exVisit.1 exVisit.2.1 exVisit.2.2.1 exVisit.2.2.2 := by
    unfold exVisit
    exact run_linked _ .refl
  have hA := exVisit_guest
  have hB := exVisit_host
  generalize exVisit.1 = logA, exVisit.2.1 = logB, exVisit.2.2.1 = a, exVisit.2.2.2 = b at hl hA hB
  injection hA with hA ar ad aw al
  injection hA with a1 a2 a3 a4 a5 a6 a7 a8
  injection hB with hB br bd bw bl
  injection hB with b1 b2 b3 b4 b5 b6 b7 b8
  have okOf : ∀ {l : List Async.Entry}, l.all (fun e => !e.failed && (e.task == 0 || e.task == 1)) = true → ∀ e ∈ l, e.failed = false := by
    intro l h e hm
    have := List.all_eq_true.mp h e hm
    simp at this
    exact this.1
  have resigned : ∀ {l : List Async.Entry}, (∀ e ∈ l, e.failed = false) → Async.Resigned l := by
    rintro l h x e y rfl hf
    rw [h e (by simp)] at hf
    cases hf
  have tA : Speech [.text (some [7, 8]), .ping (some [0x21])] [.close 1000 (some [])] := by
    refine ⟨⟨rfl, (show 1 ≤ 125 by decide), trivial⟩, .inr ⟨_, rfl, Nat.zero_le _⟩, ?_⟩
    intro c hc
    simp only [List.cons_append, List.nil_append, List.mem_cons, List.not_mem_nil, or_false] at hc
    rcases hc with rfl | rfl | rfl <;> exact exSmall _ (by decide)
  have tB : Speech [.text (some [1, 2]), .pong (some [0x21])] [.closeEmpty] := by
    refine ⟨⟨rfl, (show 1 ≤ 125 by decide), trivial⟩, .inr ⟨_, rfl, trivial⟩, ?_⟩
    intro c hc
    simp only [List.cons_append, List.nil_append, List.mem_cons, List.not_mem_nil, or_false] at hc
    rcases hc with rfl | rfl | rfl <;> exact exSmall _ (by decide)
  have uA : Endpoint.Unbroken Fixture.env exGuest a := by
    obtain ⟨q, e, _⟩ := Fed.threads hl.fed.1
    subst e
    exact ⟨fun _ _ h => (by cases h), al, by decide⟩
  have uB : Endpoint.Unbroken exPolite (.threads exHost) b := by
    obtain ⟨q, e, _⟩ := Fed.threads hl.fed.2
    subst e
    refine ⟨fun tr op h => ?_, bl, by decide⟩
    obtain ⟨m, rfl⟩ := exPolite_react tr op h
    exact ⟨rfl, Nat.lt_of_le_of_lt (List.length_take_le ..) (by decide)⟩
  exact ⟨a, b, logA, logB, hl, ⟨Async.serialCheck_sound a1, _, _, a3, tA⟩, ⟨Async.serialCheck_sound b1, _, _, b3, tB⟩, resigned (okOf a2), resigned (okOf b2),
    ⟨⟨restNow_sound ar, restNow_sound br⟩, ⟨(worksNow_sound aw).1, (worksNow_sound bw).1⟩, ⟨(worksNow_sound aw).2, (worksNow_sound bw).2⟩, ⟨okOf a2, okOf b2⟩, ⟨definedNow_sound ad, definedNow_sound bd⟩,
      ⟨uA, uB⟩⟩, a3, b3⟩

/-- An executor that has read nothing ahead, and the server's answer. -/
def exAnswer : Ev Conn → Except String Exchange
  | .request _ _ h _ =>
    match serversideHandshake firstCore .big h () with
    | .response s hs _ => .ok ⟨⟨s, hs⟩, [], exWire⟩
    | .error s _ => .ok ⟨⟨s, []⟩, [], exWire⟩
  | _ => .error "no request"

/-- The hypotheses of `C92_end_to_end` are met, for every key: the client connects, and the whole conversation above is heard on both sides. -/
example (random : List UInt8) (hr : random.length = 16) (path : Str) (c0 : Conn) :
    connectOver lastCore .little c0 exAnswer random path [(ascii "Host", ascii "example.com")] = some exWire ∧
    ∃ a b logA logB, Linked Fixture.env exPolite exGuest (.threads exHost) logA logB a b ∧ Async.callsOf logA = [.text (some [7, 8]), .ping (some [0x21]), .close 1000 (some [])] ∧
      HeardWhole (Async.callsOf logA) 7 b.st.sock.trace ∧ HeardWhole (Async.callsOf logB) 1 a.st.sock.trace ∧ b.Ended exPolite ∧ a.Ended Fixture.env ∧
      (∃ n part, HeardUpTo (Async.callsOf logA) 7 n part b.st.sock.trace) := by
  obtain ⟨hs, h1, h2⟩ := C92_end_to_end lastCore_sound firstCore_sound .little .big random hr [(ascii "Host", ascii "example.com")] (by decide) path c0 ()
    (handshakeRequest path [(ascii "Host", ascii "example.com")] (generateKey random) (some c0)).headers (fun n _ => List.Perm.refl _)
  have h3 : exAnswer (handshakeRequest path [(ascii "Host", ascii "example.com")] (generateKey random) (some c0)) = .ok ⟨⟨101, hs⟩, [], exWire⟩ := by
    show (match serversideHandshake firstCore .big (handshakeRequest path [(ascii "Host", ascii "example.com")] (generateKey random) (some c0)).headers () with
      | .response s hs _ => Except.ok (Exchange.mk ⟨s, hs⟩ [] exWire)
      | .error s _ => Except.ok (Exchange.mk ⟨s, []⟩ [] exWire)) = _
    rw [h1]
    rfl
  obtain ⟨h4, -, h5⟩ := h2 exAnswer _ h3 rfl (fun n _ => List.Perm.refl _)
  obtain ⟨a, b, logA, logB, g1, g2, g3, g4, g5, g6, g7, g8⟩ := exTogether
  have fA : exGuest.Enough 100 := ⟨by decide, by decide⟩
  have fB : (Endpoint.threads exHost).Enough 100 := ⟨by decide, by decide⟩
  obtain ⟨k1, k2, k3⟩ := h5 rfl _ _ 100 100 1 2 7 2 _ _ _ _ a b logA logB exGuest_on exHost_on fA fB g1 g2 g3
  obtain ⟨m1, m2⟩ := C92_all_heard (c := exWire) rfl exGuest_on exHost_on fA fB g1 g2 g3 g6
  have cA : SaidClose logA := ⟨.close 1000 (some []), Nat.zero_le _, by rw [g7]; rfl⟩
  have cB : SaidClose logB := ⟨.closeEmpty, trivial, by rw [g8]; rfl⟩
  refine ⟨h4, a, b, logA, logB, g1, g7, (k3 g6).1, (k3 g6).2, ?_, ?_, k1 g4⟩
  · rcases m1.2 with ⟨_, h⟩ | ⟨h, _⟩
    · exact absurd cA h
    · exact h
  · rcases m2.2 with ⟨_, h⟩ | ⟨h, _⟩
    · exact absurd cB h
    · exact h

end OatWS.Together
