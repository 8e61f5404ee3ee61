import Verif.Spec.Client
import Verif.Props.Connector
import Verif.Props.EndToEnd
import Verif.Props.AsyncEquiv
import Verif.Props.Session
/-! # C87: a client, from `connect` to the conversation -/

namespace OatWS.Client
open Http Handshake Connector RFC6455

theorem connectOver_some {core : Core} {host : Endian} {c0 : Conn} {execute : Ev Conn → Except String Exchange} {random : List UInt8} {path : Str} {headers : Headers} {c : Conn} :
    connectOver core host c0 execute random path headers = some c ↔
    ∃ x, execute (handshakeRequest path headers (generateKey random) (some c0)) = .ok x ∧ c = x.after ∧
      clientsideConfirmHandshake core host (handshakeRequest path headers (generateKey random) (some c0)).headers x.response = .ok := by
  have h1 := C39_connect_request core host (.ok (some c0)) (fun r => (execute r).map Exchange.response) random path headers
  have h2 := C39_connect_iff core host (.ok (some c0)) (fun r => (execute r).map Exchange.response) random path headers
  unfold connectOver
  rcases hc : connect core host (.ok (some c0)) (fun r => (execute r).map Exchange.response) random path headers with ⟨evs, o⟩
  rw [hc] at h1 h2
  dsimp only at h1 h2
  subst h1
  cases o with
  | threw m =>
    simp only [reduceCtorEq, false_iff]
    rintro ⟨x, hx, -, hok⟩
    have := (h2 (some c0)).mpr ⟨c0, rfl, rfl, x.response, by rw [hx]; rfl, hok⟩
    cases this
  | returned r =>
    obtain ⟨c1, rfl, h3, resp, h4, h5⟩ := (h2 r).mp rfl
    cases hx : execute (handshakeRequest path headers (generateKey random) (some c0)) with
    | error e =>
      simp only [hx]
      constructor
      · intro h; cases h
      · rintro ⟨x, h, -⟩; cases h
    | ok x =>
      simp only [hx]
      constructor
      · intro h
        injection h with h
        injection h3 with h3
        injection h3 with h3
        subst h3
        rw [hx] at h4
        injection h4 with h4
        subst h4
        exact ⟨x, rfl, h.symm, h5⟩
      · rintro ⟨x', h, rfl, -⟩
        injection h with h
        rw [h]

/-- **C87** (what `connect` returns). The caller of `connect` gets the connection exactly if the request sent over it was answered and the handshake confirmed; then he gets it as the executor of the request left it: what the
executor read behind the response is not given back. -/
theorem C87_connect (core : Core) (host : Endian) (c0 : Conn) (execute : Ev Conn → Except String Exchange) (random : List UInt8) (path : Str) (headers : Headers) (c : Conn) :
    connectOver core host c0 execute random path headers = some c ↔
    ∃ x, execute (handshakeRequest path headers (generateKey random) (some c0)) = .ok x ∧ c = x.after ∧
      clientsideConfirmHandshake core host (handshakeRequest path headers (generateKey random) (some c0)).headers x.response = .ok := connectOver_some

/-- **C87.** `connectAsync` does the same. -/
theorem C87_connectAsync (core : Core) (host : Endian) (c0 : Conn) (execute : Ev Conn → Except String Exchange) (random : List UInt8) (path : Str) (headers : Headers) :
    connectOverAsync core host c0 execute random path headers = connectOver core host c0 execute random path headers := by
  obtain ⟨s, h1, h2⟩ := C39_same core host random path headers c0 (fun r => (execute r).map Exchange.response)
  have hr : Ev.request "GET" path (allHeaders headers random) (some c0) = handshakeRequest path headers (generateKey random) (some c0) := rfl
  have e1 := C39_connect_request core host (.ok (some c0)) (fun r => (execute r).map Exchange.response) random path headers
  have e2 := C39_connect_iff core host (.ok (some c0)) (fun r => (execute r).map Exchange.response) random path headers
  unfold connectOverAsync connectOver
  rw [hr]
  simp only [h1]
  rcases hc : connect core host (.ok (some c0)) (fun r => (execute r).map Exchange.response) random path headers with ⟨evs, o⟩
  rw [hc] at h1 h2 e1 e2
  dsimp only at h2 e1 e2
  subst e1
  cases o with
  | returned r =>
    obtain ⟨c1, rfl, -⟩ := (e2 r).mp rfl
    rw [(h2 _).mpr rfl]
  | threw m =>
    cases s with
    | ended o =>
      cases o with
      | returned r => cases (h2 r).mp rfl
      | threw _ => rfl
    | _ => rfl

/-- **C87** (it connects). Client and server of this library (any machines, any random key of the right size, application's header fields that do not define the handshake's own, HTTP that carries the
handshake fields): the server upgrades, and `connect` returns the connection as the executor left it. -/
theorem C87_connects {clientCore serverCore : Core} (hcc : clientCore.Sound) (hsc : serverCore.Sound) (clientHost serverHost : Endian)
    (random : List UInt8) (hr : random.length = 16) (user : Headers) (hu : ∀ n ∈ requestNames, values user n = []) (path : Str) (c0 : Conn)
    (handler : H) (request : Headers) (hreq : Carried requestNames (handshakeRequest path user (generateKey random) (some c0)).headers request) :
    ∃ headers, serversideHandshake serverCore serverHost request handler = .response 101 headers handler ∧
      ∀ (execute : Ev Conn → Except String Exchange) (x : Exchange), execute (handshakeRequest path user (generateKey random) (some c0)) = .ok x → x.response.status = 101 →
        Carried responseNames headers x.response.headers → connectOver clientCore clientHost c0 execute random path user = some x.after := by
  obtain ⟨headers, h1, h2⟩ := C38_agree hcc hsc clientHost serverHost random hr user hu handler request hreq
  refine ⟨headers, h1, fun execute x hx hs hc => (C87_connect ..).mpr ⟨x, hx, rfl, ?_⟩⟩
  have := h2 x.response.headers hc
  rw [← hs] at this
  exact this

/-! ## What is heard -/

theorem socket_settings (mask : Bool) (settings : List Async.Setting) (c : Conn) :
    (socket mask settings c).sock.listener = lastListener settings none ∧
    (socket mask settings c).sock.config.readBufferSize = lastSize settings ({} : Config).readBufferSize ∧
    (socket mask settings c).sock.lastOpcode = -1 ∧ (socket mask settings c).sock.trace = [] ∧ (socket mask settings c).inp = c.inp := by
  have hs : ∀ (cs : List Async.Setting) (s : Sock), (cs.foldl Async.Setting.apply s).listener = lastListener cs s.listener ∧
      (cs.foldl Async.Setting.apply s).config.readBufferSize = lastSize cs s.config.readBufferSize ∧
      (cs.foldl Async.Setting.apply s).lastOpcode = s.lastOpcode ∧ (cs.foldl Async.Setting.apply s).trace = s.trace := by
    intro cs
    induction cs with
    | nil => intro _; exact ⟨rfl, rfl, rfl, rfl⟩
    | cons c cs ih =>
      intro s
      rw [List.foldl_cons]
      cases c <;> exact ih _
  obtain ⟨h1, h2, h3, h4⟩ := hs settings (Sock.newMask mask c.out)
  exact ⟨h1, h2, h3, h4, rfl⟩

theorem socket_undisturbed {env : Env} {mask : Bool} {settings : List Async.Setting} {c : Conn} {l B : Nat} (ht : env.Tame) (hp : env.Passive) (h1 : lastListener settings none = some l)
    (h2 : lastSize settings ({} : Config).readBufferSize = B) (hB : 0 < B) (hh : Healthy (c.inp.bytes.length + 1) c.inp.sched) :
    Undisturbed env (socket mask settings c) l B false := by
  obtain ⟨e1, e2, e3, -, e5⟩ := socket_settings mask settings c
  exact ⟨ht, hp, e1.trans h1, e2.trans h2, hB, by rw [e3]; rfl, by rw [e5]; exact hh⟩

/-- **C87** (`listen`). The listener of the client hears exactly what was sent after the frames that the executor has read ahead; the messages in these (`cs1`, for instance a greeting sent in `onAfterCreate`) are lost. If the executor has not
read ahead (`cs1 = []`), everything is heard. -/
theorem C87_heard (envS : Env) (s : Sock) (cs1 cs2 last : List SendCall) (x : Exchange) (hx : ReadAhead envS s cs1 cs2 last x)
    (env : Env) (h : Header) (mask : Bool) (settings : List Async.Setting) (l B : Nat) (ht : env.Tame) (hp : env.Passive)
    (h1 : lastListener settings none = some l) (h2 : lastSize settings ({} : Config).readBufferSize = B) (hB : 0 < B)
    (hh : Healthy (x.after.inp.bytes.length + 1) x.after.inp.sched) :
    ∃ st', listen env h (socket mask settings x.after) = (.ret (), st') ∧ (∀ e ∈ st'.sock.trace, e.to = l) ∧
      reassemble [] st'.sock.trace = ((cs2 ++ last).map SendCall.msg, []) ∧ st'.inp.bytes = [] := by
  obtain ⟨s1, s2, g1, g2, g3, g4⟩ := hx.sent
  obtain ⟨evs, st', k1, k2, k3, k4, k5⟩ := C24_end_to_end envS s1 s2 cs2 last hx.messages hx.close g2 env h (socket mask settings x.after) l B
    (socket_undisturbed ht hp h1 h2 hB hh) (by rw [g4, g3]; rfl)
  rw [(socket_settings mask settings x.after).2.2.2.1, List.nil_append] at k2
  exact ⟨st', k1, by rw [k2]; exact k3, by rw [k2]; exact k4, k5⟩

/-- **C87** (`listenAsync`). The same, for a listener that means the same in both APIs. -/
theorem C87_heard_async (envS : Env) (s : Sock) (cs1 cs2 last : List SendCall) (x : Exchange) (hx : ReadAhead envS s cs1 cs2 last x)
    (env : Env) (h : Header) (mask : Bool) (settings : List Async.Setting) (l B : Nat) (ht : env.Tame) (hp : env.Passive) (hpl : Async.PlainListener env)
    (h1 : lastListener settings none = some l) (h2 : lastSize settings ({} : Config).readBufferSize = B) (hB : 0 < B)
    (hh : Healthy (x.after.inp.bytes.length + 1) x.after.inp.sched) :
    (∃ o w', Async.Runs env (Async.listenTask h) { st := socket mask settings x.after } o w') ∧
    ∀ o w', Async.Runs env (Async.listenTask h) { st := socket mask settings x.after } o w' → (∀ e ∈ w'.st.sock.trace, e.to = l) ∧
      reassemble [] w'.st.sock.trace = ((cs2 ++ last).map SendCall.msg, []) ∧ w'.st.inp.bytes = [] := by
  obtain ⟨st', k1, k2, k3, k4⟩ := C87_heard envS s cs1 cs2 last x hx env h mask settings l B ht hp h1 h2 hB hh
  have hB' : 0 < (socket mask settings x.after).sock.config.readBufferSize := by rw [(socket_settings mask settings x.after).2.1, h2]; omega
  refine ⟨(Async.C28_async_listen env hpl h h (socket mask settings x.after) { st := socket mask settings x.after } rfl hB').1, fun o w' hr => ?_⟩
  obtain ⟨e1, e2, -⟩ := Async.C28_same_callbacks env hpl h h (socket mask settings x.after) { st := socket mask settings x.after } rfl hB' o w' hr
  rw [k1] at e1 e2
  dsimp only at e1 e2
  rw [e1, e2]
  exact ⟨k2, k3, k4⟩

/-- **C87** (reading ahead into a message). The server has masking off and sends one binary message. If the executor has read ahead just the header of its frame, the client takes the content of the message for frames: when the content is what some (other) socket would
write for the calls `cs ++ last`, the client hears these, although nobody has sent them to it. -/
theorem C87_content_as_frames (envS : Env) (s s' : Sock) (content : List UInt8) (hm : s.config.maskOutgoingMessages = false) (hlen : content.length < 2 ^ 63)
    (hsent : send envS (.binary (some content)) s = (.ret (), s')) (x : Exchange) (hx : s'.out.written = s.out.written ++ x.ahead ++ x.after.inp.bytes)
    (ha : x.ahead.length = headerBytes content.length)
    (env2 : Env) (t t' : Sock) (cs last : List SendCall) (hcs : ∀ c ∈ cs, c.isMessage) (hlast : last = [] ∨ ∃ c, last = [c] ∧ c.isClose)
    (hother : SucceedAll env2 (cs ++ last) t t') (hcon : t'.out.written = t.out.written ++ content)
    (env : Env) (h : Header) (mask : Bool) (settings : List Async.Setting) (l B : Nat) (ht : env.Tame) (hp : env.Passive)
    (h1 : lastListener settings none = some l) (h2 : lastSize settings ({} : Config).readBufferSize = B) (hB : 0 < B)
    (hh : Healthy (x.after.inp.bytes.length + 1) x.after.inp.sched) :
    ∃ st', listen env h (socket mask settings x.after) = (.ret (), st') ∧ (∀ e ∈ st'.sock.trace, e.to = l) ∧
      reassemble [] st'.sock.trace = ((cs ++ last).map SendCall.msg, []) ∧ st'.inp.bytes = [] := by
  have hS : (SendCall.binary (some content)).Sendable s := ⟨hlen, fun h => by rw [hm] at h; cases h⟩
  obtain ⟨w, -⟩ := (Succeeds.other (env := envS) (fun _ _ _ h => by cases h) hsent).wrote hS
  rw [hx, List.append_assoc] at w
  have w := List.append_cancel_left w
  have hc : x.after.inp.bytes = content := by
    have e : ((SendCall.binary (some content)).frame envS s).encode
        = encodeHeader true false false false 2 none content.length ++ content := by
      simp only [SendCall.frame, SendCall.content, Frame.encode, frameFor, hm]
      rfl
    have hl : (encodeHeader true false false false 2 none content.length).length = headerBytes content.length := by
      unfold encodeHeader lengthField headerBytes
      split
      · rfl
      · split <;> rfl
    rw [e] at w
    exact (List.append_inj w (by rw [ha, hl])).2
  obtain ⟨evs, st', k1, k2, k3, k4, k5⟩ := C24_end_to_end env2 t t' cs last hcs hlast hother env h (socket mask settings x.after) l B
    (socket_undisturbed ht hp h1 h2 hB hh) (by rw [hcon]; exact congrArg (_ ++ ·) hc.symm)
  rw [(socket_settings mask settings x.after).2.2.2.1, List.nil_append] at k2
  exact ⟨st', k1, by rw [k2]; exact k3, by rw [k2]; exact k4, k5⟩

/-! ## The conversation -/

/-- **C87** (conversation, threads). A client over a new connection with a listener installed, whose other threads and callbacks leave listener and buffer size alone, is an endpoint of the kind that the theorems about
conversations (C63 - C73, C79 - C86) are about. -/
theorem C87_endpoint (env : Env) (fuel l B : Nat) (mask : Bool) (settings : List Async.Setting) (h : Header) (others : List (Threads.Prog Unit)) (sched : List IoOutcome) (out : OutStream) (hB : 0 < B)
    (h1 : lastListener settings none = some l) (h2 : lastSize settings ({} : Config).readBufferSize = B)
    (h3 : (Threads.steady l B).Reacts env) (h4 : ∀ q ∈ others, (Threads.steady l B).Helper env fuel q) :
    (Network.Endpoint.threads (threads env fuel mask settings h others ⟨⟨[], sched⟩, out⟩)).Listening env fuel l B := by
  obtain ⟨e1, e2, e3, -, -⟩ := socket_settings mask settings ⟨⟨[], sched⟩, out⟩
  exact ⟨⟨h, others, rfl, h4⟩, h3, hB, ⟨⟨l, e1.trans h1, rfl⟩, e2.trans h2, fun _ _ => trivial, by
    show OpenIs false (socket mask settings ⟨⟨[], sched⟩, out⟩).sock.lastOpcode
    rw [e3]; rfl⟩, rfl⟩

/-- **C87** (conversation, tasks). The same for an async client. -/
theorem C87_endpoint_async (env : Env) (fuel l B : Nat) (mask : Bool) (settings : List Async.Setting) (h : Header) (others : List Async.Outcome) (sched : List IoOutcome) (out : OutStream) (hB : 0 < B)
    (h1 : lastListener settings none = some l) (h2 : lastSize settings ({} : Config).readBufferSize = B)
    (h3 : (Async.fixedSettings l B).Env env) (h4 : ∀ t ∈ others, (Async.fixedSettings l B).Task t) (h5 : ∀ t ∈ others, Async.Outcome.quiet t) :
    (Network.Endpoint.tasks (tasks mask settings h others ⟨⟨[], sched⟩, out⟩)).Listening env fuel l B := by
  obtain ⟨e1, e2, e3, -, -⟩ := socket_settings mask settings ⟨⟨[], sched⟩, out⟩
  refine ⟨⟨⟨h, others, rfl, h4⟩, h3, by omega, ⟨e1.trans h1, e2.trans h2⟩, ?_, rfl⟩, ?_⟩
  · show OpenIs false (socket mask settings ⟨⟨[], sched⟩, out⟩).sock.lastOpcode
    rw [e3]; rfl
  · intro t ht
    rcases List.mem_cons.mp ht with rfl | ht
    · intro co hco
      rw [List.mem_singleton.mp hco]
      exact ⟨fun _ h => (by cases h), fun _ h => (by cases h)⟩
    · exact h5 t ht

/-! ## Examples -/

/-- The server's socket when its response has been written (for short, the response is three bytes), masking off, writing byte by byte. -/
def exHostSock : Sock := Sock.newMask false ⟨[0x48, 0x0d, 0x0a], Fixture.slow 60⟩

/-- A greeting, a ping and a close; the executor of the client has read the greeting along with the response. -/
def exExchange (response : Response) : Exchange :=
  ⟨response, [0x81, 2, 0x68, 0x69], ⟨⟨[0x89, 1, 0x21, 0x88, 2, 0x03, 0xe8], Fixture.slow 8⟩, ⟨[], []⟩⟩⟩

/-- The listener 7 with a buffer of 2 bytes. -/
def exSettings : List Async.Setting := [.listener (some 3), .config { readBufferSize := 2, maskOutgoingMessages := true }, .listener (some 7)]

theorem exAhead (response : Response) : ReadAhead Fixture.env exHostSock [.text (some [0x68, 0x69])] [.ping (some [0x21])] [.close 1000 none] (exExchange response) := by
  refine ⟨?_, .inr ⟨_, rfl, show 0 ≤ 123 by decide⟩, _, _, .cons (by decide) (.other nofun rfl) .nil,
    .cons (by decide) (.other nofun rfl) (.cons (by decide) (.other nofun rfl) .nil), ?_, ?_⟩
  rotate_left
  · show _ = exHostSock.out.written ++ [0x81, 2, 0x68, 0x69]
    decide +kernel
  · show _ = exHostSock.out.written ++ [0x81, 2, 0x68, 0x69] ++ [0x89, 1, 0x21, 0x88, 2, 0x03, 0xe8]
    decide +kernel
  intro c hc
  rw [List.mem_singleton.mp hc]
  show 1 ≤ 125
  decide

/-- The greeting is lost, the ping and the close are heard. -/
example (response : Response) : ∃ st', listen Fixture.env default (socket true exSettings (exExchange response).after) = (.ret (), st') ∧ (∀ e ∈ st'.sock.trace, e.to = 7) ∧
    reassemble [] st'.sock.trace = ([.ping [0x21], .close 1000 []], []) ∧ st'.inp.bytes = [] :=
  C87_heard Fixture.env exHostSock _ _ _ (exExchange response) (exAhead response) Fixture.env default true exSettings 7 2 Fixture.env_quiet.tame Fixture.env_quiet.passive rfl rfl (by decide)
    (show Healthy 8 (Fixture.slow 8) by decide +kernel)

/-- The same with `listenAsync`. -/
example (response : Response) : ∃ o w', Async.Runs Fixture.env (Async.listenTask default) { st := socket true exSettings (exExchange response).after } o w' ∧
    reassemble [] w'.st.sock.trace = ([.ping [0x21], .close 1000 []], []) := by
  obtain ⟨⟨o, w', h1⟩, h2⟩ := C87_heard_async Fixture.env exHostSock _ _ _ (exExchange response) (exAhead response) Fixture.env default true exSettings 7 2 Fixture.env_quiet.tame Fixture.env_quiet.passive
    (fun tr op h => by rw [Fixture.env_quiet tr] at h; cases h) rfl rfl (by decide) (show Healthy 8 (Fixture.slow 8) by decide +kernel)
  exact ⟨o, w', h1, (h2 o w' h1).2.1⟩

/-- Nothing read ahead: the greeting is heard too. -/
example (response : Response) : ∃ st', listen Fixture.env default (socket true exSettings ⟨⟨[0x81, 2, 0x68, 0x69, 0x89, 1, 0x21, 0x88, 2, 0x03, 0xe8], Fixture.slow 12⟩, ⟨[], []⟩⟩) = (.ret (), st') ∧
    (∀ e ∈ st'.sock.trace, e.to = 7) ∧ reassemble [] st'.sock.trace = ([.text [0x68, 0x69], .ping [0x21], .close 1000 []], []) ∧ st'.inp.bytes = [] := by
  refine C87_heard Fixture.env exHostSock [] [.text (some [0x68, 0x69]), .ping (some [0x21])] [.close 1000 none] ⟨response, [], _⟩ ⟨?_, .inr ⟨_, rfl, show 0 ≤ 123 by decide⟩, _, _, .nil,
    .cons (by decide) (.other nofun rfl) (.cons (by decide) (.other nofun rfl) (.cons (by decide) (.other nofun rfl) .nil)), (show exHostSock.out.written = exHostSock.out.written ++ [] by decide +kernel),
    (show _ = exHostSock.out.written ++ [] ++ [0x81, 2, 0x68, 0x69, 0x89, 1, 0x21, 0x88, 2, 0x03, 0xe8] by decide +kernel)⟩
    Fixture.env default true exSettings 7 2 Fixture.env_quiet.tame Fixture.env_quiet.passive rfl rfl (by decide) (show Healthy 12 (Fixture.slow 12) by decide +kernel)
  intro c hc
  simp only [List.mem_cons, List.not_mem_nil, or_false] at hc
  rcases hc with rfl | rfl
  · trivial
  · show 1 ≤ 125; decide

/-- The content of the binary message is what a (masking) client would write for a close. -/
example (response : Response) : ∃ st', listen Fixture.env default (socket true exSettings ⟨⟨[0x88, 0x82, 3, 20, 37, 54, 0, 252], Fixture.slow 9⟩, ⟨[], []⟩⟩) = (.ret (), st') ∧
    (∀ e ∈ st'.sock.trace, e.to = 7) ∧ reassemble [] st'.sock.trace = ([.close 1000 []], []) ∧ st'.inp.bytes = [] :=
  C87_content_as_frames Fixture.env exHostSock _ [0x88, 0x82, 3, 20, 37, 54, 0, 252] rfl (by decide) rfl ⟨response, [0x82, 8], _⟩
    (show _ = exHostSock.out.written ++ [0x82, 8] ++ [0x88, 0x82, 3, 20, 37, 54, 0, 252] by decide +kernel) (show 2 = _ by decide)
    Fixture.env (Sock.newMask true ⟨[], Fixture.slow 20⟩) _ [] [.close 1000 none] (fun c h => by cases h) (.inr ⟨_, rfl, show 0 ≤ 123 by decide⟩)
    (.cons (by decide) (.other nofun rfl) .nil) (by decide +kernel) Fixture.env default true exSettings 7 2 Fixture.env_quiet.tame Fixture.env_quiet.passive rfl rfl (by decide)
    (show Healthy 9 (Fixture.slow 9) by decide +kernel)

/-- An executor and server that answer as the library's server does; what else arrives as in `exExchange`. -/
def exExecute : Ev Conn → Except String Exchange
  | .request _ _ h _ =>
    match serversideHandshake firstCore .big h () with
    | .response s hs _ => .ok (exExchange ⟨s, hs⟩)
    | .error s _ => .ok (exExchange ⟨s, []⟩)
  | _ => .error "no request"

/-- The hypotheses of `C87_connects` are met: with it, `connect` and `connectAsync` return the connection behind the greeting. -/
example (random : List UInt8) (hr : random.length = 16) (path : Str) (c0 : Conn) :
    connectOver lastCore .little c0 exExecute random path [(ascii "Host", ascii "example.com")] = some (exExchange ⟨101, []⟩).after ∧
    connectOverAsync lastCore .little c0 exExecute random path [(ascii "Host", ascii "example.com")] = some (exExchange ⟨101, []⟩).after := by
  obtain ⟨hs, h1, h2⟩ := C87_connects lastCore_sound firstCore_sound .little .big random hr [(ascii "Host", ascii "example.com")] (by decide) path c0 ()
    (handshakeRequest path [(ascii "Host", ascii "example.com")] (generateKey random) (some c0)).headers (fun n _ => List.Perm.refl _)
  have h3 : exExecute (handshakeRequest path [(ascii "Host", ascii "example.com")] (generateKey random) (some c0)) = .ok (exExchange ⟨101, hs⟩) := by
    show (match serversideHandshake firstCore .big (handshakeRequest path [(ascii "Host", ascii "example.com")] (generateKey random) (some c0)).headers () with
      | .response s hs _ => Except.ok (exExchange ⟨s, hs⟩)
      | .error s _ => Except.ok (exExchange ⟨s, []⟩)) = _
    rw [h1]
    rfl
  have h4 := h2 exExecute (exExchange ⟨101, hs⟩) h3 rfl (fun n _ => List.Perm.refl _)
  rw [C87_connectAsync]
  exact ⟨h4, h4⟩

/-- The client of C69's example, made in this way, listens; its other thread sends. -/
example : (Network.Endpoint.threads (threads Fixture.env 100 true exSettings default
    [Threads.userOpsT Fixture.env 100 [.send (.text (some [7, 8])) true, .send (.close 1000 (some [])) true]] ⟨⟨[], Fixture.slow 30⟩, ⟨[], Fixture.slow 30⟩⟩)).Listening Fixture.env 100 7 2 := by
  refine C87_endpoint Fixture.env 100 7 2 true exSettings default _ _ _ (by decide) rfl rfl (fun _ _ h => (by cases h)) ?_
  intro q hq
  rw [List.mem_singleton] at hq
  subst hq
  refine .code _ fun op h => ?_
  simp only [List.mem_cons, List.not_mem_nil, or_false] at h
  rcases h with rfl | rfl <;> trivial

/-- An async client, whose other task sends. -/
example : (Network.Endpoint.tasks (tasks true exSettings default [.run (Async.userTask [.send (.text (some [7, 8])) true])] ⟨⟨[], Fixture.slow 30⟩, ⟨[], Fixture.slow 30⟩⟩)).Listening Fixture.env 100 7 2 := by
  refine C87_endpoint_async Fixture.env 100 7 2 true exSettings default _ _ _ (by decide) rfl rfl (fun _ _ h => (by cases h)) ?_ ?_
  · intro t ht
    rw [List.mem_singleton.mp ht]
    intro c hc
    rw [List.mem_singleton.mp hc]
    refine ⟨trivial, fun u hu op hop => ?_⟩
    injection hu with hu
    subst hu
    rw [List.mem_singleton.mp hop]
    trivial
  · intro t ht
    rw [List.mem_singleton.mp ht]
    intro c hc
    rw [List.mem_singleton.mp hc]
    exact ⟨fun _ h => (by cases h), fun _ h => (by cases h)⟩

end OatWS.Client
