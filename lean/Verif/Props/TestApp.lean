import Verif.Props.Dialogue
import Verif.Props.DialogueHealthy
import Verif.Props.Receive
import Verif.Props.Together
import Verif.Spec.TestApp
/-! # C93: the project's own asynchronous test, for all messages and all schedules -/

namespace OatWS.TestApp
open Async Network Client

theorem react_of {σ : Type} (c : ListenerClass σ) (base : Env) (tr : List Event) (e : Event) : (c.env base).react (tr ++ [e]) = (c.on (c.state tr) e).2 := by
  simp [ListenerClass.env]

theorem server_foldl (acc : List UInt8) (tr : List Event) : tr.foldl (fun s e => (AsyncWebSocketListener.on s e).1) acc = (reassemble acc tr).2 := by
  induction tr generalizing acc with
  | nil => rfl
  | cons e tr ih =>
    rw [List.foldl_cons, ih]
    cases e with
    | readMessage l op d => cases d <;> rfl
    | _ => rfl

theorem server_state (tr : List Event) : AsyncWebSocketListener.state tr = (reassemble [] tr).2 := server_foldl [] tr

theorem client_foldl (acc : List UInt8) (n : Nat) (tr : List Event) :
    tr.foldl (fun s e => (ClientSocketListener.on s e).1) (acc, n) = ((reassemble acc tr).2, n + dataMessages (reassemble acc tr).1) := by
  induction tr generalizing acc n with
  | nil => rfl
  | cons e tr ih =>
    rw [List.foldl_cons]
    cases e with
    | readMessage l op d =>
      cases d with
      | nil =>
        have h1 : (ClientSocketListener.on (acc, n) (.readMessage l op [])).1 = ([], n + 1) := rfl
        have h2 : dataMessages (Msg.data op acc :: (reassemble [] tr).1) = 1 + dataMessages (reassemble [] tr).1 := by
          have h3 : Msg.data op acc = .text acc ∨ Msg.data op acc = .binary acc ∨ Msg.data op acc = .other op acc := by
            unfold Msg.data
            split
            · exact .inl rfl
            · split
              · exact .inr (.inl rfl)
              · exact .inr (.inr rfl)
          unfold dataMessages
          rcases h3 with h3 | h3 | h3 <;> rw [h3, List.filter_cons_of_pos rfl, List.length_cons, Nat.add_comm]
        rw [h1, ih]
        show _ = ((reassemble [] tr).2, n + dataMessages (Msg.data op acc :: (reassemble [] tr).1))
        rw [h2, Nat.add_assoc]
      | cons x d => exact ih _ _
    | onPing l m => exact ih _ _
    | onPong l m => exact ih _ _
    | onClose l c m => exact ih _ _

/-- **C93** (the client's counter). However the data of the messages is cut into pieces, the client's counter is the number of data messages it has been told completely, and its buffer the data of one that is not complete. -/
theorem C93_counter (tr : List Event) : ClientSocketListener.state tr = ((reassemble [] tr).2, dataMessages (reassemble [] tr).1) := by
  have := client_foldl [] 0 tr
  rw [Nat.zero_add] at this
  exact this

example : ClientSocketListener.state [.readMessage 1 1 [7], .readMessage 1 1 [8], .readMessage 1 1 [], .onPing 1 [9], .readMessage 1 2 [5]] = ([5], 1) := by decide

/-- **C93** (what the listeners are). Whatever callbacks are made, the server's listener answers every message it has been told completely with the greeting, pings with pongs and a close with a close, and sends nothing else; the
client's listener answers pings only. -/
theorem C93_serves (base : Env) : (AsyncWebSocketListener.env base).Serves greet ∧ (ClientSocketListener.env base).Serves pongs := by
  constructor
  · intro tr e
    rw [react_of, server_state]
    unfold completes
    cases e with
    | readMessage l op d =>
      cases d with
      | nil =>
        show [SendCall.text _] = ([Msg.data op (reassemble [] tr).2] : List Msg).flatMap greet
        rw [List.flatMap_singleton]
        unfold Msg.data
        split
        · rfl
        · split <;> rfl
      | cons x d => rfl
    | _ => rfl
  · intro tr e
    rw [react_of]
    unfold completes
    cases e with
    | readMessage l op d =>
      cases d with
      | nil =>
        show [] = ([Msg.data op (reassemble [] tr).2] : List Msg).flatMap pongs
        rw [List.flatMap_singleton]
        unfold Msg.data
        split
        · rfl
        · split <;> rfl
      | cons x d => rfl
    | _ => rfl

/-- "hi" in two pieces is greeted once. -/
example : (AsyncWebSocketListener.env Fixture.env).react [.readMessage 1 1 [104], .readMessage 1 1 [105], .readMessage 1 1 []] = [.send (.text (some (greeting ++ [104, 105]))) false] ∧
    (AsyncWebSocketListener.env Fixture.env).react [.readMessage 1 1 [104], .readMessage 1 1 [105]] = [] := ⟨rfl, rfl⟩

theorem plain_env {σ : Type} (c : ListenerClass σ) (base : Env) (h : ∀ s e, ∀ op ∈ (c.on s e).2, ∃ d, op = .send d false) : PlainEnv (c.env base) := by
  intro tr op hop
  unfold ListenerClass.env at hop
  dsimp only at hop
  split at hop
  · exact h _ _ _ hop
  · cases hop

theorem server_plain (base : Env) : PlainEnv (AsyncWebSocketListener.env base) := by
  refine plain_env _ _ fun s e op hop => ?_
  cases e with
  | readMessage l o d =>
    cases d with
    | nil => exact ⟨_, List.mem_singleton.mp hop⟩
    | cons x d => cases hop
  | onPing l m => exact ⟨_, List.mem_singleton.mp hop⟩
  | onPong l m => cases hop
  | onClose l c m => exact ⟨_, List.mem_singleton.mp hop⟩

theorem client_plain (base : Env) : PlainEnv (ClientSocketListener.env base) := by
  refine plain_env _ _ fun s e op hop => ?_
  cases e with
  | readMessage l o d => cases d <;> cases hop
  | onPing l m => exact ⟨_, List.mem_singleton.mp hop⟩
  | onPong l m => cases hop
  | onClose l c m => cases hop

theorem plain_settings {env : Env} (h : PlainEnv env) (S : Settings) : S.Env env := by
  intro tr op hop
  obtain ⟨c, rfl⟩ := h tr op hop
  trivial

theorem senderOps_plain (ms : List (List UInt8)) : ∀ op ∈ senderOps ms, ∃ c, op = .send c false := by
  intro op hop
  rcases List.mem_append.mp hop with h | h
  · obtain ⟨m, _, rfl⟩ := List.mem_map.mp h
    exact ⟨_, rfl⟩
  · exact ⟨_, List.mem_singleton.mp h⟩

/-- The calls of text messages, then a close. -/
def speak (ms : List (List UInt8)) : List SendCall := (ms.map fun m => .text (some m)) ++ [.closeEmpty]

theorem said_sender (ms : List (List UInt8)) : said (senderOps ms) = speak ms := by
  induction ms with
  | nil => rfl
  | cons m ms ih => exact congrArg (SendCall.text (some m) :: ·) ih

theorem told_speak (ms : List (List UInt8)) : told [] (speak ms) = (conversation ms, []) := by
  induction ms with
  | nil => rfl
  | cons m ms ih =>
    show (Msg.text m :: (told [] (speak ms)).1, (told [] (speak ms)).2) = _
    rw [ih]
    rfl

theorem told_take (ms : List (List UInt8)) (n : Nat) : told [] ((speak ms).take n) = ((conversation ms).take n, []) := by
  induction ms generalizing n with
  | nil => rcases n with _ | _ | n <;> rfl
  | cons m ms ih =>
    cases n with
    | zero => rfl
    | succ n =>
      show (Msg.text m :: (told [] ((speak ms).take n)).1, (told [] ((speak ms).take n)).2) = _
      rw [ih]
      rfl

theorem answers_speak (ms : List (List UInt8)) : answersTo greet (speak ms) = speak (ms.map (greeting ++ ·)) := by
  unfold answersTo
  rw [told_speak]
  show (conversation ms).flatMap greet = _
  induction ms with
  | nil => rfl
  | cons m ms ih =>
    show SendCall.text (some (greeting ++ m)) :: (conversation ms).flatMap greet = _
    rw [ih]
    rfl

theorem speech_speak (ms : List (List UInt8)) (h : ∀ m ∈ ms, m.length < 2 ^ 63) : Speech (ms.map fun m => .text (some m)) [.closeEmpty] := by
  refine ⟨?_, .inr ⟨_, rfl, trivial⟩, ?_⟩
  · clear h
    induction ms with
    | nil => trivial
    | cons m ms ih => exact ⟨rfl, ih⟩
  · intro c hc
    rcases List.mem_append.mp hc with hc | hc
    · obtain ⟨m, hm, rfl⟩ := List.mem_map.mp hc
      exact h m hm
    · rw [List.mem_singleton.mp hc]
      decide

theorem greeting_length : greeting.length = 19 := by decide

/-- The test is a dialogue. -/
theorem dialogue (baseA baseB : Env) (lA lB : Nat) (hA hB : Header) (ms : List (List UInt8)) (c : Conn) (sched : List IoOutcome) (out : OutStream) (hc : c.inp.bytes = []) (hs : ∀ m ∈ ms, m.length + 19 < 2 ^ 63) :
    Dialogue (ClientSocketListener.env baseA) (AsyncWebSocketListener.env baseB) lA 1024 lB 1024 (senderOps ms) greet pongs (client lA hA ms c) (server lB hB sched out) := by
  obtain ⟨⟨bytes, schedA⟩, outA⟩ := c
  subst hc
  refine ⟨?_, ?_, ⟨hA, rfl⟩, ⟨hB, rfl⟩, client_plain _, server_plain _, senderOps_plain ms, (C93_serves baseA).2, (C93_serves baseB).1, ?_, ?_, ?_, ?_, ?_⟩
  · refine C87_endpoint_async _ 0 lA 1024 true [.listener (some lA)] hA [.run (userTask (senderOps ms))] schedA outA (by decide) rfl rfl (plain_settings (client_plain _) _) ?_ ?_
    · intro t ht
      rw [List.mem_singleton.mp ht]
      intro co hco
      rw [List.mem_singleton.mp hco]
      refine ⟨trivial, fun u hu op hop => ?_⟩
      injection hu with hu
      subst hu
      obtain ⟨d, rfl⟩ := senderOps_plain ms op hop
      trivial
    · intro t ht
      rw [List.mem_singleton.mp ht]
      intro co hco
      rw [List.mem_singleton.mp hco]
      exact ⟨fun _ h => (by cases h), fun _ h => (by cases h)⟩
  · exact C69_async _ 0 lB 1024 [.listener (some lB)] hB [] sched out (by decide) rfl rfl (plain_settings (server_plain _) _) (fun _ h => (by cases h)) (fun _ h => (by cases h))
  · exact (socket_settings true [.listener (some lA)] _).2.2.2.1
  · exact (socket_settings false [.listener (some lB)] ⟨⟨[], sched⟩, out⟩).2.2.2.1
  · exact ⟨_, _, said_sender ms, speech_speak ms fun m hm => Nat.lt_of_le_of_lt (Nat.le_add_right ..) (hs m hm)⟩
  · rw [said_sender, answers_speak]
    refine ⟨_, _, rfl, speech_speak _ fun m hm => ?_⟩
    obtain ⟨x, hx, rfl⟩ := List.mem_map.mp hm
    rw [List.length_append, greeting_length, Nat.add_comm]
    exact hs x hx
  · rw [said_sender, answers_speak, told_speak]
    intro m hm
    rcases List.mem_append.mp hm with hm | hm
    · obtain ⟨x, -, rfl⟩ := List.mem_map.mp hm
      rfl
    · rw [List.mem_singleton.mp hm]
      rfl

theorem greet_take (ms : List (List UInt8)) (n : Nat) : ((conversation ms).take n).flatMap greet = (speak (ms.map (greeting ++ ·))).take n := by
  induction ms generalizing n with
  | nil => rcases n with _ | _ | n <;> rfl
  | cons m ms ih =>
    cases n with
    | zero => rfl
    | succ n =>
      show SendCall.text (some (greeting ++ m)) :: ((conversation ms).take n).flatMap greet = _
      rw [ih]
      rfl

theorem prefix_take {α : Type} {xs ys : List α} (h : xs <+: ys) : xs = ys.take xs.length ∧ xs.length ≤ ys.length := ⟨List.prefix_iff_eq_take.mp h, h.length_le⟩

theorem speak_data {ms : List (List UInt8)} {n : Nat} {c : SendCall} {d : List UInt8} (h : (speak ms)[n]? = some c) (hd : c.data = some d) : ms[n]? = some d := by
  induction ms generalizing n with
  | nil =>
    rcases n with _ | n
    · cases h
      cases hd
    · cases h
  | cons m ms ih =>
    cases n with
    | zero =>
      cases h
      exact hd
    | succ n => exact ih h

/-- What has been heard, if the calls are the first ones. -/
theorem upTo {ms : List (List UInt8)} {calls : List SendCall} {l n : Nat} {part : List UInt8} {evs : List Event} (hp : calls <+: speak ms) (h : HeardUpTo calls l n part evs) :
    n ≤ ms.length + 1 ∧ (reassemble [] evs).1 = (conversation ms).take n ∧ ((reassemble [] evs).2 = [] ∨ ∃ m, ms[n]? = some m ∧ (reassemble [] evs).2 <+: m) := by
  obtain ⟨e1, e2⟩ := prefix_take hp
  have hl : (speak ms).length = ms.length + 1 := by simp [speak]
  have ht : calls.take n = (speak ms).take n := by
    rw [e1, List.take_take, Nat.min_eq_left h.le]
  have hh := h.heard
  rw [ht, told_take] at hh
  refine ⟨by have := h.le; omega, by rw [hh], ?_⟩
  rw [hh]
  show [] ++ part = [] ∨ ∃ m, _ ∧ [] ++ part <+: m
  rw [List.nil_append]
  rcases h.part with hpt | ⟨c, d, h1, h2, h3⟩
  · exact .inl hpt
  · refine .inr ⟨d, speak_data ?_ h2, h3⟩
    obtain ⟨r, hr⟩ := hp
    rw [← hr, List.getElem?_append_left (List.getElem?_eq_some_iff.mp h1).1]
    exact h1

variable {baseA baseB : Env} {lA lB : Nat} {hA hB : Header} {ms : List (List UInt8)} {c : Conn} {sched : List IoOutcome} {out : OutStream} {logA logB : List Entry} {a b : Endpoint}

/-- A connection that gives and takes single bytes, and sometimes nothing. -/
def exSched (n : Nat) : List IoOutcome := .retry :: List.replicate n (.upTo 0)

theorem exSched_healthy (n : Nat) : Healthy n (exSched n) := by
  have := healthy_replicate n
  refine ⟨fun o ho => ?_, ?_⟩
  · rcases List.mem_cons.mp ho with rfl | ho
    · rfl
    · exact this.1 o ho
  · show n ≤ List.countP _ (IoOutcome.retry :: _)
    rw [List.countP_cons_of_neg (by decide)]
    exact this.2

def exConn (ms : List (List UInt8)) : Conn := ⟨⟨[], exSched (traffic ms)⟩, ⟨[], exSched (traffic ms)⟩⟩

theorem exSound (ms : List (List UInt8)) : Sound ms (exConn ms) (exSched (traffic ms)) ⟨[], exSched (traffic ms)⟩ := ⟨exSched_healthy _, exSched_healthy _, exSched_healthy _, exSched_healthy _⟩

/-- The application comes to rest. -/
theorem exRuns (base : Env) (ms : List (List UInt8)) : ∃ logA logB a b, Linked (ClientSocketListener.env base) (AsyncWebSocketListener.env base) (.tasks (client 1 default ms (exConn ms)))
    (.tasks (server 2 default (exSched (traffic ms)) ⟨[], exSched (traffic ms)⟩)) logA logB a b ∧ a.AtRest (ClientSocketListener.env base) ∧ b.AtRest (AsyncWebSocketListener.env base) := by
  obtain ⟨lA, lB, a, b, h, h1, h2⟩ := C68_comes_to_rest _ _ _ _ _ _ _ _ (Linked.refl (envA := ClientSocketListener.env base) (envB := AsyncWebSocketListener.env base)
    (a0 := .tasks (client 1 default ms (exConn ms))) (b0 := .tasks (server 2 default (exSched (traffic ms)) ⟨[], exSched (traffic ms)⟩)))
  exact ⟨_, _, a, b, h, h1, h2⟩

/-- The test with `n` messages comes to rest. -/
theorem exRun (base : Env) (n : Nat) : ∃ logA logB a b, Linked (ClientSocketListener.env base) (AsyncWebSocketListener.env base) (.tasks (client 1 default (testMessages n) (exConn (testMessages n))))
    (.tasks (server 2 default (exSched (traffic (testMessages n))) ⟨[], exSched (traffic (testMessages n))⟩)) logA logB a b ∧ a.AtRest (ClientSocketListener.env base) ∧ b.AtRest (AsyncWebSocketListener.env base) :=
  exRuns base (testMessages n)

theorem testMessages_short (n : Nat) : ∀ m ∈ testMessages n, m.length + 19 < 2 ^ 31 := by
  intro m hm
  rw [List.eq_of_mem_replicate hm]
  decide

/-- **C93** (any moment). At any moment, whatever the schedule and whatever fails, the server's listener has been told exactly the first `i` of the client's messages (the close counts as the last one), and the client's listener
exactly the greetings of the first `j` of those; what was told beyond that is a beginning of the next message's, or of the next greeting's, data. -/
theorem C93_any_moment (hc : c.inp.bytes = []) (hs : ∀ m ∈ ms, m.length + 19 < 2 ^ 63)
    (h : Linked (ClientSocketListener.env baseA) (AsyncWebSocketListener.env baseB) (.tasks (client lA hA ms c)) (.tasks (server lB hB sched out)) logA logB a b) :
    ∃ i j, j ≤ i ∧ i ≤ ms.length + 1 ∧ (∀ e ∈ b.st.sock.trace, e.to = lB) ∧ (∀ e ∈ a.st.sock.trace, e.to = lA) ∧
      (reassemble [] b.st.sock.trace).1 = (conversation ms).take i ∧ (reassemble [] a.st.sock.trace).1 = (conversation (ms.map (greeting ++ ·))).take j ∧
      ((reassemble [] b.st.sock.trace).2 = [] ∨ ∃ m, ms[i]? = some m ∧ (reassemble [] b.st.sock.trace).2 <+: m) ∧
      ((reassemble [] a.st.sock.trace).2 = [] ∨ ∃ m, ms[j]? = some m ∧ (reassemble [] a.st.sock.trace).2 <+: greeting ++ m) := by
  have d := dialogue baseA baseB lA lB hA hB ms c sched out hc hs
  obtain ⟨h1, h2, ⟨i, part, h3⟩, j, part', h4⟩ := d.moment h (d.oneSender h)
  rw [said_sender] at h1
  obtain ⟨k1, k2, k3⟩ := upTo h1 h3
  rw [k2, greet_take] at h2
  have h5 := h2.trans (List.take_prefix ..)
  obtain ⟨k4, k5, k6⟩ := upTo h5 h4
  refine ⟨i, j, ?_, k1, h3.to, h4.to, k2, k5, k3, ?_⟩
  · have := h4.le
    have := h2.length_le
    rw [List.length_take] at this
    omega
  · rcases k6 with k6 | ⟨m, k6, k7⟩
    · exact .inl k6
    · rw [List.getElem?_map] at k6
      obtain ⟨m0, k8, rfl⟩ := Option.map_eq_some_iff.mp k6
      exact .inr ⟨m0, k8, k7⟩

/-- Not vacuous: the project's test, with 5 messages, at the end of an execution. -/
example (base : Env) : ∃ a b : Endpoint, ∃ i j, j ≤ i ∧ i ≤ 5 + 1 ∧ (reassemble [] b.st.sock.trace).1 = (conversation (testMessages 5)).take i ∧ (reassemble [] a.st.sock.trace).1 = (conversation ((testMessages 5).map (greeting ++ ·))).take j := by
  obtain ⟨lA, lB, a, b, h, -⟩ := exRun base 5
  obtain ⟨i, j, h1, h2, -, -, h3, h4, -⟩ := C93_any_moment rfl (fun m hm => Nat.lt_of_lt_of_le (testMessages_short _ m hm) (by decide)) h
  exact ⟨a, b, i, j, h1, h2, h3, h4⟩

theorem traffic_speak (ms : List (List UInt8)) : atMost (speak ms) + 1 ≤ traffic ms := by
  have : ∀ xs : List (List UInt8), atMost (xs.map fun m => SendCall.text (some m)) ≤ (xs.map fun m => m.length + 33).sum := by
    intro xs
    induction xs with
    | nil => exact Nat.le_refl _
    | cons x xs ih =>
      show x.length + 14 + atMost _ ≤ (x.length + 33) + (xs.map fun m => m.length + 33).sum
      omega
  have h := this ms
  unfold speak traffic
  rw [atMost_append]
  show _ + (0 + 14 + 0) + 1 ≤ _
  omega

theorem traffic_greet (ms : List (List UInt8)) : atMost (speak (ms.map (greeting ++ ·))) + 1 ≤ traffic ms := by
  have : ∀ xs : List (List UInt8), atMost ((xs.map (greeting ++ ·)).map fun m => SendCall.text (some m)) ≤ (xs.map fun m => m.length + 33).sum := by
    intro xs
    induction xs with
    | nil => exact Nat.le_refl _
    | cons x xs ih =>
      show (greeting ++ x).length + 14 + atMost _ ≤ (x.length + 33) + (xs.map fun m => m.length + 33).sum
      rw [List.length_append, greeting_length]
      omega
  have h := this ms
  unfold speak traffic
  rw [atMost_append]
  show _ + (0 + 14 + 0) + 1 ≤ _
  omega

theorem short_speak {ms : List (List UInt8)} (h : ∀ m ∈ ms, m.length < 2 ^ 31) : ∀ c ∈ speak ms, c.content.2.2.length < 2 ^ 31 := by
  intro x hx
  rcases List.mem_append.mp hx with hx | hx
  · obtain ⟨m, hm, rfl⟩ := List.mem_map.mp hx
    exact h m hm
  · rw [List.mem_singleton.mp hx]
    decide

theorem sound_healthy (hs : ∀ m ∈ ms, m.length + 19 < 2 ^ 31) (hh : Sound ms c sched out) : Dialogue.Healthy (senderOps ms) greet (client lA hA ms c) (server lB hB sched out) := by
  refine ⟨⟨hh.clientReads.1, hh.clientWrites.1⟩, ⟨hh.serverReads.1, hh.serverWrites.1⟩, ?_, ?_⟩
  · rw [said_sender]
    exact short_speak fun m hm => Nat.lt_of_le_of_lt (Nat.le_add_right ..) (hs m hm)
  · rw [said_sender, answers_speak]
    refine short_speak fun m hm => ?_
    obtain ⟨x, hx, rfl⟩ := List.mem_map.mp hm
    rw [List.length_append, greeting_length, Nat.add_comm]
    exact hs x hx

/-- On such a connection, everything comes to rest as it should. -/
theorem rested (hc : c.inp.bytes = []) (hs : ∀ m ∈ ms, m.length + 19 < 2 ^ 31) (hh : Sound ms c sched out)
    (h : Linked (ClientSocketListener.env baseA) (AsyncWebSocketListener.env baseB) (.tasks (client lA hA ms c)) (.tasks (server lB hB sched out)) logA logB a b)
    (hr : a.AtRest (ClientSocketListener.env baseA) ∧ b.AtRest (AsyncWebSocketListener.env baseB)) :
    Together.Rested (ClientSocketListener.env baseA) (AsyncWebSocketListener.env baseB) (.tasks (client lA hA ms c)) (.tasks (server lB hB sched out)) logA logB a b := by
  have hs' : ∀ m ∈ ms, m.length + 19 < 2 ^ 63 := fun m hm => Nat.lt_of_lt_of_le (hs m hm) (by decide)
  have d := dialogue baseA baseB lA lB hA hB ms c sched out hc hs'
  obtain ⟨h1, h2, h3, -, -, h4, h5, h6, h7⟩ := d.healthy (sound_healthy hs hh) h
  rw [said_sender] at h4 h5 h6 h7
  rw [answers_speak] at h5 h6
  have t1 := traffic_speak ms
  have t2 := traffic_greet ms
  have i1 : traffic ms ≤ (client lA hA ms c).world.st.sock.out.sched.countP IoOutcome.moves := hh.clientWrites.2
  have i2 : traffic ms ≤ (server lB hB sched out).world.st.sock.out.sched.countP IoOutcome.moves := hh.serverWrites.2
  have i3 : traffic ms ≤ (client lA hA ms c).world.st.inp.sched.countP IoOutcome.moves := hh.clientReads.2
  have i4 : traffic ms ≤ (server lB hB sched out).world.st.inp.sched.countP IoOutcome.moves := hh.serverReads.2
  exact ⟨hr, ⟨h4 (by omega), h5 (by omega)⟩, ⟨h6 (by omega), h7 (by omega)⟩, h1, h2, h3⟩

/-- **C93** (all of it). When both sides have come to rest, and nothing of the connection has failed, the server's listener has been told all of the client's messages and its close, the client's listener all the greetings and the
server's close, each once, in order; both have finished listening (so the test goes on to `onFinishListen`), the sender has finished, and the client has counted as many messages as were sent. -/
theorem C93_complete (hc : c.inp.bytes = []) (hs : ∀ m ∈ ms, m.length + 19 < 2 ^ 63)
    (h : Linked (ClientSocketListener.env baseA) (AsyncWebSocketListener.env baseB) (.tasks (client lA hA ms c)) (.tasks (server lB hB sched out)) logA logB a b)
    (hr : Together.Rested (ClientSocketListener.env baseA) (AsyncWebSocketListener.env baseB) (.tasks (client lA hA ms c)) (.tasks (server lB hB sched out)) logA logB a b) :
    reassemble [] b.st.sock.trace = (conversation ms, []) ∧ reassemble [] a.st.sock.trace = (conversation (ms.map (greeting ++ ·)), []) ∧
      ClientSocketListener.state a.st.sock.trace = ([], ms.length) ∧
      (∃ p, a = .tasks p ∧ p.tasks = [.finished, .finished]) ∧ ∃ p, b = .tasks p ∧ p.tasks = [.finished] := by
  have d := dialogue baseA baseB lA lB hA hB ms c sched out hc hs
  have hsml : ∀ m ∈ ms, m.length < 2 ^ 63 := fun m hm => Nat.lt_of_le_of_lt (Nat.le_add_right ..) (hs m hm)
  have hsml' : ∀ m ∈ ms.map (greeting ++ ·), m.length < 2 ^ 63 := by
    intro m hm
    obtain ⟨x, hx, rfl⟩ := List.mem_map.mp hm
    rw [List.length_append, greeting_length, Nat.add_comm]
    exact hs x hx
  obtain ⟨h1, h2, h3, h4⟩ := d.complete h hr (said_sender ms) (speech_speak ms hsml) (by rw [said_sender, answers_speak]; rfl) (speech_speak _ hsml')
  obtain ⟨q, rfl, h5, -⟩ := d.sender_finished h hr
  have e1 := h1.heard
  have e2 := h3.heard
  rw [said_sender, told_speak] at e1
  rw [said_sender, answers_speak, told_speak] at e2
  have e3 : (Endpoint.tasks q).Ended (ClientSocketListener.env baseA) := by
    rcases h4 with ⟨_, h⟩ | ⟨h, _⟩
    · cases h
    · exact h
  have e4 : b.Ended (AsyncWebSocketListener.env baseB) := by
    rcases h2 with ⟨_, h⟩ | ⟨h, _⟩
    · cases h
    · exact h
  obtain ⟨q', hq', hl'⟩ := h.fed.1.tasks
  obtain ⟨p, hp, hl⟩ := h.fed.2.tasks
  subst hp
  injection hq' with hq'
  subst hq'
  have n1 : q.tasks.length = 2 := hl'.indices.1
  have n2 : p.tasks.length = 1 := hl.indices.1
  have e3 : q.tasks[0]? = some .finished := e3
  have e4 : p.tasks[0]? = some .finished := e4
  refine ⟨e1, e2, ?_, ⟨q, rfl, ?_⟩, p, rfl, ?_⟩
  · rw [C93_counter, e2]
    have : ∀ xs : List (List UInt8), dataMessages (conversation xs) = xs.length := by
      intro xs
      induction xs with
      | nil => rfl
      | cons x xs ih =>
        show dataMessages (Msg.text x :: conversation xs) = _
        unfold dataMessages at ih ⊢
        rw [List.filter_cons_of_pos rfl, List.length_cons, ih, List.length_cons]
    rw [this, List.length_map]
  · rcases hx : q.tasks with _ | ⟨x, _ | ⟨y, _ | ⟨z, r⟩⟩⟩
    all_goals rw [hx] at n1 e3 h5
    · cases n1
    · cases n1
    · cases e3
      cases h5
      rfl
    · simp at n1
  · rcases hx : p.tasks with _ | ⟨x, _ | ⟨y, r⟩⟩
    all_goals rw [hx] at n2 e4
    · cases n2
    · cases e4
      rfl
    · simp at n2

/-- Not vacuous: the project's test, with 5 messages, comes to rest like this. -/
example (base : Env) : ∃ logA logB a b, Linked (ClientSocketListener.env base) (AsyncWebSocketListener.env base) (.tasks (client 1 default (testMessages 5) (exConn (testMessages 5))))
    (.tasks (server 2 default (exSched (traffic (testMessages 5))) ⟨[], exSched (traffic (testMessages 5))⟩)) logA logB a b ∧
    Together.Rested (ClientSocketListener.env base) (AsyncWebSocketListener.env base) (.tasks (client 1 default (testMessages 5) (exConn (testMessages 5))))
    (.tasks (server 2 default (exSched (traffic (testMessages 5))) ⟨[], exSched (traffic (testMessages 5))⟩)) logA logB a b := by
  obtain ⟨lA, lB, a, b, h, hr⟩ := exRun base 5
  exact ⟨lA, lB, a, b, h, rested rfl (testMessages_short _) (exSound _) h hr⟩

/-- **C93** (nothing fails). If the connection does not fail, then at no moment, whatever the schedule, has anything failed: no send, no task, nothing undefined has happened. -/
theorem C93_nothing_fails (hc : c.inp.bytes = []) (hs : ∀ m ∈ ms, m.length + 19 < 2 ^ 31) (hh : Sound ms c sched out)
    (h : Linked (ClientSocketListener.env baseA) (AsyncWebSocketListener.env baseB) (.tasks (client lA hA ms c)) (.tasks (server lB hB sched out)) logA logB a b) :
    (∀ e ∈ logA, e.failed = false) ∧ (∀ e ∈ logB, e.failed = false) ∧ (∃ p, a = .tasks p ∧ ∀ o ∈ p.tasks, o = .finished ∨ ∃ t, o = .run t) ∧ ∃ p, b = .tasks p ∧ ∀ o ∈ p.tasks, o = .finished ∨ ∃ t, o = .run t := by
  have d := dialogue baseA baseB lA lB hA hB ms c sched out hc fun m hm => Nat.lt_of_lt_of_le (hs m hm) (by decide)
  obtain ⟨⟨h1, h2⟩, ⟨h3, h4⟩, -, h5, h6, -⟩ := d.healthy (sound_healthy hs hh) h
  obtain ⟨qa, rfl, hqa⟩ := h.fed.1.tasks
  obtain ⟨qb, rfl, hqb⟩ := h.fed.2.tasks
  have bA : ∀ o ∈ qa.tasks, o ≠ .blocked := hqa.not_blocked d.enoughA
  have bB : ∀ o ∈ qb.tasks, o ≠ .blocked := hqb.not_blocked d.enoughB
  refine ⟨h1, h2, ⟨qa, rfl, fun o ho => ?_⟩, qb, rfl, fun o ho => ?_⟩
  · cases o with
    | run t => exact .inr ⟨t, rfl⟩
    | finished => exact .inl rfl
    | failed e => exact absurd rfl (h5 qa rfl _ ho e)
    | ub u => exact absurd ho (h3 u)
    | blocked => exact absurd rfl (bA _ ho)
  · cases o with
    | run t => exact .inr ⟨t, rfl⟩
    | finished => exact .inl rfl
    | failed e => exact absurd rfl (h6 qb rfl _ ho e)
    | ub u => exact absurd ho (h4 u)
    | blocked => exact absurd rfl (bB _ ho)

/-- Not vacuous: the project's test, with 5 messages. -/
example (base : Env) : ∃ logA logB : List Entry, (∀ e ∈ logA, e.failed = false) ∧ ∀ e ∈ logB, e.failed = false := by
  obtain ⟨lA, lB, a, b, h, -⟩ := exRun base 5
  obtain ⟨h1, h2, -⟩ := C93_nothing_fails rfl (testMessages_short _) (exSound _) h
  exact ⟨lA, lB, h1, h2⟩

/-- **C93** (the test passes). If the connection does not fail, then any execution, whatever the schedule, can go on, does not go on forever (C68), and when neither side can make a step any more, the server's listener has been told all
the messages and the close, the client's listener all the greetings and the close, in order, each once; every task has finished, and the client has counted as many messages as were sent. -/
theorem C93_passes (hc : c.inp.bytes = []) (hs : ∀ m ∈ ms, m.length + 19 < 2 ^ 31) (hh : Sound ms c sched out)
    (h : Linked (ClientSocketListener.env baseA) (AsyncWebSocketListener.env baseB) (.tasks (client lA hA ms c)) (.tasks (server lB hB sched out)) logA logB a b)
    (hr : a.AtRest (ClientSocketListener.env baseA) ∧ b.AtRest (AsyncWebSocketListener.env baseB)) :
    reassemble [] b.st.sock.trace = (conversation ms, []) ∧ reassemble [] a.st.sock.trace = (conversation (ms.map (greeting ++ ·)), []) ∧
      ClientSocketListener.state a.st.sock.trace = ([], ms.length) ∧
      (∃ p, a = .tasks p ∧ p.tasks = [.finished, .finished]) ∧ ∃ p, b = .tasks p ∧ p.tasks = [.finished] := by
  exact C93_complete hc (fun m hm => Nat.lt_of_lt_of_le (hs m hm) (by decide)) h (rested hc hs hh h hr)

/-- Not vacuous: three messages, one of them empty. -/
example (base : Env) : ∃ a b : Endpoint, (reassemble [] b.st.sock.trace).1 = [.text [1, 2], .text [], .text [3], .close 0 []] ∧ ClientSocketListener.state a.st.sock.trace = ([], 3) := by
  obtain ⟨lA, lB, a, b, h, hr⟩ := exRuns base [[1, 2], [], [3]]
  obtain ⟨h1, h2, h3, -⟩ := C93_passes rfl (by decide) (exSound _) h hr
  exact ⟨a, b, by rw [h1]; rfl, h3⟩

/-- **C93** (the test itself). With `n` messages: the server has been told "hello!" `n` times and the close, the client "Hello from oatpp!: hello!" `n` times and the close, and its counter is `n`. -/
theorem C93_test (n : Nat) (hc : c.inp.bytes = []) (hh : Sound (testMessages n) c sched out)
    (h : Linked (ClientSocketListener.env baseA) (AsyncWebSocketListener.env baseB) (.tasks (client lA hA (testMessages n) c)) (.tasks (server lB hB sched out)) logA logB a b)
    (hr : a.AtRest (ClientSocketListener.env baseA) ∧ b.AtRest (AsyncWebSocketListener.env baseB)) :
    reassemble [] b.st.sock.trace = (List.replicate n (Msg.text greeted) ++ [.close 0 []], []) ∧
    reassemble [] a.st.sock.trace = (List.replicate n (Msg.text (greeting ++ greeted)) ++ [.close 0 []], []) ∧ ClientSocketListener.state a.st.sock.trace = ([], n) := by
  obtain ⟨h1, h2, h3, -⟩ := C93_passes hc (testMessages_short n) hh h hr
  have hg : helloMessage = greeted := by decide
  refine ⟨?_, ?_, ?_⟩
  · rw [h1, ← hg]; simp [conversation, testMessages]
  · rw [h2, ← hg]; simp [conversation, testMessages]
  · rw [h3]; simp [testMessages]

/-- Not vacuous: with any number of messages. -/
example (base : Env) (n : Nat) : ∃ a b : Endpoint, (reassemble [] b.st.sock.trace).1 = List.replicate n (Msg.text greeted) ++ [.close 0 []] ∧ ClientSocketListener.state a.st.sock.trace = ([], n) := by
  obtain ⟨lA, lB, a, b, h, hr⟩ := exRun base n
  obtain ⟨h1, -, h3⟩ := C93_test n rfl (exSound _) h hr
  exact ⟨a, b, by rw [h1], h3⟩

end OatWS.TestApp
