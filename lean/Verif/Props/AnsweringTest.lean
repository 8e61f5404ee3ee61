import Verif.Props.Answering
import Verif.Props.TestApp
/-! # C95: an echo server, and the project's own blocking test server -/

namespace OatWS.Together
open Network TestApp

variable {envA envB : Env} {fuelA fuelB lA BA lB BB : Nat} {c : OatWS.Client.Conn} {schedB : List IoOutcome} {outB : OutStream} {a0 b0 a b : Endpoint} {logA logB : List Async.Entry}

theorem notClosesLast {N : Nat} {calls : List SendCall} (h : Data N calls) : ¬ ClosesLast calls := by
  rintro ⟨c, hc, hl⟩
  rcases (h c (List.mem_of_getLast? hl)).1 with ⟨m, rfl⟩ | ⟨m, rfl⟩ <;> exact hc

/-- **C95** (an echo server). The server sends back messages of at most `N` bytes (below 2 GiB); the client has sent text and binary messages of at most so many. At any moment the messages the client's listener has been told completely are the first
ones it has sent, and no send has failed; at rest, on a connection that lasts, they are all that it has sent, and both wait for more. -/
theorem C95_echo {N : Nat} (hN : N < 2 ^ 31) (hc : c.inp.bytes = []) (hA : Client envA fuelA lA BA c a0) (hB : Answering envB fuelB lB BB (echo N) schedB outB b0) (hfA : a0.Enough fuelA) (hfB : b0.Enough fuelB)
    (hrA : Reliable a0) (hrB : Reliable b0) (h : Linked envA envB a0 b0 logA logB a b) (hser : Async.Serialised logA) (hd : Data N (Async.callsOf logA)) :
    (((∀ e ∈ logA, e.failed = false) ∧ ∀ e ∈ logB, e.failed = false) ∧ (a.Defined ∧ b.Defined) ∧ (reassemble [] a.st.sock.trace).1 <+: (Async.callsOf logA).map SendCall.msg) ∧
    (LastsFor a0 b0 (Async.callsOf logA) (Async.callsOf logA) → a.AtRest envA ∧ b.AtRest envB →
      reassemble [] a.st.sock.trace = ((Async.callsOf logA).map SendCall.msg, []) ∧ a.Waits ∧ b.Waits) := by
  have hN' : N < 2 ^ 63 := Nat.lt_trans hN (by decide)
  obtain ⟨e1, e2⟩ := hd.echoed
  have hs : Sayable (answersTo (echo N) (Async.callsOf logA)) := ⟨⟨_, [], (List.append_nil _).symm, e1.speech hN'⟩, fun c hc => Nat.lt_of_le_of_lt (e1 c hc).2 hN⟩
  have ho : Orderly logA := ⟨hser, _, [], (List.append_nil _).symm, hd.speech hN'⟩
  refine ⟨?_, fun hl hr => ?_⟩
  · obtain ⟨k1, k2, -, n, part, k4⟩ := C95_any_moment hc hA hB hfA hfB hrA hrB h ho hs
    refine ⟨k1, k2, ?_⟩
    rw [k4.heard, ← e2, show (answersTo (echo N) (Async.callsOf logA)).map SendCall.msg = (told [] (answersTo (echo N) (Async.callsOf logA))).1 by rw [e1.told]]
    exact told_prefix (List.take_prefix ..)
  · have hm : atMost (answersTo (echo N) (Async.callsOf logA)) = atMost (Async.callsOf logA) := by
      have key : ∀ cs ds : List SendCall, Data N cs → Data N ds → cs.map SendCall.msg = ds.map SendCall.msg → atMost cs = atMost ds := by
        intro cs
        induction cs with
        | nil => intro ds _ _ he; cases ds <;> first | rfl | cases he
        | cons x cs ih =>
          intro ds h1 h2 he
          cases ds with
          | nil => cases he
          | cons y ds =>
            injection he with he1 he2
            have := ih ds (fun z hz => h1 z (List.mem_cons_of_mem _ hz)) (fun z hz => h2 z (List.mem_cons_of_mem _ hz)) he2
            have hl : x.content.2.2.length = y.content.2.2.length := by
              rcases (h1 x (List.mem_cons_self ..)).1 with ⟨m, rfl⟩ | ⟨m, rfl⟩ <;> rcases (h2 y (List.mem_cons_self ..)).1 with ⟨m', rfl⟩ | ⟨m', rfl⟩ <;> first | (injection he1 with he1; exact congrArg List.length he1) | (injection he1)
            show _ + 14 + atMost cs = _ + 14 + atMost ds
            rw [hl, this]
      exact key _ _ e1 hd e2
    obtain ⟨-, ⟨-, k2⟩, k3, k4⟩ := C95_all_answered hc hA hB hfA hfB hrA hrB h ho hs ⟨hl.takesA, by rw [hm]; exact hl.takesB, by rw [hm]; exact hl.givesA, hl.givesB⟩ hr
    refine ⟨by rw [k3.heard, e1.told, e2], ?_, ?_⟩
    · exact k4.elim (fun x => x.1) fun x => absurd x.2 (notClosesLast e1)
    · exact k2.elim (fun x => x.1) fun x => absurd x.2 (notClosesLast hd)

/-- A text and a binary message come back. -/
example : ∃ a b logA logB, Linked exFrank exParrot exTalker exParrots logA logB a b ∧ reassemble [] a.st.sock.trace = ([.text [104], .binary [1, 2]], []) ∧ a.Waits ∧ b.Waits := by
  obtain ⟨a, b, logA, logB, hl, h1, h2, h3, h4⟩ := exParroted
  obtain ⟨-, k⟩ := C95_echo (c := exLine) (by decide) rfl exTalker_on exParrots_on exTalker_enough exParrots_enough exTalk_reliable.1 exTalk_reliable.2 hl h1 (by rw [h2]; exact exTalk_data)
  have := k (by rw [h2]; exact exTalk_lasts) ⟨h3, h4⟩
  rw [h2] at this
  exact ⟨a, b, logA, logB, hl, this⟩

theorem listener_state (acc : List UInt8) (tr : List Event) : tr.foldl (fun s e => (WebSocketListener.on s e).1) acc = (reassemble acc tr).2 := by
  induction tr generalizing acc with
  | nil => rfl
  | cons e tr ih =>
    rw [List.foldl_cons, ih]
    cases e with
    | readMessage l op d => cases d <;> rfl
    | _ => rfl

/-- **C95** (the blocking test's listener). Whatever callbacks are made, it answers every message it has been told completely with "Hello from oatpp! Your message was: " and the message, a ping with an empty pong, and sends nothing else. -/
theorem C95_test_listener (base : Env) : (WebSocketListener.env base).Serves replyTo := by
  intro tr e
  rw [react_of]
  unfold ListenerClass.state
  rw [show WebSocketListener.init = [] from rfl, listener_state]
  unfold completes
  cases e with
  | readMessage l op d =>
    cases d with
    | nil =>
      show [SendCall.text _] = ([Msg.data op (reassemble [] tr).2] : List Msg).flatMap replyTo
      rw [List.flatMap_singleton]
      unfold Msg.data
      split
      · rfl
      · split <;> rfl
    | cons x d => rfl
  | _ => rfl

/-- "hi" in two pieces is answered once, a ping at once. -/
example : (WebSocketListener.env Fixture.env).react [.readMessage 1 1 [104], .readMessage 1 1 [105], .readMessage 1 1 []] = [.send (.text (some (yours ++ [104, 105]))) false] ∧
    (WebSocketListener.env Fixture.env).react [.readMessage 1 1 [104], .onPing 1 [7]] = [.send (.pong (some [])) false] ∧ (WebSocketListener.env Fixture.env).react [.readMessage 1 1 [104]] = [] := ⟨rfl, rfl, rfl⟩

theorem listener_plain (base : Env) : Async.PlainEnv (WebSocketListener.env base) := by
  refine plain_env _ _ fun s e op hop => ?_
  cases e with
  | readMessage l o d =>
    cases d with
    | nil => exact ⟨_, List.mem_singleton.mp hop⟩
    | cons x d => cases hop
  | onPing l m => exact ⟨_, List.mem_singleton.mp hop⟩
  | onPong l m => cases hop
  | onClose l c m => cases hop

theorem threadedServer_answering (base : Env) (fuel l : Nat) (hd : Header) : Answering (WebSocketListener.env base) fuel l 1024 replyTo schedB outB (.threads (threadedServer (WebSocketListener.env base) fuel l hd schedB outB)) := by
  refine Answering.threads [.setListener (some l)] [] hd rfl rfl (by decide) (fun op hop => ?_) (fun op hop => (by cases hop)) rfl rfl (fun tr op hop => ?_) (C95_test_listener base)
  · rw [List.mem_singleton.mp hop]
    trivial
  · obtain ⟨d, hd⟩ := listener_plain base tr op hop
    exact ⟨d, false, hd⟩

/-- Texts, answered. -/
theorem answers_texts (ms : List (List UInt8)) : answersTo replyTo (speak ms) = ms.map fun m => .text (some (yours ++ m)) := by
  unfold answersTo
  rw [told_speak]
  show (conversation ms).flatMap replyTo = _
  induction ms with
  | nil => rfl
  | cons m ms ih =>
    show SendCall.text (some (yours ++ m)) :: (conversation ms).flatMap replyTo = _
    rw [ih]
    rfl

theorem yours_length : yours.length = 36 := by decide

/-! ## A concrete case: the blocking test's server on a slow line, and an async client that sends two texts and a close -/

def exTexts : List UserOp := [.send (.text (some [104])) false, .send (.text (some [105, 106])) false, .send .closeEmpty false]
def exLong : OatWS.Client.Conn := ⟨⟨[], Fixture.slow 150⟩, ⟨[], Fixture.slow 150⟩⟩
def exWriter : Endpoint := .tasks (OatWS.Client.tasks true [.listener (some 1), .config { readBufferSize := 30, maskOutgoingMessages := true }] default ([exTexts].map fun ops => .run (Async.userTask ops)) exLong)
def exTestEnv : Env := WebSocketListener.env Fixture.env
def exTestServer : Endpoint := .threads (threadedServer exTestEnv 400 7 default (Fixture.slow 150) ⟨[], Fixture.slow 150⟩)
def exTest := run exFrank exTestEnv (List.replicate 90 (false, 1) ++ List.replicate 420 (true, 0) ++ List.replicate 420 (false, 0)) [] [] exWriter exTestServer

theorem exTest_view : (Async.serialCheck none exTest.1, Async.callsOf exTest.1, restNow exFrank exTest.2.2.1, restNow exTestEnv exTest.2.2.2) =
    (true, [.text (some [104]), .text (some [105, 106]), .closeEmpty], true, true) := by decide +kernel

theorem exWriter_on : Client exFrank 400 1 30 exLong exWriter := by
  refine Client.tasks true _ default [exTexts] rfl rfl (by decide) (exFrank_keeps 1 30) fun ops ho op hop => ?_
  rw [List.mem_singleton.mp ho] at hop
  simp only [exTexts, List.mem_cons, List.not_mem_nil, or_false] at hop
  rcases hop with rfl | rfl | rfl
  · exact (show 1 < 2 ^ 31 by decide)
  · exact (show 2 < 2 ^ 31 by decide)
  · exact (show 0 < 2 ^ 31 by decide)

theorem exWriter_enough : exWriter.Enough 400 ∧ exTestServer.Enough 400 :=
  ⟨(fun o h => by simp only [OatWS.Client.tasks, List.map_cons, List.map_nil, List.mem_cons, List.not_mem_nil, or_false] at h; rcases h with rfl | rfl <;> exact fun e => (by cases e)), ⟨by decide +kernel, by decide +kernel⟩⟩

theorem exTest_reliable : Reliable exWriter ∧ Reliable exTestServer := ⟨⟨exSlow_fine 150, exSlow_fine 150⟩, exSlow_fine 150, exSlow_fine 150⟩

/-- **C95** (the blocking test's server). A client of the library (of either kind) sends the text messages `ms` and then a close to the blocking test's server, over a connection that does not fail and lasts. When it has come to rest, the server's
listener has heard exactly these, has answered each with "Hello from oatpp! Your message was: " and the message, in order, and has stopped listening; the client's listener has heard exactly these answers, and waits for more. -/
theorem C95_test_server (base : Env) (hd : Header) (ms : List (List UInt8)) (hm : ∀ m ∈ ms, m.length + 36 < 2 ^ 31) (hc : c.inp.bytes = []) (hA : Client envA fuelA lA BA c a0)
    (hb : b0 = .threads (threadedServer (WebSocketListener.env base) fuelB lB hd schedB outB)) (hfA : a0.Enough fuelA) (hfB : b0.Enough fuelB) (hrA : Reliable a0) (hrB : Reliable b0)
    (h : Linked envA (WebSocketListener.env base) a0 b0 logA logB a b) (hser : Async.Serialised logA) (hcalls : Async.callsOf logA = (ms.map fun m => .text (some m)) ++ [.closeEmpty])
    (hl : LastsFor a0 b0 (Async.callsOf logA) (ms.map fun m => .text (some (yours ++ m)))) (hrest : a.AtRest envA ∧ b.AtRest (WebSocketListener.env base)) :
    (∀ e ∈ logA, e.failed = false) ∧ (∀ e ∈ logB, e.failed = false) ∧ Async.callsOf logB = (ms.map fun m => .text (some (yours ++ m))) ∧
    (reassemble [] b.st.sock.trace = (ms.map Msg.text ++ [.close 0 []], []) ∧ Over b) ∧ reassemble [] a.st.sock.trace = (ms.map fun m => Msg.text (yours ++ m), []) ∧ a.Waits := by
  have hB := threadedServer_answering (schedB := schedB) (outB := outB) base fuelB lB hd
  rw [← hb] at hB
  have ht : Data (2 ^ 31 - 1) (ms.map fun m => .text (some (yours ++ m))) := by
    intro x hx
    obtain ⟨m, hm', rfl⟩ := List.mem_map.mp hx
    refine ⟨.inl ⟨_, rfl⟩, ?_⟩
    show (yours ++ m).length ≤ _
    rw [List.length_append, yours_length]
    have := hm m hm'
    omega
  have he : answersTo replyTo (Async.callsOf logA) = ms.map fun m => .text (some (yours ++ m)) := by rw [hcalls]; exact answers_texts ms
  have hs : Sayable (answersTo replyTo (Async.callsOf logA)) := by
    rw [he]
    exact ⟨⟨_, [], (List.append_nil _).symm, ht.speech (by decide)⟩, fun c hc => Nat.lt_of_le_of_lt (ht c hc).2 (by decide)⟩
  have ho : Orderly logA := ⟨hser, _, _, hcalls, speech_speak ms fun m hm' => (by have := hm m hm'; omega)⟩
  have hl' : LastsFor a0 b0 (Async.callsOf logA) (answersTo replyTo (Async.callsOf logA)) := by rw [he]; exact hl
  obtain ⟨⟨k1, k1'⟩, -, -, -⟩ := C95_any_moment hc hA hB hfA hfB hrA hrB h ho hs
  obtain ⟨k2, ⟨k3, k4⟩, k5, k6⟩ := C95_all_answered hc hA hB hfA hfB hrA hrB h ho hs hl' hrest
  have hcl : ClosesLast (Async.callsOf logA) := ⟨.closeEmpty, trivial, by rw [hcalls, List.getLast?_append]; rfl⟩
  rw [he] at k2 k5 k6
  refine ⟨k1, k1', k2, ⟨?_, ?_⟩, ?_, ?_⟩
  · rw [k3.heard, hcalls]; exact told_speak ms
  · exact k4.elim (fun x => absurd hcl x.2) fun x => x.1
  · rw [k5.heard, ht.told, List.map_map]; rfl
  · exact k6.elim (fun x => x.1) fun x => absurd x.2 (notClosesLast ht)

/-- The hypotheses are met: "h" and "ij" are answered. -/
example : ∃ a b logA logB, Linked exFrank exTestEnv exWriter exTestServer logA logB a b ∧ Async.callsOf logB = [.text (some (yours ++ [104])), .text (some (yours ++ [105, 106]))] ∧
    reassemble [] a.st.sock.trace = ([.text (yours ++ [104]), .text (yours ++ [105, 106])], []) ∧ Over b ∧ a.Waits := by
  have hl : Linked exFrank exTestEnv exWriter exTestServer exTest.1 exTest.2.1 exTest.2.2.1 exTest.2.2.2 := by
    unfold exTest
    exact run_linked _ .refl
  have hv := exTest_view
  generalize exTest.1 = logA, exTest.2.1 = logB, exTest.2.2.1 = a, exTest.2.2.2 = b at hl hv
  injection hv with h1 hv
  injection hv with h2 hv
  injection hv with h3 h4
  obtain ⟨-, -, k1, ⟨-, k2⟩, k3, k4⟩ := C95_test_server (c := exLong) (fuelB := 400) (lB := 7) (schedB := Fixture.slow 150) (outB := ⟨[], Fixture.slow 150⟩) Fixture.env default [[104], [105, 106]] (by decide) rfl exWriter_on rfl exWriter_enough.1 exWriter_enough.2 exTest_reliable.1 exTest_reliable.2 hl
    (Async.serialCheck_sound h1) h2 ⟨by rw [h2]; decide +kernel, by decide +kernel, by decide +kernel, by rw [h2]; decide +kernel⟩ ⟨restNow_sound h3, restNow_sound h4⟩
  exact ⟨a, b, logA, logB, hl, k1, k3, k2, k4⟩

end OatWS.Together
