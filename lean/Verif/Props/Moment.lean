import Verif.Proofs.AsyncMoment
import Verif.Proofs.SendFailed
/-! # C70: at any moment, whatever breaks -/

namespace OatWS.Network
open RFC6455 Async

/-- What an endpoint has written, if a send may have failed. -/
theorem Fed.sent_some {env : Env} {e0 e : Endpoint} {la fed} (h : Fed env e0 la fed e) {fuel : Nat} (hp : e0.App env fuel)
    (hser : Serialised la) (hres : Resigned la) (hsmall : ∀ c ∈ callsOf la, c.content.2.2.length < 2 ^ 63) :
    ∃ F, CarryAll env (callsOf la) F ∧ la.flatMap Entry.wrote <+: wireOf F := by
  cases e0 with
  | threads p =>
    obtain ⟨q, _, hq⟩ := h.threads
    obtain ⟨used, hl, _⟩ := hq.logged [] []
    have hp : ∀ t ∈ (Threads.withInp p (p.st.inp.bytes ++ fed ++ []) (used ++ [])).threads, Threads.AppThread env fuel t := hp
    exact (Threads.pool_inv env _ fuel hp la _ hl).lawful.wire_some hser hres hsmall
  | tasks p =>
    obtain ⟨q, _, hq⟩ := h.tasks
    obtain ⟨used, hl⟩ := hq.logged [] []
    have hp : ∀ t ∈ (Async.withInp p (p.world.st.inp.bytes ++ fed ++ []) (used ++ [])).tasks, Outcome.quiet t := hp
    exact (pool_lawful env _ hp la _ hl).wire_some hser hres hsmall

/-- What has been heard, at any moment. -/
theorem Fed.moment {env : Env} {e0 e : Endpoint} {log sent} (h : Fed env e0 log sent e) {fuel l B : Nat} (hB : e0.Listening env fuel l B) (hf : e0.Enough fuel) :
    ∃ got evs, got <+: sent ∧ e.st.sock.trace = e0.st.sock.trace ++ evs ∧ Threads.Hears l B got evs := by
  cases e0 with
  | threads p =>
    obtain ⟨q, rfl, hq⟩ := h.threads
    exact hq.moment hB fun t ht => (Threads.Listening.app hB t ht).live _ _ hf.1 hf.2
  | tasks p =>
    obtain ⟨q, rfl, hq⟩ := h.tasks
    exact hq.moment hB.1

/-- **C70.** Two endpoints of any kind are connected. At one of them (the sender) sends are serialised, the calls were messages, ended or not by a close; any send may have failed
(the connection may break at any byte), and nobody has called a send after that. At the other one (the receiver) one thread or task listens; reads and writes may fail, callbacks
may throw, send, and not have returned yet, listening may have been stopped or failed. At every moment its listener has heard exactly the messages of the first calls, in the order
of the calls, each once, unchanged, and at most a beginning of the data of the next one. -/
theorem C70_any_moment (envA envB : Env) (fuelA fuelB l B : Nat) (a0 b0 a b : Endpoint) (logA logB : List Entry)
    (hA : a0.App envA fuelA) (hB : b0.Listening envB fuelB l B) (hf : b0.Enough fuelB) (h : Linked envA envB a0 b0 logA logB a b)
    (hser : Serialised logA) (hres : Resigned logA) (cs last : List SendCall) (hc : callsOf logA = cs ++ last) (ht : Threads.Talk cs last) :
    ∃ evs n, b.st.sock.trace = b0.st.sock.trace ++ evs ∧ HeardSome (callsOf logA) l n evs := by
  obtain ⟨F, hF, hpre⟩ := h.fed.1.sent_some hA hser hres (by rw [hc]; exact ht.small)
  obtain ⟨got, evs, h1, h2, ds, r, evs', h3, h4, h5, h6⟩ := h.fed.2.moment hB hf
  rw [hc] at hF ⊢
  obtain ⟨n, hn⟩ := ht.heard_some hF (h1.trans hpre) h3 h4 h5 h6
  exact ⟨evs, n, h2, hn⟩

/-- **C70** (sessions). The same for the session of a threaded server, at every moment from before `onAfterCreate` to after `onBeforeDestroy`. -/
theorem C70_session (envA envB : Env) (fuelA fuelB l B : Nat) (a0 a b : Endpoint) (p0 : Threads.Pool) (created destroyed : List UserOp) (logA logB : List Entry)
    (hA : a0.App envA fuelA) (hB : Threads.Session envB fuelB l B created destroyed p0) (hf : (Endpoint.threads p0).Enough fuelB) (h : Linked envA envB a0 (.threads p0) logA logB a b)
    (hser : Serialised logA) (hres : Resigned logA) (cs last : List SendCall) (hc : callsOf logA = cs ++ last) (ht : Threads.Talk cs last) :
    ∃ evs n, b.st.sock.trace = p0.st.sock.trace ++ evs ∧ HeardSome (callsOf logA) l n evs := by
  obtain ⟨F, hF, hpre⟩ := h.fed.1.sent_some hA hser hres (by rw [hc]; exact ht.small)
  obtain ⟨q, e, hq⟩ := h.fed.2.threads
  subst e
  obtain ⟨got, evs, h1, h2, ds, r, evs', h3, h4, h5, h6⟩ := hq.session_moment hB fun t ht => (hB.app t ht).live _ _ hf.1 hf.2
  rw [hc] at hF ⊢
  obtain ⟨n, hn⟩ := ht.heard_some hF (h1.trans hpre) h3 h4 h5 h6
  exact ⟨evs, n, h2, hn⟩

/-! ## Example -/

/-- A client that sends a text and a binary message; the connection breaks in the middle of the second one. -/
def exCut : Endpoint := .threads
  ⟨[Threads.userOpsT Fixture.env 100 [.send (.text (some [7, 8])) true, .send (.binary (some [1, 2, 3, 4])) true]],
    { sock := Sock.new { maskOutgoingMessages := true } ⟨[], List.replicate 16 (.upTo 0) ++ [.retry, .broken]⟩, inp := ⟨[], []⟩ }⟩

def exCutRun := run Fixture.env exPolite (List.replicate 10 (true, 0) ++ List.replicate 200 (false, 0) ++ List.replicate 200 (true, 0)) [] [] exCut (.threads exHost)

def resignedNow : List Entry → Bool
  | [] => true
  | e :: y => (!e.failed || y.all fun x => x.called.isNone) && resignedNow y

theorem resignedNow_sound {log : List Entry} (h : resignedNow log = true) : Resigned log := by
  induction log with
  | nil => intro x e y hx; cases x <;> cases hx
  | cons e0 log ih =>
    unfold resignedNow at h
    simp only [Bool.and_eq_true, Bool.or_eq_true, Bool.not_eq_true', List.all_eq_true, Option.isNone_iff_eq_none] at h
    intro x e y hx hf
    cases x with
    | nil =>
      injection hx with h1 h2
      subst h1 h2
      rcases h.1 with h | h
      · rw [h] at hf; cases hf
      · exact h
    | cons x0 x =>
      injection hx with h1 h2
      exact ih h.2 x e y h2 hf

theorem exCut_client : (view exCutRun.1 exCutRun.2.2.1, resignedNow exCutRun.1) = (⟨true, false, [.text (some [7, 8]), .binary (some [1, 2, 3, 4])], [.failed, .completed], [],
    [], [129, 2, 1, 2], false⟩, true) := by decide +kernel

theorem exCut_host : exCutRun.2.2.2.st.sock.trace =
    [.readMessage 7 1 [7], .readMessage 7 1 [8], .readMessage 7 1 [], .readMessage 7 2 [1], .readMessage 7 2 [2]] := by decide +kernel

theorem exCut_app : exCut.App Fixture.env 100 := by
  intro t ht
  simp only [exCut, List.mem_singleton] at ht
  subst ht
  exact .code _

theorem exCut_talk : Threads.Talk [.text (some [7, 8]), .binary (some [1, 2, 3, 4])] [] := by
  refine ⟨?_, .inl rfl, ?_⟩ <;> intro c hc <;> simp only [List.append_nil, List.mem_cons, List.not_mem_nil, or_false] at hc <;> rcases hc with rfl | rfl
  · trivial
  · trivial
  · exact Nat.lt_of_le_of_lt (by decide : _ ≤ 4) (by decide)
  · exact Nat.lt_of_le_of_lt (by decide : _ ≤ 4) (by decide)

/-- The second send of the client has failed; the listener of the server's session has heard the first message and a beginning of the second one. -/
example : ∃ a b logA logB, Linked Fixture.env exPolite exCut (.threads exHost) logA logB a b ∧ callsOf logA = [.text (some [7, 8]), .binary (some [1, 2, 3, 4])] ∧
    (sendsOf 0 logA).map Sent.state = [.failed, .completed] ∧
    b.st.sock.trace = [.readMessage 7 1 [7], .readMessage 7 1 [8], .readMessage 7 1 [], .readMessage 7 2 [1], .readMessage 7 2 [2]] ∧
    HeardSome (callsOf logA) 7 1 b.st.sock.trace := by
  have hl : Linked Fixture.env exPolite exCut (.threads exHost) exCutRun.1 exCutRun.2.1 exCutRun.2.2.1 exCutRun.2.2.2 := by
    unfold exCutRun
    exact run_linked _ .refl
  have hA := exCut_client
  have hB := exCut_host
  generalize exCutRun.1 = logA, exCutRun.2.1 = logB, exCutRun.2.2.1 = a, exCutRun.2.2.2 = b at hl hA hB
  injection hA with hA hr
  injection hA with a1 a2 a3 a4 a5 a6 a7 a8
  obtain ⟨evs, n, h1, h2⟩ := C70_session Fixture.env exPolite 100 100 7 2 exCut a b exHost exCreated exDestroyed logA logB exCut_app exHost_session ⟨by decide, by decide⟩ hl
    (serialCheck_sound a1) (resignedNow_sound hr) _ _ (a3.trans (List.append_nil _).symm) exCut_talk
  have h1 : b.st.sock.trace = evs := h1
  subst h1
  have hn : n = 1 := by
    have := congrArg List.length h2.messages
    rw [List.length_map, List.length_take, a3, hB] at this
    have : 1 = min n 2 := this
    omega
  subst hn
  exact ⟨a, b, logA, logB, hl, a3, a4, hB, h2⟩

/-- The same client, connected to the asynchronous server of `exEnd`. -/
def exCutAsync := run Fixture.env Async.exEnv (List.replicate 20 (true, 1) ++ List.replicate 200 (false, 0) ++ List.replicate 100 (true, 0)) [] [] exCut exServer

theorem exCutAsync_client : (view exCutAsync.1 exCutAsync.2.2.1, resignedNow exCutAsync.1) = (⟨true, false, [.text (some [7, 8]), .binary (some [1, 2, 3, 4])], [.failed, .completed], [],
    [], [130, 3, 1, 2, 3], false⟩, true) := by decide +kernel

theorem exCutAsync_server : exCutAsync.2.2.2.st.sock.trace =
    [.readMessage 7 1 [7], .readMessage 7 1 [8], .readMessage 7 1 [], .readMessage 7 2 [1], .readMessage 7 2 [2]] := by decide +kernel

example : ∃ a b logA logB, Linked Fixture.env Async.exEnv exCut exServer logA logB a b ∧ callsOf logA = [.text (some [7, 8]), .binary (some [1, 2, 3, 4])] ∧
    (sendsOf 0 logA).map Sent.state = [.failed, .completed] ∧
    b.st.sock.trace = [.readMessage 7 1 [7], .readMessage 7 1 [8], .readMessage 7 1 [], .readMessage 7 2 [1], .readMessage 7 2 [2]] ∧
    HeardSome (callsOf logA) 7 1 b.st.sock.trace := by
  have hl : Linked Fixture.env Async.exEnv exCut exServer exCutAsync.1 exCutAsync.2.1 exCutAsync.2.2.1 exCutAsync.2.2.2 := by
    unfold exCutAsync
    exact run_linked _ .refl
  have hA := exCutAsync_client
  have hB := exCutAsync_server
  generalize exCutAsync.1 = logA, exCutAsync.2.1 = logB, exCutAsync.2.2.1 = a, exCutAsync.2.2.2 = b at hl hA hB
  injection hA with hA hr
  injection hA with a1 a2 a3 a4 a5 a6 a7 a8
  obtain ⟨evs, n, h1, h2⟩ := C70_any_moment Fixture.env Async.exEnv 100 40 7 2 exCut exServer a b logA logB exCut_app exServer_listening (by
      intro o ho
      simp only [exServer, List.mem_cons, List.not_mem_nil, or_false] at ho
      rcases ho with rfl | rfl <;> exact fun h => (by cases h)) hl
    (serialCheck_sound a1) (resignedNow_sound hr) _ _ (a3.trans (List.append_nil _).symm) exCut_talk
  have h1 : b.st.sock.trace = evs := h1
  subst h1
  have hn : n = 1 := by
    have := congrArg List.length h2.messages
    rw [List.length_map, List.length_take, a3, hB] at this
    have : 1 = min n 2 := this
    omega
  subst hn
  exact ⟨a, b, logA, logB, hl, a3, a4, hB, h2⟩

end OatWS.Network
