import Verif.Props.Session
import Verif.Proofs.ThreadMasks
import Verif.Proofs.SendLogOf
/-! # C78: all frames of an endpoint are masked, or none -/

namespace OatWS.Network
open RFC6455 Async

/-- From the key to the frame. -/
theorem masked_of {env : Env} {m : Bool} {s : Sent} (h : s.Sound env) (hk : s.KeyedAs m) : s.MaskedAs env m := by
  obtain ⟨f, h1, h2, h3, h4, h5⟩ := h
  by_cases hv : s.bytes ≠ [] ∨ s.state = .completed
  · refine ⟨f, h1, ?_, h3, h4, fun _ => h2⟩
    rw [h2, ← hk.2 hv]
    cases s.key <;> rfl
  · have hb : s.bytes = [] := Classical.byContradiction fun h => hv (.inl h)
    refine ⟨{ f with maskKey := if m then some (maskBytesAt env 0) else none }, ⟨h1.fin, h1.opcode, h1.rsv, h1.payload, ?_⟩, ?_, ?_, fun h => absurd (.inr h) hv, fun h => absurd h hv⟩
    · cases m
      · exact .inl rfl
      · exact .inr ⟨0, rfl⟩
    · cases m <;> rfl
    · rw [hb]; exact List.nil_prefix

/-- What is known about the record of an endpoint that masks as `m`. -/
structure MaskLog (env : Env) (m : Bool) (log : List Entry) : Prop where
  sends : ∀ i, ∀ s ∈ sendsOf i log, Small s.call → s.MaskedAs env m
  keys : m = false → drawn log = []
  fresh : (drawn log).Pairwise fun a b => a + 4 ≤ b
  lawful : Lawful env log

theorem no_keys {m : Bool} {log : List Entry} (h : ∀ i, (sendsOf i log).reverse.filterMap Sent.key = drawn (log.filter fun e => e.task == i))
    (hk : ∀ i, ∀ s ∈ sendsOf i log, s.KeyedAs m) (hm : m = false) : drawn log = [] := by
  cases hd : drawn log with
  | nil => rfl
  | cons a as =>
    have ha : a ∈ drawn log := by rw [hd]; exact List.mem_cons_self ..
    unfold drawn at ha
    obtain ⟨e, he, hea⟩ := List.mem_filterMap.mp ha
    have : a ∈ drawn (log.filter fun x => x.task == e.task) := List.mem_filterMap.mpr ⟨e, List.mem_filter.mpr ⟨he, by simp⟩, hea⟩
    rw [← h e.task] at this
    obtain ⟨s, hs, hsa⟩ := List.mem_filterMap.mp this
    have := (hk e.task s (List.mem_reverse.mp hs)).1 (by rw [hsa]; rfl)
    rw [hm] at this
    cases this

theorem Fed.maskLog {env : Env} {fuel : Nat} {m : Bool} {e0 e : Endpoint} {log fed} (h : Fed env e0 log fed e) (hp : e0.MasksAs env fuel m) : MaskLog env m log := by
  cases e0 with
  | threads p =>
    obtain ⟨q, rfl, hq⟩ := h.threads
    obtain ⟨used, hl, -⟩ := hq.logged [] []
    have hcode : ∀ t ∈ p.threads, Threads.CodeOf (UserOp.MasksAs m) env fuel t := hp.code
    have hI := Threads.pool_inv env _ fuel (fun (t : Threads.Prog Unit) (ht : t ∈ (Threads.withInp p (p.st.inp.bytes ++ fed ++ []) (used ++ [])).threads) => (hcode t ht).app) _ _ hl
    have hk := Threads.key_inv m env (Threads.withInp p (p.st.inp.bytes ++ fed ++ []) (used ++ [])) (fun t ht => (hcode t ht).keyOk hp.callbacks) hp.config _ _ hl
    exact ⟨fun i s hs hsm => masked_of (hI.lawful.sound i s hs hsm) (hk.sends i s hs), no_keys (fun i => (hI.keys i).symm) hk.sends, hI.rng.2.2, hI.lawful⟩
  | tasks p =>
    obtain ⟨q, rfl, hq⟩ := h.tasks
    obtain ⟨used, hl⟩ := hq.logged [] []
    have hcode : ∀ o ∈ p.tasks, ∃ t, o = .run t ∧ Async.TaskOf (UserOp.MasksAs m) env t := hp.code
    have quiet : ∀ o ∈ p.tasks, Outcome.quiet o := fun o ho => by
      obtain ⟨t, rfl, ht⟩ := hcode o ho
      exact ht.quiet
    have hI := Async.pool_inv env (Async.withInp p (p.world.st.inp.bytes ++ fed ++ []) (used ++ [])) quiet _ _ hl
    have hlaw := Async.pool_lawful env (Async.withInp p (p.world.st.inp.bytes ++ fed ++ []) (used ++ [])) quiet _ _ hl
    have hk := Async.key_inv hp.callbacks (Async.withInp p (p.world.st.inp.bytes ++ fed ++ []) (used ++ [])) quiet (fun o ho => by
      obtain ⟨t, rfl, ht⟩ := hcode o ho
      exact ht.only) hp.config _ _ hl
    exact ⟨fun i s hs hsm => masked_of (hlaw.sound i s hs hsm) (hk.sends i s hs), no_keys (fun i => (hI.keys i).symm) hk.sends, hI.rng.2.2, hlaw⟩

theorem Fed.prefix {env : Env} {e0 e : Endpoint} {log fed} (h : Fed env e0 log fed e) : ∀ a b, log = a ++ b → ∃ fed' e', Fed env e0 a fed' e' := by
  induction h with
  | refl =>
    intro a b hab
    obtain ⟨rfl, -⟩ := List.append_eq_nil_iff.mp hab.symm
    exact ⟨_, _, .refl⟩
  | own h hs ih =>
    intro a b hab
    rcases List.eq_nil_or_concat b with rfl | ⟨b', x, rfl⟩
    · rw [List.append_nil] at hab
      rw [← hab]
      exact ⟨_, _, .own h hs⟩
    · rw [List.concat_eq_append, ← List.append_assoc] at hab
      exact ih a b' (List.append_inj_left' hab rfl)
  | feed bs h ih => exact ih

/-- **C78.** Two endpoints are connected; the left one has a socket that was created to mask what it sends (`m = true`, as a client must), or not to mask it (`m = false`, as a server must), and nobody
changes this. Whatever its threads or tasks and the other endpoint do, in any order, and whatever the connections do: the bytes of every send, from whatever thread, task or callback, are those of
a frame with MASK bit `m` that carries its message, from the beginning, all of them when it is completed. If it does not mask, nothing is ever taken from the random source; if it does,
each frame has its own four bytes of it, taken behind those of all keys before. -/
theorem C78_masks (envA envB : Env) (fuel : Nat) (m : Bool) (a0 b0 a b : Endpoint) (logA logB : List Entry) (hA : a0.MasksAs envA fuel m)
    (h : Linked envA envB a0 b0 logA logB a b) :
    (∀ i, ∀ s ∈ sendsOf i logA, s.call.content.2.2.length < 2 ^ 63 → s.MaskedAs envA m) ∧
    (m = false → drawn logA = []) ∧ (drawn logA).Pairwise fun x y => x + 4 ≤ y :=
  let hl := h.fed.1.maskLog hA
  ⟨hl.sends, hl.keys, hl.fresh⟩

/-- **C78** (constructors). The same for a socket made with `WebSocket(connection, m)` or `AsyncWebSocket(connection, m)`, `l` being the listener that was then installed. -/
theorem C78_created (envA envB : Env) (fuel : Nat) (m : Bool) (l : Option Nat) (out : OutStream) (inp : InStream) (b0 a b : Endpoint) (logA logB : List Entry) (hm : envA.MasksAs m) :
    (∀ threads, (∀ q ∈ threads, Threads.CodeOf (UserOp.MasksAs m) envA fuel q) →
      Linked envA envB (.threads ⟨threads, { sock := { Sock.newMask m out with listener := l }, inp := inp }⟩) b0 logA logB a b →
      ∀ i, ∀ s ∈ sendsOf i logA, s.call.content.2.2.length < 2 ^ 63 → s.MaskedAs envA m) ∧
    (∀ tasks, (∀ o ∈ tasks, ∃ t, o = .run t ∧ Async.TaskOf (UserOp.MasksAs m) envA t) →
      Linked envA envB (.tasks ⟨tasks, { st := { sock := { Sock.newMask m out with listener := l }, inp := inp } }⟩) b0 logA logB a b →
      ∀ i, ∀ s ∈ sendsOf i logA, s.call.content.2.2.length < 2 ^ 63 → s.MaskedAs envA m) :=
  ⟨fun _ hc h => (C78_masks envA envB fuel m _ b0 a b logA logB ⟨hc, hm, rfl⟩ h).1, fun _ hc h => (C78_masks envA envB fuel m _ b0 a b logA logB ⟨hc, hm, rfl⟩ h).1⟩

/-- **C78** (the connection as a whole). If sends are serialised and none has failed, what the endpoint has put on the connection is a sequence of whole frames, one for each call, in the order of the calls,
and perhaps a beginning of one more; all of them have MASK bit `m`. -/
theorem C78_wire (envA envB : Env) (fuel : Nat) (m : Bool) (a0 b0 a b : Endpoint) (logA logB : List Entry) (hA : a0.MasksAs envA fuel m)
    (h : Linked envA envB a0 b0 logA logB a b) (hser : Serialised logA) (hok : ∀ e ∈ logA, e.failed = false)
    (hsmall : ∀ c ∈ callsOf logA, c.content.2.2.length < 2 ^ 63) :
    (∃ fs, CarryAll envA (callsOf logA) fs ∧ (∀ f ∈ fs, f.maskKey.isSome = m) ∧ logA.flatMap Entry.wrote = wireOf fs) ∨
    (∃ cs c fs f part, callsOf logA = cs ++ [c] ∧ CarryAll envA cs fs ∧ (∀ f ∈ fs, f.maskKey.isSome = m) ∧ Carries envA c f ∧ f.maskKey.isSome = m ∧ part <+: f.encode ∧
      logA.flatMap Entry.wrote = wireOf fs ++ part) := by
  have hl := h.fed.1.maskLog hA
  have hK : ∀ a b, logA = a ++ b → ∀ i, ∀ s ∈ sendsOf i a, Small s.call → ∃ f, (Carries envA s.call f ∧ f.maskKey.isSome = m) ∧ s.bytes <+: f.encode ∧
      (s.state = .completed → s.bytes = f.encode) := by
    intro a b hab i s hs hsm
    obtain ⟨fed', e', hf⟩ := h.fed.1.prefix a b hab
    obtain ⟨f, h1, h2, h3, h4, -⟩ := (hf.maskLog hA).sends i s hs hsm
    exact ⟨f, ⟨h1, h2⟩, h3, h4⟩
  rcases hl.lawful.wire_of (fun c f => Carries envA c f ∧ f.maskKey.isSome = m) hser hok hsmall hK with ⟨fs, h1, -, h3⟩ | ⟨cs, c, fs, f, part, j, h1, h2, h3, h4, -, -, h7⟩
  · exact .inl ⟨fs, h1.both.1, h1.both.2, h3⟩
  · exact .inr ⟨cs, c, fs, f, part, h1, h2.both.1, h2.both.2, h3.1, h3.2, h4, h7⟩

/-- **C78** (as RFC 6455, 5.1, asks for). A client whose socket was created with masking and a server whose connection handler has made the socket: every frame from the client to the server is masked, no frame
from the server to the client is. -/
theorem C78_client_and_server (envA envB : Env) (fuel fuelB : Nat) (a0 a b : Endpoint) (created destroyed : List UserOp) (hd : Header) (others : List (Threads.Prog Unit)) (inp : InStream) (out : OutStream)
    (logA logB : List Entry) (hA : a0.MasksAs envA fuel true) (hB : envB.MasksAs false) (h1 : ∀ op ∈ created ++ destroyed, op.MasksAs false)
    (h2 : ∀ q ∈ others, Threads.CodeOf (UserOp.MasksAs false) envB fuelB q)
    (h : Linked envA envB a0 (.threads (Threads.newSession envB fuelB created hd destroyed others inp out)) logA logB a b) :
    (∀ i, ∀ s ∈ sendsOf i logA, s.call.content.2.2.length < 2 ^ 63 → s.MaskedAs envA true) ∧
    (∀ i, ∀ s ∈ sendsOf i logB, s.call.content.2.2.length < 2 ^ 63 → s.MaskedAs envB false) := by
  refine ⟨(C78_masks envA envB fuel true a0 _ a b logA logB hA h).1, (C78_masks envB envA fuelB false _ a0 b a logB logA ⟨fun q hq => ?_, hB, rfl⟩ h.swap).1⟩
  rcases List.mem_cons.mp hq with rfl | hq
  · exact .bind (.helper (.code _ fun op ho => h1 op (List.mem_append_left _ ho))) fun _ => .bind (.listen hd) fun _ =>
      .helper (.code _ fun op ho => h1 op (List.mem_append_right _ ho))
  · exact h2 q hq

/-- **C78** (the async server). The same when the connection handler is the async one. -/
theorem C78_client_and_async_server (envA envB : Env) (fuel : Nat) (a0 a b : Endpoint) (created : List Setting) (hd : Header) (others : List Outcome) (inp : InStream) (out : OutStream)
    (logA logB : List Entry) (hA : a0.MasksAs envA fuel true) (hB : envB.MasksAs false) (h1 : ∀ c, .config c ∈ created → c.maskOutgoingMessages = false)
    (h2 : ∀ o ∈ others, ∃ t, o = .run t ∧ Async.TaskOf (UserOp.MasksAs false) envB t)
    (h : Linked envA envB a0 (.tasks (Async.newSession created hd others inp out)) logA logB a b) :
    (∀ i, ∀ s ∈ sendsOf i logA, s.call.content.2.2.length < 2 ^ 63 → s.MaskedAs envA true) ∧
    (∀ i, ∀ s ∈ sendsOf i logB, s.call.content.2.2.length < 2 ^ 63 → s.MaskedAs envB false) := by
  have hc : ∀ (cs : List Setting) (s : Sock), s.config.maskOutgoingMessages = false → (∀ c, .config c ∈ cs → c.maskOutgoingMessages = false) →
      (cs.foldl Setting.apply s).config.maskOutgoingMessages = false := by
    intro cs
    induction cs with
    | nil => exact fun _ h _ => h
    | cons c cs ih =>
      intro s hs hcs
      rw [List.foldl_cons]
      refine ih _ ?_ fun x hx => hcs x (List.mem_cons_of_mem _ hx)
      cases c with
      | listener l => exact hs
      | config c => exact hcs c (List.mem_cons_self ..)
  refine ⟨(C78_masks envA envB fuel true a0 _ a b logA logB hA h).1, (C78_masks envB envA 0 false _ a0 b a logB logA ⟨fun o ho => ?_, hB, hc created _ rfl h1⟩ h.swap).1⟩
  rcases List.mem_cons.mp ho with rfl | ho
  · exact ⟨_, rfl, .listen hd⟩
  · exact h2 o ho

/-! ## Examples -/

theorem exGuest_masks : exGuest.MasksAs Fixture.env 100 true := by
  refine ⟨fun q hq => ?_, fun _ _ h => (by cases h), rfl⟩
  simp only [List.mem_cons, List.not_mem_nil, or_false] at hq
  rcases hq with rfl | rfl
  · exact .listen _
  · refine .helper (.code _ fun op h => ?_)
    simp only [List.mem_cons, List.not_mem_nil, or_false] at h
    rcases h with rfl | rfl | rfl <;> trivial

/-- What the client and the server of `exVisit` have sent: keys, and the second byte of each frame (MASK bit and length). -/
theorem exVisit_keys : ((sendsOf 1 exVisit.1).map fun s => (s.key, s.bytes.take 2), (sendsOf 0 exVisit.2.1).map fun s => (s.key, s.bytes.take 2), drawn exVisit.1) =
    ([(some 8, [0x88, 0x82]), (some 4, [0x89, 0x81]), (some 0, [0x81, 0x82])], [(none, [0x88, 0x00]), (none, [0x8a, 0x01]), (none, [0x81, 0x02])], [0, 4, 8]) := by
  decide +kernel

/-- The hypotheses of `C78_masks`, `C78_client_and_server` and `C78_wire` are met by a whole session: three masked frames from the client, three frames from the server (one of them sent in a callback) that are not. -/
example : ∃ a b logA logB, exGuest.MasksAs Fixture.env 100 true ∧ exPolite.MasksAs false ∧ (∀ op ∈ exCreated ++ exDestroyed, op.MasksAs false) ∧
    Linked Fixture.env exPolite exGuest (.threads (Threads.newSession exPolite 100 exCreated default exDestroyed [] ⟨[], Fixture.slow 40⟩ ⟨[], Fixture.slow 30⟩)) logA logB a b ∧
    (sendsOf 1 logA).length = 3 ∧ (sendsOf 0 logB).length = 3 ∧ drawn logA = [0, 4, 8] ∧ Serialised logA ∧ (∀ e ∈ logA, e.failed = false) := by
  have hl : Linked Fixture.env exPolite exGuest (.threads exHost) exVisit.1 exVisit.2.1 exVisit.2.2.1 exVisit.2.2.2 := by
    unfold exVisit
    exact run_linked _ .refl
  have hk := exVisit_keys
  have hA := exVisit_guest
  generalize exVisit.1 = logA, exVisit.2.1 = logB, exVisit.2.2.1 = a, exVisit.2.2.2 = b at hl hk hA
  injection hk with k1 hk
  injection hk with k2 k3
  injection hA with hA ar ad aw al
  injection hA with a1 a2 a3 a4 a5 a6 a7 a8
  refine ⟨a, b, logA, logB, exGuest_masks, fun tr op h => ?_, fun op h => ?_, hl, ?_, ?_, k3, serialCheck_sound a1, fun e he => ?_⟩
  · obtain ⟨m, rfl⟩ := exPolite_react tr op h; trivial
  · simp only [exCreated, exDestroyed, List.cons_append, List.nil_append, List.mem_cons, List.not_mem_nil, or_false] at h
    rcases h with rfl | rfl | rfl | rfl <;> trivial
  · simpa using congrArg List.length k1
  · simpa using congrArg List.length k2
  · have := List.all_eq_true.mp a2 e he
    simp at this
    exact this.1

/-- The same for tasks: a listening task and one that sends masked messages, with a server session of the async handler. -/
def exTaskGuest : Endpoint := .tasks
  ⟨[.run (listenTask default), .run (userTask [.send (.text (some [7, 8])) true, .send (.ping (some [0x21])) true])],
    { st := { sock := { Sock.new { readBufferSize := 2, maskOutgoingMessages := true } ⟨[], Fixture.slow 30⟩ with listener := some 1 }, inp := ⟨[], Fixture.slow 30⟩ } }⟩

def exTaskHost : Async.Pool := Async.newSession [.listener (some 3), .config { readBufferSize := 2 }, .listener (some 7)] default [] ⟨[], Fixture.slow 40⟩ ⟨[], Fixture.slow 30⟩

def exTaskVisit := run Fixture.env exPolite (List.replicate 40 (false, 1) ++ List.replicate 120 (true, 0) ++ List.replicate 60 (false, 1)++ List.replicate 120 (true, 0)) [] [] exTaskGuest (.tasks exTaskHost)

theorem exTaskVisit_keys : ((sendsOf 1 exTaskVisit.1).map fun s => (s.key, s.bytes.take 2, s.state), (sendsOf 0 exTaskVisit.2.1).map fun s => (s.key, s.bytes.take 2, s.state), drawn exTaskVisit.1) =
    ([(some 4, [0x89, 0x81], .completed), (some 0, [0x81, 0x82], .completed)], [(none, [0x8a, 0x01], .completed)], [0, 4]) := by
  decide +kernel

example : ∃ a b logA logB, exTaskGuest.MasksAs Fixture.env 0 true ∧ exPolite.MasksAs false ∧
    Linked Fixture.env exPolite exTaskGuest (.tasks (Async.newSession [.listener (some 3), .config { readBufferSize := 2 }, .listener (some 7)] default [] ⟨[], Fixture.slow 40⟩ ⟨[], Fixture.slow 30⟩))
      logA logB a b ∧ (sendsOf 1 logA).length = 2 ∧ (sendsOf 0 logB).length = 1 ∧ drawn logA = [0, 4] := by
  have hl : Linked Fixture.env exPolite exTaskGuest (.tasks exTaskHost) exTaskVisit.1 exTaskVisit.2.1 exTaskVisit.2.2.1 exTaskVisit.2.2.2 := by
    unfold exTaskVisit
    exact run_linked _ .refl
  have hk := exTaskVisit_keys
  generalize exTaskVisit.1 = logA, exTaskVisit.2.1 = logB, exTaskVisit.2.2.1 = a, exTaskVisit.2.2.2 = b at hl hk
  injection hk with k1 hk
  injection hk with k2 k3
  refine ⟨a, b, logA, logB, ⟨fun o ho => ?_, fun _ _ h => (by cases h), rfl⟩, fun tr op h => ?_, hl, ?_, ?_, k3⟩
  · simp only [List.mem_cons, List.not_mem_nil, or_false] at ho
    rcases ho with rfl | rfl
    · exact ⟨_, rfl, .listen _⟩
    · refine ⟨_, rfl, .user _ fun op h => ?_⟩
      simp only [List.mem_cons, List.not_mem_nil, or_false] at h
      rcases h with rfl | rfl <;> trivial
  · obtain ⟨m, rfl⟩ := exPolite_react tr op h; trivial
  · simpa using congrArg List.length k1
  · simpa using congrArg List.length k2

def exMade : Endpoint := .threads ⟨[Threads.userOpsT Fixture.env 100 [.send (.text (some [7])) true]], { sock := { Sock.newMask true ⟨[], Fixture.slow 9⟩ with listener := some 1 }, inp := ⟨[], []⟩ }⟩

def exNobody : Endpoint := .threads ⟨[], { sock := Sock.newMask false ⟨[], []⟩, inp := ⟨[], []⟩ }⟩

def exMadeRun := run Fixture.env Fixture.env (List.replicate 40 (false, 0)) [] [] exMade exNobody

theorem exMadeRun_sends : ((sendsOf 0 exMadeRun.1).map fun s => (s.state, s.bytes.take 2)) = [(.completed, [0x81, 0x81])] := by decide +kernel

/-- The hypotheses of `C78_created` are met: a client made with `WebSocket(connection, true)` that sends a text message. -/
example : ∃ logA logB a b, Linked Fixture.env Fixture.env
      (.threads ⟨[Threads.userOpsT Fixture.env 100 [.send (.text (some [7])) true]], { sock := { Sock.newMask true ⟨[], Fixture.slow 9⟩ with listener := some 1 }, inp := ⟨[], []⟩ }⟩) exNobody logA logB a b ∧
    Threads.CodeOf (UserOp.MasksAs true) Fixture.env 100 (Threads.userOpsT Fixture.env 100 [.send (.text (some [7])) true]) ∧ Fixture.env.MasksAs true ∧
    (sendsOf 0 logA).map (fun s => (s.state, s.bytes.take 2)) = [(.completed, [0x81, 0x81])] := by
  have hl : Linked Fixture.env Fixture.env exMade exNobody exMadeRun.1 exMadeRun.2.1 exMadeRun.2.2.1 exMadeRun.2.2.2 := by
    unfold exMadeRun
    exact run_linked _ .refl
  refine ⟨_, _, _, _, hl, .helper (.code _ fun op h => ?_), fun _ _ h => (by cases h), exMadeRun_sends⟩
  rw [List.mem_singleton.mp h]
  trivial

end OatWS.Network
