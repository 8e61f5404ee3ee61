import Verif.Spec.ProcessRest
import Verif.Props.ProcessWaits
import Verif.Props.AsyncProcess
import Verif.Proofs.ProcessOrder
/-! # C83: a process with several sockets that has come to rest has said and heard everything -/

namespace OatWS.Process
open RFC6455 Async Network

/-- As `C71_all_heard`, for a sender that is not in the middle of a send. -/
theorem all_heard {envA envB : Env} {fuelA fuelB l B : Nat} {a0 b0 a b : Endpoint} {logA logB : List Entry}
    (hA : a0.App envA fuelA) (hB : b0.Listening envB fuelB l B) (hfB : b0.Enough fuelB) (h : Linked envA envB a0 b0 logA logB a b)
    (hser : Serialised logA) (hok : ∀ e ∈ logA, e.failed = false) {cs last : List SendCall} (hc : callsOf logA = cs ++ last) (ht : Speech cs last)
    (hns : ∀ j, ¬ Sending j logA) (hrB : b.AtRest envB) (hwB : b.Writable) (hrdB : b.Readable) (hn : Endpoint.Unbroken envB b0 b) :
    ∃ evs, b.st.sock.trace = b0.st.sock.trace ++ evs ∧ HeardWhole (callsOf logA) l evs ∧ ((b.Waits ∧ last = []) ∨ (b.Ended envB ∧ last ≠ [])) := by
  obtain ⟨F, hF, hpre, hall⟩ := h.fed.1.sent hA hser hok (by rw [hc]; exact ht.small)
  rw [hc] at hF ⊢
  rcases h.fed.2.listening hB hfB hrB hn hwB hrdB with ⟨h1, h2⟩ | ⟨h1, h2⟩
  · obtain ⟨got, ds, r, evs, g1, g2, g3, g4, g5, g6, g7⟩ := h.fed.2.heard hB (.inl h1)
    obtain ⟨k1, k2, k3⟩ := ht.heard hF hpre g1 g3 g5 g4
    refine ⟨evs, g2, k1 (hall hns) h2, .inl ⟨h1, ?_⟩⟩
    rcases Classical.em (last = []) with hl | hl
    · exact hl
    · exact absurd (g7 h1) (k3 (hall hns) h2 hl)
  · obtain ⟨got, ds, r, evs, g1, g2, g3, g4, g5, g6, g7⟩ := h.fed.2.heard hB (.inr h1)
    obtain ⟨k1, k2, k3⟩ := ht.heard hF hpre g1 g3 g5 g4
    have := k2 (g6 h1 h2).1 (g6 h1 h2).2
    exact ⟨evs, g2, this.1, .inr ⟨h1, this.2⟩⟩

variable {env penv : Nat → Env} {may : Nat → UserOp → Prop} {fuel : Nat} {jobs : List Job} {socks : Nat → St} {peers : Nat → Endpoint} {la lb : List (Nat × Entry)} {n : Net}

/-- At rest, with working connections, each thread has ended or waits for input on the socket on which it listens. -/
theorem Net.Runs.idle (h : Net.Runs env penv may ⟨jobs.map (Job.code env fuel), socks, peers⟩ la lb n) (hf : ∀ k, (socks k).inp.sched.length < fuel ∧ (socks k).sock.out.sched.length < fuel)
    (hrest : ∀ g ∈ n.threads, ¬ Goes env n g) (hw : n.Works) (i : Nat) (J : Job) (g : Code Unit) (hJ : jobs[i]? = some J) (hg : n.threads[i]? = some g) :
    Ended g ∨ ∃ k, J.socket = some k ∧ n.Idle k g := by
  have hm := List.mem_of_getElem? hg
  rcases C81_threads h hf g hm with h1 | h1 | ⟨k, ⟨m, c, rfl, h1⟩ | ⟨d, c, rfl, h1⟩⟩
  · exact .inl h1
  · exact absurd h1 (hrest g hm)
  · obtain ⟨s, hs, _⟩ := h.orderly.2.1 i J _ hJ hg
    refine .inr ⟨k, hs.2.1, .inr ⟨⟨m, c, rfl⟩, ?_⟩⟩
    rcases h1 with h1 | h1
    · exact h1
    · exact absurd h1 (hw k).2
  · exact absurd h1 (hw k).1

/-- At rest, with working connections and without undefined behaviour, no send is in progress. -/
theorem Net.Runs.not_sending (h : Net.Runs env penv may ⟨jobs.map (Job.code env fuel), socks, peers⟩ la lb n) (hf : ∀ k, (socks k).inp.sched.length < fuel ∧ (socks k).sock.out.sched.length < fuel)
    (hrest : ∀ g ∈ n.threads, ¬ Goes env n g) (hw : n.Works) (hub : ∀ k u, .ub k u ∉ n.threads) (k j : Nat) : ¬ Sending j (of k la) := by
  intro hsd
  obtain ⟨o1, o2, o3⟩ := h.orderly
  rcases Nat.lt_or_ge j jobs.length with hj | hj
  · have hJ : jobs[j]? = some jobs[j] := List.getElem?_eq_getElem hj
    have hg : n.threads[j]? = some (n.threads[j]'(o1 ▸ hj)) := List.getElem?_eq_getElem _
    generalize n.threads[j]'(o1 ▸ hj) = g at hg
    obtain ⟨s, hs, hk⟩ := o2 j _ _ hJ hg
    have hs' := hk k hsd
    subst hs'
    rcases h.idle hf hrest hw j _ _ hJ hg with (rfl | ⟨e, rfl⟩ | ⟨k', u, rfl⟩) | ⟨k', _, (rfl | ⟨e, rfl⟩ | ⟨k', u, rfl⟩) | ⟨⟨m, c, rfl⟩, _⟩⟩
    · cases hs
    · cases hs
    · exact hub _ _ (List.mem_of_getElem? hg)
    · cases hs
    · cases hs
    · exact hub _ _ (List.mem_of_getElem? hg)
    · cases hs.1
  · refine Threads.not_sending_of_indices (fun e he => ?_) hj hsd
    unfold of at he
    obtain ⟨x, hx, rfl⟩ := List.mem_map.mp he
    exact o3 x (List.mem_filter.mp hx).1

/-- **C83** (at rest). When none of the threads of the process can make a step any more, though the connections still work and nothing undefined has happened, then each thread has returned, was ended by an exception, or waits for
input on the very socket on which it was started to listen, everything that had come there having been read; and no send is in progress on any socket. -/
theorem C83_at_rest (h : Net.Runs env penv may ⟨jobs.map (Job.code env fuel), socks, peers⟩ la lb n) (hf : ∀ k, (socks k).inp.sched.length < fuel ∧ (socks k).sock.out.sched.length < fuel)
    (hrest : n.AtRest env) (hw : n.Works) (hub : ∀ k u, .ub k u ∉ n.threads) :
    (∀ (i : Nat) J g, jobs[i]? = some J → n.threads[i]? = some g →
      g = .ret () ∨ (∃ e, g = .throw e) ∨ ∃ k, J.socket = some k ∧ (∃ m c, g = .act k (.read m) c) ∧ (n.socks k).inp.bytes = []) ∧
    ∀ k i, ¬ Sending i (of k la) := by
  refine ⟨fun i J g hJ hg => ?_, fun k i => h.not_sending hf hrest hw hub k i⟩
  rcases h.idle hf hrest hw i J g hJ hg with (h1 | h1 | ⟨k, u, rfl⟩) | ⟨k, hk, (h1 | h1 | ⟨k, u, rfl⟩) | h1⟩
  · exact .inl h1
  · exact .inr (.inl h1)
  · exact absurd (List.mem_of_getElem? hg) (hub _ _)
  · exact .inl h1
  · exact .inr (.inl h1)
  · exact absurd (List.mem_of_getElem? hg) (hub _ _)
  · exact .inr (.inr ⟨k, hk, h1⟩)

/-- **C83** (peers). A process with any number of sockets (as C79) has come to rest, and so has the peer of socket `k`: none of their threads can make a step any more, though the connections still work. If sends on socket `k` were serialised and
none of them failed, and they were messages, pings and the like, ended or not by a close, then the peer's listener has heard all of it: exactly what the calls say. Whichever threads and callbacks have sent. -/
theorem C83_peer_heard_all (h : Net.Runs env penv may ⟨jobs.map (Job.code env fuel), socks, peers⟩ la lb n) (hf : ∀ k, (socks k).inp.sched.length < fuel ∧ (socks k).sock.out.sched.length < fuel)
    (hrest : n.AtRest env) (hw : n.Works) (hub : ∀ k u, .ub k u ∉ n.threads) (k fuelB l B : Nat) (hB : (peers k).Listening (penv k) fuelB l B) (hfB : (peers k).Enough fuelB)
    (hrB : (n.peers k).AtRest (penv k)) (hwB : (n.peers k).Writable) (hrdB : (n.peers k).Readable) (hn : Endpoint.Unbroken (penv k) (peers k) (n.peers k))
    (hser : Serialised (of k la)) (hok : ∀ e ∈ of k la, e.failed = false) (cs last : List SendCall) (hc : callsOf (of k la) = cs ++ last) (ht : Speech cs last) :
    ∃ evs, (n.peers k).st.sock.trace = (peers k).st.sock.trace ++ evs ∧ HeardWhole (callsOf (of k la)) l evs ∧
      (((n.peers k).Waits ∧ last = []) ∨ ((n.peers k).Ended (penv k) ∧ last ≠ [])) := by
  have hns := h.not_sending hf hrest hw hub k
  obtain ⟨react, v, v', h⟩ := h.alone k id (fun _ => rfl) fun _ h => h
  have hl := h.linked
  rw [renumber_id] at hl
  have hA : (Endpoint.threads ⟨v, socks k⟩).App (withReact (env k) react) fuel := by
    intro q hq
    obtain ⟨i, hi⟩ := List.mem_iff_getElem?.mp hq
    obtain ⟨J, _, hJ⟩ := mem_of_seen (f := id) (fun _ => rfl) (fun _ h => h) h i q hi
    exact (hJ.code (P := fun _ => True) fun _ _ => trivial).app
  exact all_heard hA hB hfB hl hser hok hc ht hns hrB hwB hrdB hn

/-- **C83** (the process). Under the same conditions: thread `i` is the session of socket `k`, or listens on it; no other thread does; user code does not exchange the listener `l` of this socket or the size `B` of
its read buffer. If at the peer sends were serialised and none of them failed, and what they say is `Speech`, then the thread has ended, or the listener has heard all of it, and the thread waits for more. -/
theorem C83_process_heard_all (h : Net.Runs env penv may ⟨jobs.map (Job.code env fuel), socks, peers⟩ la lb n) (hf : ∀ k, (socks k).inp.sched.length < fuel ∧ (socks k).sock.out.sched.length < fuel)
    (hrest : n.AtRest env) (hw : n.Works) (k i fuelA l B : Nat) (hd : Header)
    (hi : jobs[i]? = some (.listens k hd) ∨ jobs[i]? = some (.session k hd)) (hother : ∀ j J, jobs[j]? = some J → J.socket = some k → j = i)
    (hm : ∀ op, may k op → (Threads.steady l B).Op op) (hB : 0 < B) (h0 : (Threads.steady l B).In false (socks k)) (hno : (socks k).inp.bytes = [])
    (hA : (peers k).App (penv k) fuelA) (hfA : (peers k).Enough fuelA) (hrA : (n.peers k).AtRest (penv k)) (hdA : (n.peers k).Defined) (hwA : (n.peers k).Writable)
    (hser : Serialised (of k lb)) (hok : ∀ e ∈ of k lb, e.failed = false) (cs last : List SendCall) (hc : callsOf (of k lb) = cs ++ last) (ht : Speech cs last)
    (g : Code Unit) (hg : n.threads[i]? = some g) :
    Ended g ∨ ((∃ evs, (n.socks k).sock.trace = (socks k).sock.trace ++ evs ∧ HeardWhole (callsOf (of k lb)) l evs) ∧ (∃ m c, g = .act k (.read m) c) ∧ (n.socks k).inp.bytes = []) := by
  have hns : ∀ j, ¬ Sending j (of k lb) := by
    obtain ⟨react, v, v', h⟩ := h.alone k id (fun _ => rfl) fun _ h => h
    exact fun j => h.linked.fed.2.not_sending hA hfA hrA hdA hwA j
  have hres : Resigned (of k lb) := fun x e y he hf => by
    rw [hok e (by rw [he]; simp)] at hf
    cases hf
  have hidle : Ended g ∨ n.Idle k g := by
    have : ∃ J, jobs[i]? = some J ∧ J.socket = some k := by
      rcases hi with hi | hi <;> exact ⟨_, hi, rfl⟩
    obtain ⟨J, hJ, hs⟩ := this
    rcases h.idle hf hrest hw i J g hJ hg with h1 | ⟨k', h1, h2⟩
    · exact .inl h1
    · rw [hs] at h1
      injection h1 with h1
      subst h1
      exact .inr h2
  rcases hidle with h1 | h1 | ⟨⟨m, c, rfl⟩, h1⟩
  · exact .inl h1
  · exact .inl h1
  · exact .inr ⟨(C79_process_hears h k i fuelA l B hd hi hother hm hB h0 hno (hf k).1 (hf k).2 hA hser hres cs last hc ht).2 hok hns ⟨m, c, hg⟩ h1, ⟨m, c, rfl⟩, h1⟩

/-! ## The hypotheses are met: the chat of C79, played to the end -/

def goesNow (env : Nat → Env) (n : Net) : Code Unit → Bool
  | .choose _ => true
  | .act k a _ => Threads.Ready a (n.socks k) && (Threads.exec (env k) a (n.socks k)).isSome
  | _ => false

theorem goesNow_sound {env : Nat → Env} {n : Net} (h : n.threads.all (fun g => !goesNow env n g) = true) : n.AtRest env := by
  intro g hg hgo
  have := List.all_eq_true.mp h g hg
  rcases hgo with ⟨c, rfl⟩ | ⟨k, a, c, r, st', rfl, h1, h2⟩
  · cases this
  · rw [goesNow, h1, h2] at this
    cases this

/-- Sockets on which nothing happens stay as they are. -/
theorem Net.Runs.untouched {n0 : Net} (h : Net.Runs env penv may n0 la lb n) (k : Nat) (ha : ∀ e ∈ la, e.1 ≠ k) (hb : ∀ e ∈ lb, e.1 ≠ k) : n.socks k = n0.socks k := by
  induction h with
  | refl => rfl
  | @own la lb n i j a c r st' _ _ _ _ ih =>
    have := ha (j, Threads.entry i a (n.socks j) st') (by simp)
    rw [← ih (fun e he => ha e (List.mem_append_left _ he)) hb]
    exact if_neg (Ne.symm this)
  | chooses _ _ _ ih => exact ih ha hb
  | @peer la lb n j e b _ _ ih =>
    have := hb (j, e) (by simp)
    rw [← ih ha (fun e he => hb e (List.mem_append_left _ he))]
    exact if_neg (Ne.symm this)

def worksNow (la lb : List (Nat × Entry)) (s : Nat → St) : Bool :=
  (la ++ lb).all (fun e => e.1 == 0 || e.1 == 1) && [0, 1].all fun k => !(s k).sock.out.sched.isEmpty && !(s k).inp.sched.isEmpty

theorem Net.Runs.works {n0 : Net} (h : Net.Runs env penv may n0 la lb n) (h0 : n0.Works) (hw : worksNow la lb n.socks = true) : n.Works := by
  intro k
  obtain ⟨h1, h2⟩ := Bool.and_eq_true_iff.mp hw
  have two : ∀ k ∈ [0, 1], (n.socks k).sock.out.sched ≠ [] ∧ (n.socks k).inp.sched ≠ [] := fun k hk => by
    have := List.all_eq_true.mp h2 k hk
    simp at this
    exact this
  match k with
  | 0 => exact two 0 (by simp)
  | 1 => exact two 1 (by simp)
  | k + 2 =>
    have he : ∀ e ∈ la ++ lb, e.1 ≠ k + 2 := fun e he hk => by
      have := List.all_eq_true.mp h1 e he
      simp at this
      omega
    rw [h.untouched (k + 2) (fun e hm => he e (List.mem_append_left _ hm)) fun e hm => he e (List.mem_append_right _ hm)]
    exact h0 _

/-- The peers and what they have said. -/
def peersNow (n : Net) (k : Nat) : Bool × Bool × Bool × Bool := (restNow Fixture.env (n.peers k), (n.peers k).definedNow, (n.peers k).worksNow, (n.peers k).st.sock.listening)

def exChatEnd := Net.play (fun _ => Fixture.env) (fun _ => Fixture.env)
  (exChatTurns ++ [.chooses 0 []] ++ List.replicate 3 (.own 0) ++ List.replicate 3 (.own 1) ++ List.replicate 3 (.peer 0 0) ++ List.replicate 3 (.peer 0 1) ++ List.replicate 3 (.peer 1 0) ++ List.replicate 3 (.peer 1 1))
  ([], [], ⟨exChatJobs.map (Job.code (fun _ => Fixture.env) 100), exChatSocks, exChatPeers⟩)

theorem exChatEnd_said : view (of 1 exChatEnd.1) (exChatEnd.2.2.peers 1) =
    ⟨true, true, [.text (some [104, 105])], [.completed], [], [.readMessage 2 1 [104], .readMessage 2 1 [105], .readMessage 2 1 []], [], true⟩ := by decide +kernel

theorem exChatEnd_heard : view (of 0 exChatEnd.2.1) (.threads ⟨[], exChatEnd.2.2.socks 0⟩) =
    ⟨true, true, [.text (some [104, 105])], [], [.completed], [.readMessage 7 1 [104], .readMessage 7 1 [105], .readMessage 7 1 []], [], false⟩ := by decide +kernel

theorem exChatEnd_rest : (exChatEnd.2.2.threads.all (fun g => !goesNow (fun _ => Fixture.env) exChatEnd.2.2 g), worksNow exChatEnd.1 exChatEnd.2.1 exChatEnd.2.2.socks, peersNow exChatEnd.2.2 0, peersNow exChatEnd.2.2 1,
    exChatEnd.2.2.threads[0]?.map (readsNow 0)) = (true, true, (true, true, true, true), (true, true, true, true), some true) := by
  rw [Prod.mk.injEq, Prod.mk.injEq, Prod.mk.injEq, Prod.mk.injEq]
  decide +kernel

theorem exChatEnd_runs : Net.Runs (fun _ => Fixture.env) (fun _ => Fixture.env) exChatMay ⟨exChatJobs.map (Job.code (fun _ => Fixture.env) 100), exChatSocks, exChatPeers⟩ exChatEnd.1 exChatEnd.2.1 exChatEnd.2.2 := by
  unfold exChatEnd
  refine Net.play_runs _ (fun i cs h => ?_) .refl
  simp only [exChatTurns, List.mem_append, List.mem_cons, List.mem_replicate, List.not_mem_nil, reduceCtorEq, and_false, or_false, Turn.chooses.injEq] at h
  rcases h with ((((⟨_, rfl⟩ | ⟨_, rfl⟩) | ⟨_, rfl⟩) | ⟨_, rfl⟩) | ⟨_, rfl⟩) | ⟨_, rfl⟩
  · nofun
  · nofun
  · nofun
  · nofun
  · intro x hx
    simp only [List.mem_cons, List.not_mem_nil, or_false] at hx
    rcases hx with rfl | rfl <;> exact ⟨_, rfl, by decide⟩
  · nofun

theorem exChat_peer (k : Nat) : (exChatPeers k).Listening Fixture.env 100 (1 + k) 2 := by
  refine ⟨⟨default, _, rfl, fun q hq => ?_⟩, fun _ _ h => (by cases h), by decide, ⟨⟨1 + k, rfl, rfl⟩, rfl, fun _ _ => trivial, rfl⟩, rfl⟩
  rw [List.mem_singleton.mp hq]
  refine .code _ fun op ho => ?_
  split at ho
  · rw [List.mem_singleton.mp ho]; trivial
  · cases ho

theorem okNow {l : List Entry} (h : l.all (fun e => !e.failed && (e.task == 0 || e.task == 1)) = true) : ∀ e ∈ l, e.failed = false := by
  intro e hm
  have := List.all_eq_true.mp h e hm
  simp at this
  exact this.1

/-- Nobody can go on: the session of the first client has heard "hi", and the second client has heard it from the callback. -/
example : ∃ la lb n, Net.Runs (fun _ => Fixture.env) (fun _ => Fixture.env) exChatMay ⟨exChatJobs.map (Job.code (fun _ => Fixture.env) 100), exChatSocks, exChatPeers⟩ la lb n ∧ n.AtRest (fun _ => Fixture.env) ∧ (∀ k i, ¬ Sending i (of k la)) ∧
    callsOf (of 0 lb) = [.text (some [104, 105])] ∧ HeardWhole (callsOf (of 0 lb)) 7 (n.socks 0).sock.trace ∧
    callsOf (of 1 la) = [.text (some [104, 105])] ∧ HeardWhole (callsOf (of 1 la)) 2 (n.peers 1).st.sock.trace := by
  have hl := exChatEnd_runs
  have hA := exChatEnd_said
  have hB := exChatEnd_heard
  have hR := exChatEnd_rest
  generalize exChatEnd.1 = la, exChatEnd.2.1 = lb, exChatEnd.2.2 = n at hl hA hB hR
  injection hA with a1 a2 a3 a4 a5 a6 a7 a8
  injection hB with b1 b2 b3 b4 b5 b6 b7 b8
  injection hR with r1 hR
  injection hR with r2 hR
  injection hR with r3 hR
  injection hR with r4 r5
  injection r3 with p1 p2
  injection p2 with p2 p3
  injection p3 with p3 p4
  injection r4 with q1 q2
  injection q2 with q2 q3
  injection q3 with q3 q4
  have hrest := goesNow_sound r1
  have hw := hl.works (fun k => ⟨fun h => (by cases h), fun h => (by cases h)⟩) r2
  have hub := C79_defined hl (fun _ => 2) (fun k op ho => by obtain ⟨m, rfl, hm⟩ := ho; exact Nat.lt_of_le_of_lt hm (by decide)) fun k => rfl
  have hf : ∀ k, (exChatSocks k).inp.sched.length < 100 ∧ (exChatSocks k).sock.out.sched.length < 100 := fun k => ⟨Nat.le_of_ble_eq_true rfl, Nat.le_of_ble_eq_true rfl⟩
  have uB : Endpoint.Unbroken Fixture.env (exChatPeers 1) (n.peers 1) := by
    obtain ⟨react, v, v', h⟩ := hl.alone 1 id (fun _ => rfl) fun _ h => h
    obtain ⟨q, e, _⟩ := Fed.threads h.linked.fed.2
    rw [e] at q4 ⊢
    exact ⟨fun _ _ h => (by cases h), q4, by decide⟩
  obtain ⟨evs1, g1, g2, _⟩ := C83_peer_heard_all hl hf hrest hw hub 1 100 2 2 (exChat_peer 1) ⟨by decide, by decide⟩ (restNow_sound q1) (worksNow_sound q3).1 (worksNow_sound q3).2 uB (serialCheck_sound a1)
    (okNow a2) _ [] (by rw [show callsOf (of 1 la) = _ from a3]; rfl) exChat_speech
  have h0 : ∃ m c, n.threads[0]? = some (.act 0 (.read m) c) := by
    cases h : n.threads[0]? with
    | none => rw [h] at r5; cases r5
    | some g =>
      rw [h] at r5
      injection r5 with r5
      obtain ⟨c, x, rfl⟩ := readsNow_sound r5
      exact ⟨c, x, rfl⟩
  obtain ⟨m, c, h0⟩ := h0
  rcases C83_process_heard_all hl hf hrest hw 0 0 100 7 2 default (.inr rfl)
    (fun j J hj hs => by
      match j, hj with
      | 0, _ => rfl
      | 1, hj => injection hj with hj; subst hj; cases hs)
    (fun op ho => by obtain ⟨m, rfl, _⟩ := ho; trivial) (by decide) ⟨⟨7, rfl, rfl⟩, rfl, fun _ _ => trivial, rfl⟩ rfl (exChat_peer 0).app (show (exChatPeers 0).Enough 100 from ⟨by decide, by decide⟩)
    (restNow_sound p1) (definedNow_sound p2) (worksNow_sound p3).1 (serialCheck_sound b1) (okNow b2) _ [] (by rw [show callsOf (of 0 lb) = _ from b3]; rfl) exChat_speech _ h0 with h1 | ⟨⟨evs0, g3, g4⟩, _⟩
  · rcases h1 with h1 | ⟨e, h1⟩ | ⟨k, u, h1⟩ <;> cases h1
  · have g1 : (n.peers 1).st.sock.trace = evs1 := g1
    have g3 : (n.socks 0).sock.trace = evs0 := g3
    subst g1 g3
    exact ⟨la, lb, n, hl, hrest, (C83_at_rest hl hf hrest hw hub).2, b3, g4, a3, g2⟩

end OatWS.Process

namespace OatWS.AsyncProcess
open RFC6455 Async Network
open Process (of withReact renumber OrThrows)

variable {env penv : Nat → Env} {may : Nat → UserOp → Prop} {jobs : List Job} {socks : Nat → World} {peers : Nat → Endpoint} {la lb : List (Nat × Entry)} {n : Net}

theorem not_inSend_user {env : Env} {u : UserCo} {rest : List Co} {c : SendCall} {bytes : List UInt8} {key : Option Nat} : ¬ InSend env (.user u :: rest) c bytes key := by
  rintro ⟨m, rest', -, -, h | ⟨s, left, h, -⟩⟩
  · cases h.1
  · cases h

theorem Net.Runs.length {n0 : Net} (h : Net.Runs env penv may n0 la lb n) : n.tasks.length = n0.tasks.length := by
  induction h with
  | refl => rfl
  | lib _ _ _ _ _ ih => rw [List.length_set, ih]
  | does _ _ _ _ ih => rw [List.length_set, ih]
  | ends _ _ ih => rw [List.length_set, ih]
  | peer _ _ ih => exact ih

theorem isIn_of_reads {c : Co} {l : Local} (h : Task.reads ⟨[c], l⟩ = true) : isIn c = true := by
  cases c <;> first | rfl | exact absurd h Bool.false_ne_true

/-- At rest, with working connections, each task has ended or waits for input on the socket on which it listens. -/
theorem Net.Runs.idle (h : Net.Runs env penv may ⟨jobs.map Job.start, socks, peers⟩ la lb n) (hrest : n.AtRest env) (hw : n.Works) (i : Nat) (J : Job) (s : State) (hJ : jobs[i]? = some J)
    (hs : n.tasks[i]? = some s) : Ended s ∨ ∃ k, J.socket = some k ∧ n.Idle k s := by
  have hm := List.mem_of_getElem? hs
  rcases C81_tasks h s hm with h1 | h1 | ⟨k, c, rest, l, rfl, ⟨h1, h2⟩ | ⟨_, h1⟩⟩
  · exact .inl h1
  · exact absurd h1 (hrest s hm)
  · obtain ⟨react, v, v', log, h⟩ := h.alone k id (fun _ => rfl) fun _ h => h
    refine .inr ⟨k, h.home i J c rest l hJ hs (isIn_of_reads h1), .inr ⟨⟨c, rest, l, rfl, h1⟩, ?_⟩⟩
    rcases h2 with h2 | h2
    · exact h2
    · exact absurd h2 (hw k).2
  · exact absurd h1 (hw k).1

/-- At rest, with working connections and without undefined behaviour, no send is in progress. -/
theorem Alone.not_sending {react views views' log} {k : Nat} (hruns : Net.Runs env penv may ⟨jobs.map Job.start, socks, peers⟩ la lb n) (hrest : n.AtRest env) (hw : n.Works) (hub : ∀ k u, .ub k u ∉ n.tasks)
    (h : Alone env penv may jobs socks peers la lb n k id react views views' log) (j : Nat) : ¬ Sending j log := by
  obtain ⟨q, hq, hfed⟩ := h.linked.fed.1.tasks
  injection hq with hq
  subst hq
  have hp : ∀ t ∈ views, Outcome.quiet t := by
    intro o ho
    obtain ⟨i, hi⟩ := List.mem_iff_getElem?.mp ho
    obtain ⟨J, _, hJ⟩ := mem_of_seen (φ := id) (fun _ => rfl) (fun _ h => h) h i o hi
    exact hJ.quiet
  rcases Nat.lt_or_ge j jobs.length with hj | hj
  · have hJ : jobs[j]? = some jobs[j] := List.getElem?_eq_getElem hj
    have hl : n.tasks.length = jobs.length := (hruns.length).trans (by simp)
    have hs : n.tasks[j]? = some (n.tasks[j]'(hl ▸ hj)) := List.getElem?_eq_getElem _
    generalize n.tasks[j]'(hl ▸ hj) = s at hs
    obtain ⟨o, ho, ht⟩ := h.tracks j s hs
    have hT := hfed.inv hp j o ho
    rcases hruns.idle hrest hw j _ s hJ hs with (rfl | ⟨e, rfl⟩ | ⟨k', u, rfl⟩) | ⟨k', _, (rfl | ⟨e, rfl⟩ | ⟨k', u, rfl⟩) | ⟨⟨c, rest, l, rfl, hr⟩, _⟩⟩
    · rw [ht.finished rfl] at hT
      exact Threads.not_sending_of_over hT.head
    · obtain ⟨e', rfl⟩ := ht.failed e rfl
      exact Threads.not_sending_of_over hT.head
    · exact absurd (List.mem_of_getElem? hs) (hub _ _)
    · rw [ht.finished rfl] at hT
      exact Threads.not_sending_of_over hT.head
    · obtain ⟨e', rfl⟩ := ht.failed e rfl
      exact Threads.not_sending_of_over hT.head
    · exact absurd (List.mem_of_getElem? hs) (hub _ _)
    · have hno : ∃ t, o = .run t ∧ (t.reads = true ∨ ∃ u rest' l', t = ⟨.user u :: rest', l'⟩) := by
        rcases Nat.decEq k' k with hk | rfl
        · obtain ⟨u, r, l', rfl⟩ := ht.elsewhere k' c rest l hk rfl
          exact ⟨_, rfl, .inr ⟨_, _, _, rfl⟩⟩
        · obtain ⟨r, l', rfl⟩ := ht.at_ c rest l rfl
          exact ⟨_, rfl, .inl ((reads_top c r [] l' l).trans hr)⟩
      obtain ⟨t, rfl, hno⟩ := hno
      rcases hT.head with ⟨_, hd⟩ | ⟨s, r, _, _, hin⟩
      · exact Threads.not_sending_of_over hd
      · rcases hno with hr | ⟨u, rest', l', rfl⟩
        · rw [hin.not_reads] at hr
          cases hr
        · exact absurd hin not_inSend_user
  · exact Threads.not_sending_of_indices hfed.indices.2 (by rw [h.length]; exact hj)

/-- **C83** (at rest; async process). The same for the tasks of a process with async sockets. -/
theorem C83_tasks_at_rest (h : Net.Runs env penv may ⟨jobs.map Job.start, socks, peers⟩ la lb n) (hrest : n.AtRest env) (hw : n.Works) (hub : ∀ k u, .ub k u ∉ n.tasks) :
    (∀ (i : Nat) J s, jobs[i]? = some J → n.tasks[i]? = some s →
      s = .finished ∨ (∃ e, s = .failed e) ∨ ∃ k, J.socket = some k ∧ WaitsOn k (some s) ∧ (n.socks k).st.inp.bytes = []) ∧
    ∀ k i, ¬ Sending i (of k la) := by
  refine ⟨fun i J s hJ hs => ?_, fun k i hsd => ?_⟩
  · rcases h.idle hrest hw i J s hJ hs with (h1 | h1 | ⟨k, u, rfl⟩) | ⟨k, hk, (h1 | h1 | ⟨k, u, rfl⟩) | h1⟩
    · exact .inl h1
    · exact .inr (.inl h1)
    · exact absurd (List.mem_of_getElem? hs) (hub _ _)
    · exact .inl h1
    · exact .inr (.inl h1)
    · exact absurd (List.mem_of_getElem? hs) (hub _ _)
    · obtain ⟨⟨c, rest, l, rfl, hr⟩, h1⟩ := h1
      exact .inr (.inr ⟨k, hk, ⟨c, rest, l, rfl, hr⟩, h1⟩)
  · have hruns := h
    obtain ⟨react, v, v', log, h⟩ := h.alone k id (fun _ => rfl) fun _ h => h
    have hr := h.record
    rw [Process.renumber_id] at hr
    rw [← sending_said, ← hr, sending_said] at hsd
    exact h.not_sending hruns hrest hw hub i hsd

/-- **C83** (peers; async process). The same for a process with any number of async sockets (as C80). -/
theorem C83_tasks_peer_heard_all (h : Net.Runs env penv may ⟨jobs.map Job.start, socks, peers⟩ la lb n) (hrest : n.AtRest env) (hw : n.Works) (hub : ∀ k u, .ub k u ∉ n.tasks)
    (k fuelB l B : Nat) (hB : (peers k).Listening (penv k) fuelB l B) (hfB : (peers k).Enough fuelB)
    (hrB : (n.peers k).AtRest (penv k)) (hwB : (n.peers k).Writable) (hrdB : (n.peers k).Readable) (hn : Endpoint.Unbroken (penv k) (peers k) (n.peers k))
    (hser : Serialised (of k la)) (hok : ∀ e ∈ of k la, e.failed = false) (cs last : List SendCall) (hc : callsOf (of k la) = cs ++ last) (ht : Speech cs last) :
    ∃ evs, (n.peers k).st.sock.trace = (peers k).st.sock.trace ++ evs ∧ HeardWhole (callsOf (of k la)) l evs ∧
      (((n.peers k).Waits ∧ last = []) ∨ ((n.peers k).Ended (penv k) ∧ last ≠ [])) := by
  have hruns := h
  obtain ⟨react, v, v', log, h⟩ := h.alone k id (fun _ => rfl) fun _ h => h
  have hr := h.record
  rw [Process.renumber_id] at hr
  have hA : (Endpoint.tasks ⟨v, socks k⟩).App (withReact (env k) react) 0 := by
    intro o ho
    obtain ⟨i, hi⟩ := List.mem_iff_getElem?.mp ho
    obtain ⟨J, _, hJ⟩ := mem_of_seen (φ := id) (fun _ => rfl) (fun _ h => h) h i o hi
    exact hJ.quiet
  rw [← serialised_said, ← hr, serialised_said] at hser
  rw [← noFailed_said, ← hr, noFailed_said] at hok
  rw [← callsOf_said, ← hr, callsOf_said] at hc ⊢
  exact Process.all_heard hA hB hfB h.linked hser hok hc ht (h.not_sending hruns hrest hw hub) hrB hwB hrdB hn

/-- **C83** (the async process). The same for a process with any number of async sockets (as C80); task `i` listens on socket `k`, and no other task does. -/
theorem C83_tasks_process_heard_all (h : Net.Runs env penv may ⟨jobs.map Job.start, socks, peers⟩ la lb n) (hrest : n.AtRest env) (hw : n.Works) (k i fuelA l B : Nat) (hd : Header)
    (hi : jobs[i]? = some (.listens k hd)) (hother : ∀ j J, jobs[j]? = some J → J.socket = some k → j = i)
    (hm : ∀ op, may k op → (fixedSettings l B).Op op) (hB : 0 < B) (h0 : (fixedSettings l B).In (socks k)) (hopen : OpenIs false (socks k).st.sock.lastOpcode) (hno : (socks k).st.inp.bytes = [])
    (hA : (peers k).App (penv k) fuelA) (hfA : (peers k).Enough fuelA) (hrA : (n.peers k).AtRest (penv k)) (hdA : (n.peers k).Defined) (hwA : (n.peers k).Writable)
    (hser : Serialised (of k lb)) (hok : ∀ e ∈ of k lb, e.failed = false) (cs last : List SendCall) (hc : callsOf (of k lb) = cs ++ last) (ht : Speech cs last)
    (s : State) (hs : n.tasks[i]? = some s) :
    Ended s ∨ ((∃ evs, (n.socks k).st.sock.trace = (socks k).st.sock.trace ++ evs ∧ HeardWhole (callsOf (of k lb)) l evs) ∧ WaitsOn k (some s) ∧ (n.socks k).st.inp.bytes = []) := by
  have hns : ∀ j, ¬ Sending j (of k lb) := by
    obtain ⟨react, v, v', log, h⟩ := h.alone k id (fun _ => rfl) fun _ h => h
    exact fun j => h.linked.fed.2.not_sending hA hfA hrA hdA hwA j
  have hres : Resigned (of k lb) := fun x e y he hf => by
    rw [hok e (by rw [he]; simp)] at hf
    cases hf
  rcases h.idle hrest hw i _ s hi hs with h1 | ⟨k', h1, h2⟩
  · exact .inl h1
  · injection h1 with h1
    subst h1
    rcases h2 with h2 | ⟨⟨c, rest, l', rfl, h1⟩, h2⟩
    · exact .inl h2
    · have hwo : WaitsOn k (some (.run ⟨.lib k c :: rest, l'⟩)) := ⟨c, rest, l', rfl, h1⟩
      exact .inr ⟨(C80_process_hears h k i fuelA l B hd hi hother hm hB h0 hopen hno hA hser hres cs last hc ht).2 hok hns (hs ▸ hwo) h2, hwo, h2⟩

/-! ## The hypotheses are met: the chat of C80, played to the end -/

def goesNow (env : Nat → Env) (n : Net) : State → Bool
  | .run ⟨.user _ :: _, _⟩ => true
  | .run ⟨.lib k c :: rest, l⟩ => Task.ready ⟨[c], l⟩ (n.socks k) && (move env k c rest l n.socks).isSome
  | _ => false

theorem goesNow_sound {env : Nat → Env} {n : Net} (h : n.tasks.all (fun g => !goesNow env n g) = true) : n.AtRest env := by
  intro g hg hgo
  have := List.all_eq_true.mp h g hg
  rcases hgo with ⟨b, rest, l, rfl⟩ | ⟨k, c, rest, l, s', ws, bs, rfl, h1, h2, _⟩
  · cases this
  · rw [goesNow, h1, h2] at this
    cases this

/-- Sockets on which nothing happens stay as they are. -/
theorem Net.Runs.untouched {n0 : Net} (h : Net.Runs env penv may n0 la lb n) (k : Nat) (ha : ∀ e ∈ la, e.1 ≠ k) (hb : ∀ e ∈ lb, e.1 ≠ k) : (n.socks k).st = (n0.socks k).st := by
  induction h with
  | refl => rfl
  | @lib la lb n i j c rest l s ws bs _ _ _ hm _ ih =>
    have := ha (j, entryOf (env j) i ⟨[c], l⟩ (n.socks j) (ws j) bs) (by simp)
    rw [← ih (fun e he => ha e (List.mem_append_left _ he)) hb]
    exact (move_st hm).2 _ (Ne.symm this)
  | @does la lb n i b rest l j op s ws _ _ _ hm ih =>
    have := ha (j, entryOf (env j) i ⟨[.user { ops := [op] }], l⟩ (n.socks j) (ws j) []) (by simp)
    rw [← ih (fun e he => ha e (List.mem_append_left _ he)) hb]
    exact (move_st hm).2 _ (Ne.symm this)
  | ends _ _ ih => exact ih ha hb
  | @peer la lb n j e b _ _ ih =>
    have := hb (j, e) (by simp)
    rw [← ih ha (fun e he => hb e (List.mem_append_left _ he))]
    exact congrArg World.st (put_else _ _ (Ne.symm this))

def worksNow (la lb : List (Nat × Entry)) (s : Nat → World) : Bool :=
  (la ++ lb).all (fun e => e.1 == 0 || e.1 == 1) && [0, 1].all fun k => !(s k).st.sock.out.sched.isEmpty && !(s k).st.inp.sched.isEmpty

theorem Net.Runs.works {n0 : Net} (h : Net.Runs env penv may n0 la lb n) (h0 : n0.Works) (hw : worksNow la lb n.socks = true) : n.Works := by
  intro k
  obtain ⟨h1, h2⟩ := Bool.and_eq_true_iff.mp hw
  have two : ∀ k ∈ [0, 1], (n.socks k).st.sock.out.sched ≠ [] ∧ (n.socks k).st.inp.sched ≠ [] := fun k hk => by
    have := List.all_eq_true.mp h2 k hk
    simp at this
    exact this
  match k with
  | 0 => exact two 0 (by simp)
  | 1 => exact two 1 (by simp)
  | k + 2 =>
    have he : ∀ e ∈ la ++ lb, e.1 ≠ k + 2 := fun e he hk => by
      have := List.all_eq_true.mp h1 e he
      simp at this
      omega
    rw [h.untouched (k + 2) (fun e hm => he e (List.mem_append_left _ hm)) fun e hm => he e (List.mem_append_right _ hm)]
    exact h0 _

def exRoomEnd := Net.play (fun _ => Fixture.env) (fun _ => Fixture.env)
  (exRoomTurns ++ [.ends 0] ++ List.replicate 3 (.lib 0) ++ List.replicate 3 (.lib 1) ++ List.replicate 3 (.peer 0 0) ++ List.replicate 3 (.peer 0 1) ++ List.replicate 3 (.peer 1 0) ++ List.replicate 3 (.peer 1 1))
  ([], [], ⟨exRoomJobs.map Job.start, exRoomSocks, Process.exChatPeers⟩)

theorem exRoomEnd_said : view (of 1 exRoomEnd.1) (exRoomEnd.2.2.peers 1) =
    ⟨true, true, [.text (some [104, 105])], [.completed], [], [.readMessage 2 1 [104], .readMessage 2 1 [105], .readMessage 2 1 []], [], true⟩ := by decide +kernel

theorem exRoomEnd_heard : view (of 0 exRoomEnd.2.1) (.tasks ⟨[], exRoomEnd.2.2.socks 0⟩) =
    ⟨true, true, [.text (some [104, 105])], [], [.completed], [.readMessage 7 1 [104], .readMessage 7 1 [105], .readMessage 7 1 []], [], false⟩ := by decide +kernel

/-- The peers and what they have said. -/
def peersNow (n : Net) (k : Nat) : Bool × Bool × Bool × Bool := (restNow Fixture.env (n.peers k), (n.peers k).definedNow, (n.peers k).worksNow, (n.peers k).st.sock.listening)

theorem exRoomEnd_rest : (exRoomEnd.2.2.tasks.all (fun g => !goesNow (fun _ => Fixture.env) exRoomEnd.2.2 g), worksNow exRoomEnd.1 exRoomEnd.2.1 exRoomEnd.2.2.socks, peersNow exRoomEnd.2.2 0, peersNow exRoomEnd.2.2 1,
    waitsOnNow 0 exRoomEnd.2.2.tasks[0]?) = (true, true, (true, true, true, true), (true, true, true, true), true) := by
  rw [Prod.mk.injEq, Prod.mk.injEq, Prod.mk.injEq, Prod.mk.injEq]
  decide +kernel

theorem exRoomEnd_runs : Net.Runs (fun _ => Fixture.env) (fun _ => Fixture.env) Process.exChatMay ⟨exRoomJobs.map Job.start, exRoomSocks, Process.exChatPeers⟩ exRoomEnd.1 exRoomEnd.2.1 exRoomEnd.2.2 := by
  unfold exRoomEnd
  refine Net.play_runs _ (fun i k op h => ?_) .refl
  simp only [exRoomTurns, List.mem_append, List.mem_cons, List.mem_replicate, List.not_mem_nil, reduceCtorEq, and_false, or_false, false_or, Turn.does.injEq] at h
  rcases h with ⟨_, _, rfl⟩ | ⟨_, _, rfl⟩ <;> exact ⟨_, rfl, (by decide)⟩

/-- Nobody can go on: the task that listens to the first client has heard "hi", and the second client has heard it from the coroutine that the callback has returned. -/
example : ∃ la lb n, Net.Runs (fun _ => Fixture.env) (fun _ => Fixture.env) Process.exChatMay ⟨exRoomJobs.map Job.start, exRoomSocks, Process.exChatPeers⟩ la lb n ∧ n.AtRest (fun _ => Fixture.env) ∧ (∀ k i, ¬ Sending i (of k la)) ∧
    callsOf (of 0 lb) = [.text (some [104, 105])] ∧ HeardWhole (callsOf (of 0 lb)) 7 (n.socks 0).st.sock.trace ∧
    callsOf (of 1 la) = [.text (some [104, 105])] ∧ HeardWhole (callsOf (of 1 la)) 2 (n.peers 1).st.sock.trace := by
  have hl := exRoomEnd_runs
  have hA := exRoomEnd_said
  have hB := exRoomEnd_heard
  have hR := exRoomEnd_rest
  generalize exRoomEnd.1 = la, exRoomEnd.2.1 = lb, exRoomEnd.2.2 = n at hl hA hB hR
  injection hA with a1 a2 a3 a4 a5 a6 a7 a8
  injection hB with b1 b2 b3 b4 b5 b6 b7 b8
  injection hR with r1 hR
  injection hR with r2 hR
  injection hR with r3 hR
  injection hR with r4 r5
  injection r3 with p1 p2
  injection p2 with p2 p3
  injection p3 with p3 p4
  injection r4 with q1 q2
  injection q2 with q2 q3
  injection q3 with q3 q4
  have hrest := goesNow_sound r1
  have hw := hl.works (fun k => ⟨fun h => (by cases h), fun h => (by cases h)⟩) r2
  have hub := C80_defined hl (fun _ => 2) (fun k op ho => by obtain ⟨m, rfl, hm⟩ := ho; exact Nat.lt_of_le_of_lt hm (by decide)) fun k => rfl
  have uB : Endpoint.Unbroken Fixture.env (Process.exChatPeers 1) (n.peers 1) := by
    obtain ⟨react, v, v', log, h⟩ := hl.alone 1 id (fun _ => rfl) fun _ h => h
    obtain ⟨q, e, _⟩ := Fed.threads h.linked.fed.2
    rw [e] at q4 ⊢
    exact ⟨fun _ _ h => (by cases h), q4, by decide⟩
  obtain ⟨evs1, g1, g2, _⟩ := C83_tasks_peer_heard_all hl hrest hw hub 1 100 2 2 (Process.exChat_peer 1) ⟨by decide, by decide⟩ (restNow_sound q1) (worksNow_sound q3).1 (worksNow_sound q3).2 uB (serialCheck_sound a1)
    (Process.okNow a2) _ [] (by rw [show callsOf (of 1 la) = _ from a3]; rfl) Process.exChat_speech
  obtain ⟨c, rest, l, h0, hc⟩ := waitsOnNow_sound r5
  rcases C83_tasks_process_heard_all hl hrest hw 0 0 100 7 2 default rfl
    (fun j J hj hs => by
      match j, hj with
      | 0, _ => rfl
      | 1, hj => injection hj with hj; subst hj; cases hs
      | 2, hj => injection hj with hj; subst hj; cases hs)
    (fun op ho => by obtain ⟨m, rfl, _⟩ := ho; trivial) (by decide) ⟨rfl, rfl⟩ rfl rfl (Process.exChat_peer 0).app (show (Process.exChatPeers 0).Enough 100 from ⟨by decide, by decide⟩)
    (restNow_sound p1) (definedNow_sound p2) (worksNow_sound p3).1 (serialCheck_sound b1) (Process.okNow b2) _ [] (by rw [show callsOf (of 0 lb) = _ from b3]; rfl) Process.exChat_speech _ h0 with h1 | ⟨⟨evs0, g3, g4⟩, _⟩
  · rcases h1 with h1 | ⟨e, h1⟩ | ⟨k, u, h1⟩ <;> cases h1
  · have g1 : (n.peers 1).st.sock.trace = evs1 := g1
    have g3 : (n.socks 0).st.sock.trace = evs0 := g3
    subst g1 g3
    exact ⟨la, lb, n, hl, hrest, (C83_tasks_at_rest hl hrest hw hub).2, b3, g4, a3, g2⟩

end OatWS.AsyncProcess
