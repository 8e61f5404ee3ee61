import Verif.Proofs.AsyncProcessAlone
import Verif.Props.Process
/-! # C80: many async sockets in one process -/

namespace OatWS.AsyncProcess
open RFC6455 Async Network
open Process (of renumber OrThrows swap withReact)

variable {env penv : Nat → Env} {may : Nat → UserOp → Prop} {jobs : List Job} {socks : Nat → World} {peers : Nat → Endpoint} {la lb : List (Nat × Entry)} {n : Net}

/-- **C80.** An async process has any number of sockets, each connected to a peer of its own (blocking or async), and any number of tasks: some listen on a socket, some are of the application; all
coroutines of the user, those that callbacks return too, may use all sockets (`may k op`: operations on socket `k`), as they like, depending on anything they know. Then the execution, in any order of
steps, as far as it concerns socket `k` and its peer (`of k`) is one of a process that has this socket only: its tasks and callbacks do the same with socket `k`, and nothing else. (Coroutines of the user
may fail, as an error could come from another socket. Steps in which nothing is called, written, drawn, completed or fails, are not counted: `said`.) -/
theorem C80_alone (h : Net.Runs env penv may ⟨jobs.map Job.start, socks, peers⟩ la lb n) (k : Nat) :
    ∃ react views views' log,
      (∀ tr, ∀ op ∈ react tr, OrThrows (may k) op) ∧ views.length = jobs.length ∧
      (∀ (i : Nat) J, jobs[i]? = some J → ∃ o, views[i]? = some o ∧ J.SeenAs (OrThrows (may k)) k o) ∧
      (∀ (i : Nat) s, n.tasks[i]? = some s → ∃ o, views'[i]? = some o ∧ Tracks k s o) ∧
      Linked { env k with react := react } (penv k) (.tasks ⟨views, socks k⟩) (peers k) log (of k lb) (.tasks ⟨views', n.socks k⟩) (n.peers k) ∧
      said log = said (of k la) := by
  obtain ⟨react, v, v', log, h1, h2, h3, h4, _, h5, h6⟩ := h.alone k id (fun _ => rfl) fun _ h => h
  rw [Process.renumber_id] at h6
  exact ⟨react, v, v', log, h1, h2, h3, h4, h5, h6⟩

/-! ## What follows -/

theorem mem_of_seen {φ : Nat → Nat} {react views views' log} {k : Nat} (hff : ∀ i, φ (φ i) = i) (hlt : ∀ i, i < jobs.length → φ i < jobs.length)
    (h : Alone env penv may jobs socks peers la lb n k φ react views views' log) (m : Nat) (o : Outcome) (hm : views[m]? = some o) :
    ∃ J, jobs[φ m]? = some J ∧ J.SeenAs (OrThrows (may k)) k o := by
  have hl := (List.getElem?_eq_some_iff.mp hm).1
  rw [h.length] at hl
  have hJ := List.getElem?_eq_getElem (hlt m hl)
  obtain ⟨o', h1, h2⟩ := h.seen (φ m) _ hJ
  rw [hff, hm] at h1
  injection h1 with h1
  subst h1
  exact ⟨_, hJ, h2⟩

/-- A task is one that listens or one of the application. -/
theorem Job.SeenAs.is {O : UserOp → Prop} {k : Nat} {o : Outcome} {J : Job} (h : J.SeenAs O k o) :
    (∃ hd, o = .run (listenTask hd)) ∨ ∃ ops, (∀ op ∈ ops, O op) ∧ o = .run (userTask ops) := by
  cases J with
  | app => exact .inr h
  | listens k' hd =>
    rcases h with ⟨_, h⟩ | ⟨_, h⟩
    · exact .inl ⟨hd, h⟩
    · exact .inr h

theorem Job.SeenAs.quiet {O : UserOp → Prop} {k : Nat} {o : Outcome} {J : Job} (h : J.SeenAs O k o) : o.quiet := by
  rcases h.is with ⟨hd, rfl⟩ | ⟨ops, _, rfl⟩ <;>
  · intro c hc
    rw [List.mem_singleton.mp hc]
    exact ⟨fun _ h => (by cases h), fun _ h => (by cases h)⟩

/-- **C80** (masking). If no user code changes whether socket `k` masks, each send on it is masked, or not, as the socket was created to do, whatever other sockets do. -/
theorem C80_masks (h : Net.Runs env penv may ⟨jobs.map Job.start, socks, peers⟩ la lb n) (k : Nat) (m : Bool) (hm : ∀ op, may k op → op.MasksAs m)
    (h0 : (socks k).st.sock.config.maskOutgoingMessages = m) : ∀ i, ∀ s ∈ sendsOf i (of k la), s.call.content.2.2.length < 2 ^ 63 → s.MaskedAs (env k) m := by
  obtain ⟨react, v, v', log, h⟩ := h.alone k id (fun _ => rfl) fun _ h => h
  have hO : ∀ op, OrThrows (may k) op → op.MasksAs m := by
    rintro op (ho | rfl)
    · exact hm op ho
    · trivial
  have hr := h.record
  rw [Process.renumber_id] at hr
  intro i s hs hsm
  rw [← sendsOf_said, ← hr, sendsOf_said] at hs
  rw [← Process.maskedAs_react _ react]
  refine (C78_masks (withReact (env k) react) (penv k) 0 m (.tasks ⟨v, socks k⟩) _ _ _ _ _ ⟨fun o ho => ?_, fun tr op ho => hO op (h.callbacks tr op ho), h0⟩ h.linked).1 i s hs hsm
  obtain ⟨i, hi⟩ := List.mem_iff_getElem?.mp ho
  obtain ⟨J, _, hJ⟩ := mem_of_seen (φ := id) (fun _ => rfl) (fun _ h => h) h i o hi
  rcases hJ.is with ⟨hd, rfl⟩ | ⟨ops, h1, rfl⟩
  · exact ⟨_, rfl, .listen hd⟩
  · exact ⟨_, rfl, .user ops fun op ho => hO op (h1 op ho)⟩

/-- **C80** (nothing undefined). If user code sends less than 2 GiB at a time, and on no socket changes the size of the read buffer, no task of the process reaches undefined behaviour, whatever all peers
send. -/
theorem C80_defined (h : Net.Runs env penv may ⟨jobs.map Job.start, socks, peers⟩ la lb n) (B : Nat → Int) (hm : ∀ k op, may k op → op.Careful (B k))
    (h0 : ∀ k, (socks k).st.sock.config.readBufferSize = B k) : ∀ k u, .ub k u ∉ n.tasks := by
  intro k u hu
  obtain ⟨react, v, v', log, h⟩ := h.alone k id (fun _ => rfl) fun _ h => h
  have hO : ∀ op, OrThrows (may k) op → op.Careful (B k) := by
    rintro op (ho | rfl)
    · exact hm k op ho
    · trivial
  obtain ⟨i, hi⟩ := List.mem_iff_getElem?.mp hu
  obtain ⟨o, h1, h2⟩ := h.tracks i _ hi
  rw [h2.ub u rfl] at h1
  refine C72_connected (withReact (env k) react) (penv k) 0 (B k) (.tasks ⟨v, socks k⟩) _ (.tasks ⟨v', n.socks k⟩) _ _ _ (fun tr op ho => hO op (h.callbacks tr op ho)) ⟨fun o ho => ?_, h0 k⟩ h.linked u (List.mem_of_getElem? h1)
  obtain ⟨i, hi⟩ := List.mem_iff_getElem?.mp ho
  obtain ⟨J, _, hJ⟩ := mem_of_seen (φ := id) (fun _ => rfl) (fun _ h => h) h i o hi
  rcases hJ.is with ⟨hd, rfl⟩ | ⟨ops, h1, rfl⟩
  · exact ⟨_, rfl, .listen hd⟩
  · exact ⟨_, rfl, .code ops fun op ho => hO op (h1 op ho)⟩

/-- **C80** (what the peers hear). If sends on socket `k` are serialised (as C71; sends on other sockets need not be), nobody calls another one after one has failed, and the calls are messages, or pings
and the like (`Speech`), ended or not by a close, then at every moment the peer's listener has heard exactly what the first calls say, in the order of the calls, each once, unchanged, and at most a part of
the next one; all of it, if no send on socket `k` has failed or is in progress, and the peer waits and has nothing more to read. Whichever tasks and callbacks have sent, and whatever other sockets do. -/
theorem C80_peer_hears (h : Net.Runs env penv may ⟨jobs.map Job.start, socks, peers⟩ la lb n) (k fuelB l B : Nat) (hB : (peers k).Listening (penv k) fuelB l B) (hf : (peers k).Enough fuelB)
    (hser : Serialised (of k la)) (hres : Resigned (of k la)) (cs last : List SendCall) (hc : callsOf (of k la) = cs ++ last) (ht : Speech cs last) :
    (∃ evs m part, (n.peers k).st.sock.trace = (peers k).st.sock.trace ++ evs ∧ HeardUpTo (callsOf (of k la)) l m part evs) ∧
    ((∀ e ∈ of k la, e.failed = false) → (∀ j, ¬ Sending j (of k la)) → (n.peers k).Waits → (n.peers k).st.inp.bytes = [] →
      ∃ evs, (n.peers k).st.sock.trace = (peers k).st.sock.trace ++ evs ∧ HeardWhole (callsOf (of k la)) l evs) := by
  obtain ⟨react, v, v', log, h⟩ := h.alone k id (fun _ => rfl) fun _ h => h
  have hr := h.record
  rw [Process.renumber_id] at hr
  have hA : (Endpoint.tasks ⟨v, socks k⟩).App (withReact (env k) react) 0 := by
    intro o ho
    obtain ⟨i, hi⟩ := List.mem_iff_getElem?.mp ho
    obtain ⟨J, _, hJ⟩ := mem_of_seen (φ := id) (fun _ => rfl) (fun _ h => h) h i o hi
    exact hJ.quiet
  rw [← serialised_said, ← hr, serialised_said] at hser
  rw [← resigned_said, ← hr, resigned_said] at hres
  rw [← noFailed_said, ← hr, noFailed_said]
  rw [← callsOf_said, ← hr, callsOf_said] at hc ⊢
  simp only [← sending_said _ (of k la)]
  simp only [← hr, sending_said]
  exact ⟨C71_any_moment _ _ 0 fuelB l B _ _ _ _ _ _ hA hB hf h.linked hser hres cs last hc ht, fun hok hs hw hn => Process.heard_when_quiet hA hB h.linked hser hok hc ht hw hn hs⟩

theorem reads_top (c : Co) (rest rest' : List Co) (l l' : Local) : Task.reads ⟨c :: rest, l⟩ = Task.reads ⟨c :: rest', l'⟩ := by
  cases c <;> rfl

/-- The task waits for input of socket `k`. -/
def WaitsOn (k : Nat) (s : Option State) : Prop := ∃ c rest l, s = some (.run ⟨.lib k c :: rest, l⟩) ∧ Task.reads ⟨[c], l⟩ = true

/-- **C80** (what the process hears). Task `i` listens on socket `k`; no other task does. User code does not exchange the listener `l` of this socket or the size `B` of its
read buffer. If at the peer sends are serialised, nobody calls another one after one has failed, and what they say is `Speech`, then at every moment the listener of socket `k` has heard exactly
what the first calls say, in order, each once, unchanged, and at most a part of the next one; all of it, if no send of the peer has failed or is in progress, and the task waits for input of this socket and
nothing more is to be read. -/
theorem C80_process_hears (h : Net.Runs env penv may ⟨jobs.map Job.start, socks, peers⟩ la lb n) (k i fuelA l B : Nat) (hd : Header)
    (hi : jobs[i]? = some (.listens k hd)) (hother : ∀ j J, jobs[j]? = some J → J.socket = some k → j = i)
    (hm : ∀ op, may k op → (fixedSettings l B).Op op) (hB : 0 < B) (h0 : (fixedSettings l B).In (socks k)) (hopen : OpenIs false (socks k).st.sock.lastOpcode) (hno : (socks k).st.inp.bytes = [])
    (hA : (peers k).App (penv k) fuelA)
    (hser : Serialised (of k lb)) (hres : Resigned (of k lb)) (cs last : List SendCall) (hc : callsOf (of k lb) = cs ++ last) (ht : Speech cs last) :
    (∃ evs m part, (n.socks k).st.sock.trace = (socks k).st.sock.trace ++ evs ∧ HeardUpTo (callsOf (of k lb)) l m part evs) ∧
    ((∀ e ∈ of k lb, e.failed = false) → (∀ j, ¬ Sending j (of k lb)) → WaitsOn k n.tasks[i]? → (n.socks k).st.inp.bytes = [] →
      ∃ evs, (n.socks k).st.sock.trace = (socks k).st.sock.trace ++ evs ∧ HeardWhole (callsOf (of k lb)) l evs) := by
  have hO : ∀ op, OrThrows (may k) op → (fixedSettings l B).Op op := by
    rintro op (ho | rfl)
    · exact hm op ho
    · trivial
  have hil : i < jobs.length := (List.getElem?_eq_some_iff.mp hi).1
  have h0l : 0 < jobs.length := Nat.lt_of_le_of_lt (Nat.zero_le _) hil
  have hff := Process.swap_swap i 0
  have hlt := Process.swap_lt hil h0l
  obtain ⟨react, v, v', log, h⟩ := h.alone k (swap i 0) hff hlt
  obtain ⟨o, h1, h2⟩ := h.seen i _ hi
  rw [Process.swap_left] at h1
  cases v with
  | nil => cases h1
  | cons o0 rest =>
  injection h1 with h1
  subst h1
  rcases h2 with ⟨_, rfl⟩ | ⟨hk, _⟩
  · have hoth : ∀ t ∈ rest, (fixedSettings l B).Task t := by
      intro o ho
      obtain ⟨m, hm⟩ := List.mem_iff_getElem?.mp ho
      obtain ⟨J, h1, h2⟩ := mem_of_seen hff hlt h (m + 1) o hm
      have hne : J.socket ≠ some k := fun hs => by
        have := congrArg (swap i 0) (hother _ J h1 hs)
        rw [hff, Process.swap_left] at this
        cases this
      have : ∃ ops, (∀ op ∈ ops, OrThrows (may k) op) ∧ o = .run (userTask ops) := by
        cases J with
        | app => exact h2
        | listens j hd =>
          rcases h2 with ⟨rfl, _⟩ | ⟨_, h2⟩
          · exact absurd rfl hne
          · exact h2
      obtain ⟨ops, h3, rfl⟩ := this
      intro c hc
      rw [List.mem_singleton.mp hc]
      refine ⟨trivial, fun u hu op hop => ?_⟩
      injection hu with hu
      subst hu
      exact hO op (h3 op hop)
    have hquiet : ∀ t ∈ Outcome.run (listenTask hd) :: rest, Outcome.quiet t := by
      intro o ho
      obtain ⟨m, hm⟩ := List.mem_iff_getElem?.mp ho
      obtain ⟨J, _, hJ⟩ := mem_of_seen hff hlt h m o hm
      exact hJ.quiet
    have hL : (Endpoint.tasks ⟨.run (listenTask hd) :: rest, socks k⟩).Listening (withReact (env k) react) 0 l B :=
      ⟨⟨⟨hd, rest, rfl, hoth⟩, fun tr op ho => hO op (h.callbacks tr op ho), by omega, h0, hopen, hno⟩, hquiet⟩
    have hE : (Endpoint.tasks ⟨.run (listenTask hd) :: rest, socks k⟩).Enough 0 := by
      intro o ho
      obtain ⟨m, hm⟩ := List.mem_iff_getElem?.mp ho
      obtain ⟨J, _, hJ⟩ := mem_of_seen hff hlt h m o hm
      rcases hJ.is with ⟨_, rfl⟩ | ⟨_, _, rfl⟩ <;> nofun
    have hwaits : WaitsOn k n.tasks[i]? → (Endpoint.tasks ⟨v', n.socks k⟩).Waits := by
      rintro ⟨c, rest, l, hx, hr⟩
      obtain ⟨o, h1, h2⟩ := h.tracks i _ hx
      rw [Process.swap_left] at h1
      obtain ⟨rest', l', rfl⟩ := h2.at_ c rest l rfl
      exact ⟨_, h1, (reads_top ..).trans hr⟩
    exact ⟨C71_any_moment _ _ fuelA 0 l B _ _ _ _ _ _ hA hL hE h.linked.swap hser hres cs last hc ht,
      fun hok hs hw hn => Process.heard_when_quiet hA hL h.linked.swap hser hok hc ht (hwaits hw) hn hs⟩
  · exact absurd rfl hk

/-! ## A concrete case -/

/-- A step of task `i` in the library; its user code does something with socket `k`, or ends; a step of thread or task `i` of peer `k`. -/
inductive Turn where
  | lib (i : Nat)
  | does (i k : Nat) (op : UserOp)
  | ends (i : Nat)
  | peer (k i : Nat)

/-- One of these; if it is not possible, nothing. -/
def Net.turn (env penv : Nat → Env) (t : Turn) (x : List (Nat × Entry) × List (Nat × Entry) × Net) : List (Nat × Entry) × List (Nat × Entry) × Net :=
  match x with
  | (la, lb, n) =>
    match t with
    | .lib i =>
      match n.tasks[i]? with
      | some (.run ⟨.lib k c :: rest, l⟩) =>
        match Task.ready ⟨[c], l⟩ (n.socks k), move env k c rest l n.socks with
        | true, some (s, ws) =>
          if (ws k).st.sock.out.written = (n.socks k).st.sock.out.written ++ (ws k).st.sock.out.written.drop (n.socks k).st.sock.out.written.length then
            (la ++ [(k, entryOf (env k) i ⟨[c], l⟩ (n.socks k) (ws k) ((ws k).st.sock.out.written.drop (n.socks k).st.sock.out.written.length))], lb,
              ⟨n.tasks.set i s, ws, put n.peers k ((n.peers k).receive ((ws k).st.sock.out.written.drop (n.socks k).st.sock.out.written.length))⟩)
          else (la, lb, n)
        | _, _ => (la, lb, n)
      | _ => (la, lb, n)
    | .does i k op =>
      match n.tasks[i]? with
      | some (.run ⟨.user _ :: rest, l⟩) =>
        match move env k (.user { ops := [op] }) rest l n.socks with
        | some (s, ws) => (la ++ [(k, entryOf (env k) i ⟨[.user { ops := [op] }], l⟩ (n.socks k) (ws k) [])], lb, ⟨n.tasks.set i s, ws, n.peers⟩)
        | none => (la, lb, n)
      | _ => (la, lb, n)
    | .ends i =>
      match n.tasks[i]? with
      | some (.run ⟨.user _ :: rest, l⟩) => (la, lb, ⟨n.tasks.set i (if rest = [] then .finished else .run ⟨rest, l⟩), n.socks, n.peers⟩)
      | _ => (la, lb, n)
    | .peer k i =>
      match (n.peers k).turn (penv k) i with
      | some (e, b) => (la, lb ++ [(k, e)], ⟨n.tasks, put n.socks k (reach (n.socks k) e.wrote), put n.peers k b⟩)
      | none => (la, lb, n)

def Net.play (env penv : Nat → Env) : List Turn → List (Nat × Entry) × List (Nat × Entry) × Net → List (Nat × Entry) × List (Nat × Entry) × Net
  | [], x => x
  | t :: ts, x => Net.play env penv ts (Net.turn env penv t x)

theorem Net.turn_runs {n0 : Net} (t : Turn) (ht : ∀ i k op, t = .does i k op → may k op) {x : List (Nat × Entry) × List (Nat × Entry) × Net}
    (h : Net.Runs env penv may n0 x.1 x.2.1 x.2.2) : Net.Runs env penv may n0 (Net.turn env penv t x).1 (Net.turn env penv t x).2.1 (Net.turn env penv t x).2.2 := by
  obtain ⟨la, lb, n⟩ := x
  cases t with
  | lib i =>
    dsimp only [Net.turn]
    split
    · rename_i k c rest l e
      split
      · rename_i s ws e1 e2
        split
        · rename_i e3
          exact .lib h e e1 e2 e3
        · exact h
      · exact h
    · exact h
  | does i k op =>
    dsimp only [Net.turn]
    split
    · rename_i b rest l e
      split
      · rename_i s ws e1
        exact .does h e (ht i k op rfl) e1
      · exact h
    · exact h
  | ends i =>
    dsimp only [Net.turn]
    split
    · rename_i b rest l e
      exact .ends h e
    · exact h
  | peer k i =>
    dsimp only [Net.turn]
    split
    · rename_i e b e1
      exact .peer h (Endpoint.turn_step e1)
    · exact h

theorem Net.play_runs {n0 : Net} (ts : List Turn) (ht : ∀ i k op, .does i k op ∈ ts → may k op) {x : List (Nat × Entry) × List (Nat × Entry) × Net}
    (h : Net.Runs env penv may n0 x.1 x.2.1 x.2.2) : Net.Runs env penv may n0 (Net.play env penv ts x).1 (Net.play env penv ts x).2.1 (Net.play env penv ts x).2.2 := by
  induction ts generalizing x with
  | nil => exact h
  | cons t ts ih => exact ih (fun i k op hm => ht i k op (List.mem_cons_of_mem _ hm)) (Net.turn_runs t (fun i k op e => ht i k op (by rw [e]; exact List.mem_cons_self ..)) h)

/-- A chat server: two tasks that listen, and one of the application. -/
def exRoomJobs : List Job := [.listens 0 default, .listens 1 default, .app]

def exRoomSocks (k : Nat) : World :=
  { st := { sock := { Sock.new { maskOutgoingMessages := false, readBufferSize := 2 } ⟨[], Fixture.slow 12⟩ with listener := some (7 + k) }, inp := ⟨[], Fixture.slow 12⟩ } }

/-- When the first client (of `Process.exChatPeers`) has said something, the coroutine that its callback returns says it to the second one. Then the task of the application says something to the first. -/
def exRoomTurns : List Turn := List.replicate 30 (.peer 0 1) ++ List.replicate 17 (.lib 0) ++ [.ends 0] ++ List.replicate 17 (.lib 0) ++ [.ends 0] ++ List.replicate 17 (.lib 0) ++ [.ends 0] ++
  List.replicate 17 (.lib 0) ++ [.does 0 1 (.send (.text (some [104, 105])) true)] ++
  List.replicate 30 (.lib 0) ++ [.ends 0] ++ List.replicate 20 (.lib 0) ++ [.does 2 0 (.send (.text (some [33])) true)] ++ List.replicate 30 (.lib 2) ++ [.ends 2] ++ List.replicate 3 (.lib 1) ++
  List.replicate 30 (.peer 0 0) ++ List.replicate 30 (.peer 1 0)

def exRoom := Net.play (fun _ => Fixture.env) (fun _ => Fixture.env) exRoomTurns ([], [], ⟨exRoomJobs.map Job.start, exRoomSocks, Process.exChatPeers⟩)

/-- The task waits for input of socket `j`. -/
def waitsOnNow (j : Nat) : Option State → Bool
  | some (.run ⟨.lib k c :: _, l⟩) => k == j && Task.reads ⟨[c], l⟩
  | _ => false

theorem waitsOnNow_sound {s : Option State} {k : Nat} (h : waitsOnNow k s = true) : WaitsOn k s := by
  unfold waitsOnNow at h
  split at h
  · obtain ⟨h1, h2⟩ := Bool.and_eq_true_iff.mp h
    rw [eq_of_beq h1]
    exact ⟨_, _, _, rfl, h2⟩
  · cases h

/-- What the first session has said to the second client. -/
theorem exRoom_said : (view (of 1 exRoom.1) (exRoom.2.2.peers 1), resignedNow (of 1 exRoom.1)) =
    (⟨true, true, [.text (some [104, 105])], [.completed], [], [.readMessage 2 1 [104], .readMessage 2 1 [105], .readMessage 2 1 []], [], true⟩, true) := by decide +kernel

/-- What the first client has said to the first session. -/
theorem exRoom_heard : (view (of 0 exRoom.2.1) (.tasks ⟨[], exRoom.2.2.socks 0⟩), resignedNow (of 0 exRoom.2.1), waitsOnNow 0 exRoom.2.2.tasks[0]?) =
    (⟨true, true, [.text (some [104, 105])], [], [.completed], [.readMessage 7 1 [104], .readMessage 7 1 [105], .readMessage 7 1 []], [], false⟩, true, true) := by decide +kernel

theorem exRoom_runs : Net.Runs (fun _ => Fixture.env) (fun _ => Fixture.env) Process.exChatMay ⟨exRoomJobs.map Job.start, exRoomSocks, Process.exChatPeers⟩ exRoom.1 exRoom.2.1 exRoom.2.2 := by
  unfold exRoom
  refine Net.play_runs _ (fun i k op h => ?_) .refl
  simp only [exRoomTurns, List.mem_append, List.mem_cons, List.mem_replicate, List.not_mem_nil, reduceCtorEq, and_false, or_false, false_or, Turn.does.injEq] at h
  rcases h with ⟨_, _, rfl⟩ | ⟨_, _, rfl⟩ <;> exact ⟨_, rfl, (by decide)⟩

/-- The hypotheses of the theorems above are met: the first client says "hi" to its session, which says it to the second client. -/
example : ∃ la lb n, Net.Runs (fun _ => Fixture.env) (fun _ => Fixture.env) Process.exChatMay ⟨exRoomJobs.map Job.start, exRoomSocks, Process.exChatPeers⟩ la lb n ∧
    callsOf (of 0 lb) = [.text (some [104, 105])] ∧ HeardWhole (callsOf (of 0 lb)) 7 (n.socks 0).st.sock.trace ∧
    callsOf (of 1 la) = [.text (some [104, 105])] ∧ HeardWhole (callsOf (of 1 la)) 2 (n.peers 1).st.sock.trace ∧
    (∀ k u, .ub k u ∉ n.tasks) ∧ ∀ s ∈ sendsOf 0 (of 1 la), s.call.content.2.2.length < 2 ^ 63 → s.MaskedAs Fixture.env false := by
  have hl := exRoom_runs
  have hA := exRoom_said
  have hB := exRoom_heard
  generalize exRoom.1 = la, exRoom.2.1 = lb, exRoom.2.2 = n at hl hA hB
  injection hA with hA a9
  injection hA with a1 a2 a3 a4 a5 a6 a7 a8
  injection hB with hB hB'
  injection hB with b1 b2 b3 b4 b5 b6 b7 b8
  injection hB' with b9 b10
  have okOf : ∀ {l : List Entry}, l.all (fun e => !e.failed && (e.task == 0 || e.task == 1)) = true → ∀ e ∈ l, e.failed = false := by
    intro l h e hm
    have := List.all_eq_true.mp h e hm
    simp at this
    exact this.1
  have hpeer : ∀ k, (Process.exChatPeers k).Listening Fixture.env 100 (1 + k) 2 := fun k => by
    refine ⟨⟨default, _, rfl, fun q hq => ?_⟩, fun _ _ h => (by cases h), by decide, ⟨⟨1 + k, rfl, rfl⟩, rfl, fun _ _ => trivial, rfl⟩, rfl⟩
    rw [List.mem_singleton.mp hq]
    refine .code _ fun op ho => ?_
    split at ho
    · rw [List.mem_singleton.mp ho]; trivial
    · cases ho
  obtain ⟨evs1, g1, g2⟩ := (C80_peer_hears hl 1 100 2 2 (hpeer 1) ⟨by decide, by decide⟩ (serialCheck_sound a1) (resignedNow_sound a9) _ [] (by rw [show callsOf (of 1 la) = _ from a3]; rfl) Process.exChat_speech).2
    (okOf a2) (Threads.quietLog a2 (n := 1) (m := 0) a4 a5) (Endpoint.waitsNow_waits a8) a7
  obtain ⟨evs0, g3, g4⟩ := (C80_process_hears hl 0 0 100 7 2 default rfl
    (fun j J hj hs => by
      match j, hj with
      | 0, _ => rfl
      | 1, hj => injection hj with hj; subst hj; cases hs
      | 2, hj => injection hj with hj; subst hj; cases hs)
    (fun op ho => by obtain ⟨m, rfl, _⟩ := ho; trivial) (by decide) ⟨rfl, rfl⟩ rfl rfl (hpeer 0).app
    (serialCheck_sound b1) (resignedNow_sound b9) _ [] (by rw [show callsOf (of 0 lb) = _ from b3]; rfl) Process.exChat_speech).2
    (okOf b2) (Threads.quietLog b2 (n := 0) (m := 1) b4 b5) (waitsOnNow_sound b10) b7
  have g1 : (n.peers 1).st.sock.trace = evs1 := g1
  have g3 : (n.socks 0).st.sock.trace = evs0 := g3
  subst g1 g3
  refine ⟨la, lb, n, hl, b3, g4, a3, g2, C80_defined hl (fun _ => 2) (fun k op ho => ?_) fun k => rfl, C80_masks hl 1 false (fun op ho => ?_) rfl 0⟩
  · obtain ⟨m, rfl, hm⟩ := ho
    exact Nat.lt_of_le_of_lt hm (by decide)
  · obtain ⟨m, rfl, hm⟩ := ho
    trivial

end OatWS.AsyncProcess
