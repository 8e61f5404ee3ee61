import Verif.Proofs.ProcessAlone
import Verif.Props.Defined
import Verif.Props.Masking
/-! # C79: many sockets in one process -/

namespace OatWS.Process
open RFC6455 Async Network

variable {env penv : Nat → Env} {may : Nat → UserOp → Prop} {fuel : Nat} {jobs : List Job} {socks : Nat → St} {peers : Nat → Endpoint} {la lb : List (Nat × Entry)} {n : Net}

/-- **C79.** A process has any number of sockets, each connected to a peer of its own (blocking or async), and any number of threads: sessions, threads that listen on a socket, threads of the
application; all user code, in callbacks too, may use all sockets (`may k op`: operations on socket `k`), as it likes, depending on anything it knows. Then the execution, in any order of steps, as far as
it concerns socket `k` and its peer (`of k`) is one of a process that has this socket only: its threads and callbacks do the same with socket `k`, and nothing else. (User code may end with an exception, as
it could come from another socket.) -/
theorem C79_alone (h : Net.Runs env penv may ⟨jobs.map (Job.code env fuel), socks, peers⟩ la lb n) (k : Nat) :
    ∃ react views views',
      (∀ tr, ∀ op ∈ react tr, OrThrows (may k) op) ∧ views.length = jobs.length ∧
      (∀ (i : Nat) J, jobs[i]? = some J → ∃ q, views[i]? = some q ∧ J.SeenAs (OrThrows (may k)) { env k with react := react } fuel k q) ∧
      (∀ (i : Nat) g, n.threads[i]? = some g → ∃ q, views'[i]? = some q ∧ Tracks k g q) ∧
      Linked { env k with react := react } (penv k) (.threads ⟨views, socks k⟩) (peers k) (of k la) (of k lb) (.threads ⟨views', n.socks k⟩) (n.peers k) := by
  obtain ⟨react, v, v', h1, h2, h3, h4, h5⟩ := h.alone k id (fun _ => rfl) fun _ h => h
  rw [renumber_id] at h5
  exact ⟨react, v, v', h1, h2, h3, h4, h5⟩

/-! ## What follows -/

theorem mem_of_seen {f : Nat → Nat} {react views views'} {k : Nat} (hff : ∀ i, f (f i) = i) (hlt : ∀ i, i < jobs.length → f i < jobs.length)
    (h : Alone env penv may fuel jobs socks peers la lb n k f react views views') (m : Nat) (q : Threads.Prog Unit) (hm : views[m]? = some q) :
    ∃ J, jobs[f m]? = some J ∧ J.SeenAs (OrThrows (may k)) (withReact (env k) react) fuel k q := by
  have hl := (List.getElem?_eq_some_iff.mp hm).1
  rw [h.length] at hl
  have hJ := List.getElem?_eq_getElem (hlt m hl)
  obtain ⟨q', h1, h2⟩ := h.seen (f m) _ hJ
  rw [hff, hm] at h1
  injection h1 with h1
  subst h1
  exact ⟨_, hJ, h2⟩

theorem Job.SeenAs.code {O P : UserOp → Prop} {e : Env} {k : Nat} {q : Threads.Prog Unit} {J : Job} (h : J.SeenAs O e fuel k q) (hO : ∀ op, O op → P op) : Threads.CodeOf P e fuel q := by
  cases J with
  | app => exact .helper (Threads.HelperCode.weaken h hO)
  | listens j hd =>
    rcases h with ⟨_, rfl⟩ | ⟨_, h⟩
    · exact .listen hd
    · exact .helper (Threads.HelperCode.weaken h hO)
  | session j hd =>
    rcases h with ⟨_, c, d, h1, rfl⟩ | ⟨_, h⟩
    · exact .bind (.helper (.code _ fun op ho => hO _ (h1 op (List.mem_append_left _ ho)))) fun _ => .bind (.listen hd) fun _ =>
        .helper (.code _ fun op ho => hO _ (h1 op (List.mem_append_right _ ho)))
    · exact .helper (Threads.HelperCode.weaken h hO)

theorem helper_careful {B : Int} {e : Env} {α : Type} {q : Threads.Prog α} (h : Threads.HelperCode (UserOp.Careful B) e fuel q) : Threads.CarefulCode e fuel B q := by
  induction h with
  | ret a => exact .ret a
  | throw e => exact .throw e
  | bind _ _ h1 h2 => exact .bind h1 h2
  | catching _ _ h1 h2 => exact .catching h1 h2
  | code ops h => exact .code ops h
  | send c h => exact .send c h
  | stream c h p _ _ => exact .stream c h _ _ p

theorem Job.SeenAs.careful {O : UserOp → Prop} {B : Int} {e : Env} {k : Nat} {q : Threads.Prog Unit} {J : Job} (h : J.SeenAs O e fuel k q) (hO : ∀ op, O op → op.Careful B) :
    Threads.CarefulThread e fuel B q := by
  cases J with
  | app => exact helper_careful (Threads.HelperCode.weaken h hO)
  | listens j hd =>
    rcases h with ⟨_, rfl⟩ | ⟨_, h⟩
    · exact .listen hd
    · exact helper_careful (Threads.HelperCode.weaken h hO)
  | session j hd =>
    rcases h with ⟨_, c, d, h1, rfl⟩ | ⟨_, h⟩
    · exact .bind (.code _ fun op ho => hO _ (h1 op (List.mem_append_left _ ho))) fun _ => .bind (.listen hd) fun _ => .code _ fun op ho => hO _ (h1 op (List.mem_append_right _ ho))
    · exact helper_careful (Threads.HelperCode.weaken h hO)

theorem maskedAs_react (e : Env) (react : List Event → List UserOp) (m : Bool) (s : Sent) : s.MaskedAs (withReact e react) m ↔ s.MaskedAs e m := by
  have : ∀ f, Carries (withReact e react) s.call f ↔ Carries e s.call f := fun f =>
    ⟨fun h => ⟨h.fin, h.opcode, h.rsv, h.payload, h.key⟩, fun h => ⟨h.fin, h.opcode, h.rsv, h.payload, h.key⟩⟩
  unfold Sent.MaskedAs
  simp only [this]
  exact Iff.rfl

/-- **C79** (masking). If no user code changes whether socket `k` masks, each send on it is masked, or not, as the socket was created to do, whatever other sockets do. -/
theorem C79_masks (h : Net.Runs env penv may ⟨jobs.map (Job.code env fuel), socks, peers⟩ la lb n) (k : Nat) (m : Bool) (hm : ∀ op, may k op → op.MasksAs m)
    (h0 : (socks k).sock.config.maskOutgoingMessages = m) : ∀ i, ∀ s ∈ sendsOf i (of k la), s.call.content.2.2.length < 2 ^ 63 → s.MaskedAs (env k) m := by
  obtain ⟨react, v, v', h⟩ := h.alone k id (fun _ => rfl) fun _ h => h
  have hO : ∀ op, OrThrows (may k) op → op.MasksAs m := by
    rintro op (ho | rfl)
    · exact hm op ho
    · trivial
  have hl := h.linked
  rw [renumber_id] at hl
  intro i s hs hsm
  rw [← maskedAs_react _ react]
  refine (C78_masks (withReact (env k) react) (penv k) fuel m (.threads ⟨v, socks k⟩) _ _ _ _ _ ⟨fun q hq => ?_, fun tr op ho => hO op (h.callbacks tr op ho), h0⟩ hl).1 i s hs hsm
  obtain ⟨i, hi⟩ := List.mem_iff_getElem?.mp hq
  obtain ⟨J, _, hJ⟩ := mem_of_seen (f := id) (fun _ => rfl) (fun _ h => h) h i q hi
  exact hJ.code hO

/-- **C79** (nothing undefined). If user code sends less than 2 GiB at a time, and on no socket changes the size of the read buffer, no thread of the process reaches undefined behaviour, whatever all peers
send. -/
theorem C79_defined (h : Net.Runs env penv may ⟨jobs.map (Job.code env fuel), socks, peers⟩ la lb n) (B : Nat → Int) (hm : ∀ k op, may k op → op.Careful (B k))
    (h0 : ∀ k, (socks k).sock.config.readBufferSize = B k) : ∀ k u, .ub k u ∉ n.threads := by
  intro k u hu
  obtain ⟨react, v, v', h⟩ := h.alone k id (fun _ => rfl) fun _ h => h
  have hO : ∀ op, OrThrows (may k) op → op.Careful (B k) := by
    rintro op (ho | rfl)
    · exact hm k op ho
    · trivial
  obtain ⟨i, hi⟩ := List.mem_iff_getElem?.mp hu
  obtain ⟨q, h1, h2⟩ := h.tracks i _ hi
  rw [h2.ub u rfl] at h1
  have hl := h.linked
  rw [renumber_id] at hl
  refine C72_connected (withReact (env k) react) (penv k) fuel (B k) (.threads ⟨v, socks k⟩) _ (.threads ⟨v', n.socks k⟩) _ _ _ (fun tr op ho => hO op (h.callbacks tr op ho)) ⟨fun q hq => ?_, h0 k⟩ hl u (List.mem_of_getElem? h1)
  obtain ⟨i, hi⟩ := List.mem_iff_getElem?.mp hq
  obtain ⟨J, _, hJ⟩ := mem_of_seen (f := id) (fun _ => rfl) (fun _ h => h) h i q hi
  exact hJ.careful hO

/-- Whenever the listening thread or task waits for input and there is none, and the sender is not in the middle of a send, all has been heard. -/
theorem heard_when_quiet {envA envB : Env} {fuelA fuelB l B : Nat} {a0 b0 a b : Endpoint} {logA logB : List Entry} (hA : a0.App envA fuelA) (hB : b0.Listening envB fuelB l B)
    (h : Linked envA envB a0 b0 logA logB a b) (hser : Serialised logA) (hok : ∀ e ∈ logA, e.failed = false) {cs last : List SendCall} (hc : callsOf logA = cs ++ last) (ht : Speech cs last)
    (hw : b.Waits) (hn : b.st.inp.bytes = []) (hs : ∀ j, ¬ Sending j logA) : ∃ evs, b.st.sock.trace = b0.st.sock.trace ++ evs ∧ HeardWhole (callsOf logA) l evs := by
  obtain ⟨F, hF, hpre, hall⟩ := h.fed.1.sent hA hser hok (by rw [hc]; exact ht.small)
  obtain ⟨got, ds, r, evs, g1, g2, g3, g4, g5, g6, g7⟩ := h.fed.2.heard hB (.inl hw)
  rw [hc] at hF ⊢
  obtain ⟨k1, k2, k3⟩ := ht.heard hF hpre g1 g3 g5 g4
  exact ⟨evs, g2, k1 (hall hs) hn⟩

theorem session_heard_when_quiet {envA envB : Env} {fuelA fuelB l B : Nat} {a0 a b : Endpoint} {p0 : Threads.Pool} {created destroyed : List UserOp} {logA logB : List Entry} (hA : a0.App envA fuelA)
    (hB : Threads.Session envB fuelB l B created destroyed p0)
    (h : Linked envA envB a0 (.threads p0) logA logB a b) (hser : Serialised logA) (hok : ∀ e ∈ logA, e.failed = false) {cs last : List SendCall} (hc : callsOf logA = cs ++ last) (ht : Speech cs last)
    (hw : b.Waits) (hn : b.st.inp.bytes = []) (hs : ∀ j, ¬ Sending j logA) : ∃ evs, b.st.sock.trace = p0.st.sock.trace ++ evs ∧ HeardWhole (callsOf logA) l evs := by
  obtain ⟨F, hF, hpre, hall⟩ := h.fed.1.sent hA hser hok (by rw [hc]; exact ht.small)
  obtain ⟨got, ds, r, evs, g1, g2, g3, g4, g5, g6, g7⟩ := h.fed.2.session hB (.inl hw)
  rw [hc] at hF ⊢
  obtain ⟨k1, k2, k3⟩ := ht.heard hF hpre g1 g3 g5 g4
  exact ⟨evs, g2, k1 (hall hs) hn⟩

/-- **C79** (what the peers hear). If sends on socket `k` are serialised (as C71; sends on other sockets need not be), nobody calls another one after one has failed, and the calls are messages, or pings
and the like (`Speech`), ended or not by a close, then at every moment the peer's listener has heard exactly what the first calls say, in the order of the calls, each once, unchanged, and at most a part of
the next one; all of it, if no send on socket `k` has failed or is in progress, and the peer waits and has nothing more to read. Whichever threads and callbacks have sent, and whatever other sockets do. -/
theorem C79_peer_hears (h : Net.Runs env penv may ⟨jobs.map (Job.code env fuel), socks, peers⟩ la lb n) (k fuelB l B : Nat) (hB : (peers k).Listening (penv k) fuelB l B) (hf : (peers k).Enough fuelB)
    (hser : Serialised (of k la)) (hres : Resigned (of k la)) (cs last : List SendCall) (hc : callsOf (of k la) = cs ++ last) (ht : Speech cs last) :
    (∃ evs m part, (n.peers k).st.sock.trace = (peers k).st.sock.trace ++ evs ∧ HeardUpTo (callsOf (of k la)) l m part evs) ∧
    ((∀ e ∈ of k la, e.failed = false) → (∀ j, ¬ Sending j (of k la)) → (n.peers k).Waits → (n.peers k).st.inp.bytes = [] →
      ∃ evs, (n.peers k).st.sock.trace = (peers k).st.sock.trace ++ evs ∧ HeardWhole (callsOf (of k la)) l evs) := by
  obtain ⟨react, v, v', h⟩ := h.alone k id (fun _ => rfl) fun _ h => h
  have hl := h.linked
  rw [renumber_id] at hl
  have hA : (Endpoint.threads ⟨v, socks k⟩).App (withReact (env k) react) fuel := by
    intro q hq
    obtain ⟨i, hi⟩ := List.mem_iff_getElem?.mp hq
    obtain ⟨J, _, hJ⟩ := mem_of_seen (f := id) (fun _ => rfl) (fun _ h => h) h i q hi
    exact (hJ.code (P := fun _ => True) fun _ _ => trivial).app
  exact ⟨C71_any_moment _ _ fuel fuelB l B _ _ _ _ _ _ hA hB hf hl hser hres cs last hc ht, fun hok hs hw hn => heard_when_quiet hA hB hl hser hok hc ht hw hn hs⟩

theorem listenerAfter_steady {l B : Nat} (ops : List UserOp) (h : ∀ op ∈ ops, (Threads.steady l B).Op op) : listenerAfter ops (some l) = some l ∧ sizeAfter ops B = B := by
  induction ops with
  | nil => exact ⟨rfl, rfl⟩
  | cons op ops ih =>
    obtain ⟨h1, h2⟩ := ih fun op ho => h op (List.mem_cons_of_mem _ ho)
    have h0 := h op (List.mem_cons_self ..)
    cases op with
    | setListener x =>
      obtain ⟨i, rfl, hi⟩ := h0
      have hi : i = l := hi
      subst hi
      exact ⟨h1, h2⟩
    | setConfig c =>
      have h0 : c.readBufferSize = (B : Int) := h0
      refine ⟨h1, ?_⟩
      show sizeAfter ops c.readBufferSize = B
      rw [h0]
      exact h2
    | _ => exact ⟨h1, h2⟩

/-- **C79** (what the process hears). Thread `i` is the session of socket `k`, or listens on it; no other thread does. User code does not exchange the listener `l` of this socket or the size `B` of its
read buffer. If at the peer sends are serialised, nobody calls another one after one has failed, and what they say is `Speech`, then at every moment the listener of socket `k` has heard exactly
what the first calls say, in order, each once, unchanged, and at most a part of the next one; all of it, if no send of the peer has failed or is in progress, and the thread is about to read from this socket and
nothing more is to be read. -/
theorem C79_process_hears (h : Net.Runs env penv may ⟨jobs.map (Job.code env fuel), socks, peers⟩ la lb n) (k i fuelA l B : Nat) (hd : Header)
    (hi : jobs[i]? = some (.listens k hd) ∨ jobs[i]? = some (.session k hd)) (hother : ∀ j J, jobs[j]? = some J → J.socket = some k → j = i)
    (hm : ∀ op, may k op → (Threads.steady l B).Op op) (hB : 0 < B) (h0 : (Threads.steady l B).In false (socks k)) (hno : (socks k).inp.bytes = [])
    (hf1 : (socks k).inp.sched.length < fuel) (hf2 : (socks k).sock.out.sched.length < fuel) (hA : (peers k).App (penv k) fuelA)
    (hser : Serialised (of k lb)) (hres : Resigned (of k lb)) (cs last : List SendCall) (hc : callsOf (of k lb) = cs ++ last) (ht : Speech cs last) :
    (∃ evs m part, (n.socks k).sock.trace = (socks k).sock.trace ++ evs ∧ HeardUpTo (callsOf (of k lb)) l m part evs) ∧
    ((∀ e ∈ of k lb, e.failed = false) → (∀ j, ¬ Sending j (of k lb)) → (∃ c x, n.threads[i]? = some (.act k (.read c) x)) → (n.socks k).inp.bytes = [] →
      ∃ evs, (n.socks k).sock.trace = (socks k).sock.trace ++ evs ∧ HeardWhole (callsOf (of k lb)) l evs) := by
  have hO : ∀ op, OrThrows (may k) op → (Threads.steady l B).Op op := by
    rintro op (ho | rfl)
    · exact hm op ho
    · trivial
  have hil : i < jobs.length := by
    rcases hi with hi | hi <;> exact (List.getElem?_eq_some_iff.mp hi).1
  have h0l : 0 < jobs.length := Nat.lt_of_le_of_lt (Nat.zero_le _) hil
  have hff := swap_swap i 0
  have hlt := swap_lt hil h0l
  obtain ⟨react, v, v', h⟩ := h.alone k (swap i 0) hff hlt
  have hreact : (Threads.steady l B).Reacts (withReact (env k) react) := fun tr op ho => hO op (h.callbacks tr op ho)
  have hoth : ∀ q0 rest, v = q0 :: rest → ∀ q ∈ rest, (Threads.steady l B).Helper (withReact (env k) react) fuel q := by
    intro q0 rest e q hq
    obtain ⟨m, hm⟩ := List.mem_iff_getElem?.mp hq
    obtain ⟨J, h1, h2⟩ := mem_of_seen hff hlt h (m + 1) q (by rw [e]; exact hm)
    have hne : J.socket ≠ some k := fun hs => by
      have := hother _ J h1 hs
      have := congrArg (swap i 0) this
      rw [hff, swap_left] at this
      cases this
    cases J with
    | app => exact Threads.HelperCode.weaken h2 hO
    | listens j hd =>
      rcases h2 with ⟨rfl, _⟩ | ⟨_, h2⟩
      · exact absurd rfl hne
      · exact Threads.HelperCode.weaken h2 hO
    | session j hd =>
      rcases h2 with ⟨rfl, _⟩ | ⟨_, h2⟩
      · exact absurd rfl hne
      · exact Threads.HelperCode.weaken h2 hO
  have hwaits : (∃ c x, n.threads[i]? = some (.act k (.read c) x)) → (Endpoint.threads ⟨v', n.socks k⟩).Waits := by
    rintro ⟨c, x, hx⟩
    obtain ⟨q, h1, h2⟩ := h.tracks i _ hx
    rw [swap_left] at h1
    obtain ⟨c', rfl⟩ := h2.act _ _ rfl
    exact ⟨_, h1, rfl⟩
  have hseen : ∀ J, jobs[i]? = some J → ∃ q rest, v = q :: rest ∧ J.SeenAs (OrThrows (may k)) (withReact (env k) react) fuel k q := by
    intro J hJ
    obtain ⟨q, h1, h2⟩ := h.seen i J hJ
    rw [swap_left] at h1
    cases v with
    | nil => cases h1
    | cons q0 rest =>
      injection h1 with h1
      subst h1
      exact ⟨_, _, rfl, h2⟩
  rcases hi with hi | hi
  · obtain ⟨q, rest, rfl, ⟨_, rfl⟩ | ⟨hk, _⟩⟩ := hseen _ hi
    · have hL : (Endpoint.threads ⟨Threads.listenT (withReact (env k) react) fuel hd :: rest, socks k⟩).Listening (withReact (env k) react) fuel l B :=
        ⟨⟨hd, rest, rfl, hoth _ _ rfl⟩, hreact, hB, h0, hno⟩
      exact ⟨C71_any_moment _ _ fuelA fuel l B _ _ _ _ _ _ hA hL ⟨hf1, hf2⟩ h.linked.swap hser hres cs last hc ht,
        fun hok hs hw hn => heard_when_quiet hA hL h.linked.swap hser hok hc ht (hwaits hw) hn hs⟩
    · exact absurd rfl hk
  · obtain ⟨q, rest, rfl, ⟨_, created, destroyed, h1, rfl⟩ | ⟨hk, _⟩⟩ := hseen _ hi
    · obtain ⟨x, hx, rfl⟩ := h0.listener
      have hcr := listenerAfter_steady (l := x) (B := B) created fun op ho => hO op (h1 op (List.mem_append_left _ ho))
      have hS : Threads.Session (withReact (env k) react) fuel x B created destroyed ⟨Threads.sessionT (withReact (env k) react) fuel created hd destroyed :: rest, socks k⟩ :=
        ⟨⟨hd, rest, rfl, hoth _ _ rfl⟩, by rw [hx]; exact hcr.1, by rw [h0.size]; exact hcr.2, fun op ho => hO op (h1 op (List.mem_append_right _ ho)), hreact, hB, h0.opened, hno⟩
      exact ⟨C71_session _ _ fuelA fuel x B _ _ _ _ created destroyed _ _ hA hS ⟨hf1, hf2⟩ h.linked.swap hser hres cs last hc ht,
        fun hok hs hw hn => session_heard_when_quiet hA hS h.linked.swap hser hok hc ht (hwaits hw) hn hs⟩
    · exact absurd rfl hk

/-! ## A concrete case -/

/-- A step of thread `i` of the process; its user code makes a choice; a step of thread or task `i` of peer `k`. -/
inductive Turn where
  | own (i : Nat)
  | chooses (i : Nat) (cs : List (Nat × UserOp))
  | peer (k i : Nat)

/-- One of these; if it is not possible, nothing. -/
def Net.turn (env penv : Nat → Env) (t : Turn) (x : List (Nat × Entry) × List (Nat × Entry) × Net) : List (Nat × Entry) × List (Nat × Entry) × Net :=
  match x with
  | (la, lb, n) =>
    match t with
    | .own i =>
      match n.threads[i]? with
      | some (.act k a c) =>
        match Threads.Ready a (n.socks k), Threads.exec (env k) a (n.socks k) with
        | true, some (r, st') => (la ++ [(k, Threads.entry i a (n.socks k) st')], lb,
            ⟨n.threads.set i (c r), upd n.socks k st', upd n.peers k ((n.peers k).receive (Threads.entry i a (n.socks k) st').wrote)⟩)
        | _, _ => (la, lb, n)
      | _ => (la, lb, n)
    | .chooses i cs =>
      match n.threads[i]? with
      | some (.choose c) => (la, lb, ⟨n.threads.set i (c cs), n.socks, n.peers⟩)
      | _ => (la, lb, n)
    | .peer k i =>
      match (n.peers k).turn (penv k) i with
      | some (e, b) => (la, lb ++ [(k, e)], ⟨n.threads, upd n.socks k (arrive (n.socks k) e.wrote), upd n.peers k b⟩)
      | none => (la, lb, n)

def Net.play (env penv : Nat → Env) : List Turn → List (Nat × Entry) × List (Nat × Entry) × Net → List (Nat × Entry) × List (Nat × Entry) × Net
  | [], x => x
  | t :: ts, x => Net.play env penv ts (Net.turn env penv t x)

theorem Net.turn_runs {n0 : Net} (t : Turn) (ht : ∀ i cs, t = .chooses i cs → ∀ x ∈ cs, may x.1 x.2) {x : List (Nat × Entry) × List (Nat × Entry) × Net}
    (h : Net.Runs env penv may n0 x.1 x.2.1 x.2.2) : Net.Runs env penv may n0 (Net.turn env penv t x).1 (Net.turn env penv t x).2.1 (Net.turn env penv t x).2.2 := by
  obtain ⟨la, lb, n⟩ := x
  cases t with
  | own i =>
    dsimp only [Net.turn]
    split
    · rename_i k a c e
      split
      · rename_i r st' e1 e2
        exact .own h e e1 e2
      · exact h
    · exact h
  | chooses i cs =>
    dsimp only [Net.turn]
    split
    · rename_i c e
      exact .chooses h e (ht i cs rfl)
    · exact h
  | peer k i =>
    dsimp only [Net.turn]
    split
    · rename_i e b e1
      exact .peer h (Endpoint.turn_step e1)
    · exact h

theorem Net.play_runs {n0 : Net} (ts : List Turn) (ht : ∀ i cs, .chooses i cs ∈ ts → ∀ x ∈ cs, may x.1 x.2) {x : List (Nat × Entry) × List (Nat × Entry) × Net}
    (h : Net.Runs env penv may n0 x.1 x.2.1 x.2.2) : Net.Runs env penv may n0 (Net.play env penv ts x).1 (Net.play env penv ts x).2.1 (Net.play env penv ts x).2.2 := by
  induction ts generalizing x with
  | nil => exact h
  | cons t ts ih => exact ih (fun i cs hm => ht i cs (List.mem_cons_of_mem _ hm)) (Net.turn_runs t (fun i cs e => ht i cs (by rw [e]; exact List.mem_cons_self ..)) h)

/-- A chat server with two sessions. -/
def exChatJobs : List Job := [.session 0 default, .session 1 default]

def exChatSocks (k : Nat) : St := { sock := { Sock.new { maskOutgoingMessages := false, readBufferSize := 2 } ⟨[], Fixture.slow 12⟩ with listener := some (7 + k) }, inp := ⟨[], Fixture.slow 12⟩ }

/-- Two clients: the first one says something. -/
def exChatPeers (k : Nat) : Endpoint := .threads
  ⟨[Threads.listenT Fixture.env 100 default, Threads.userOpsT Fixture.env 100 (if k = 0 then [.send (.text (some [104, 105])) true] else [])],
    { sock := { Sock.new { maskOutgoingMessages := true, readBufferSize := 2 } ⟨[], Fixture.slow 12⟩ with listener := some (1 + k) }, inp := ⟨[], Fixture.slow 12⟩ }⟩

/-- What user code of the server does: it sends text messages. -/
def exChatMay (_ : Nat) (op : UserOp) : Prop := ∃ m, op = .send (.text (some m)) true ∧ m.length ≤ 2

/-- When the first client has said something, the callback of its session says it to the second one and answers the first one. -/
def exChatTurns : List Turn := [.chooses 0 [], .chooses 1 []] ++ List.replicate 30 (.peer 0 1) ++ List.replicate 40 (.own 0) ++ [.chooses 0 []] ++ List.replicate 40 (.own 0) ++
  [.chooses 0 []] ++ List.replicate 40 (.own 0) ++ [.chooses 0 [(1, .send (.text (some [104, 105])) true), (0, .send (.text (some [33])) true)]] ++ List.replicate 50 (.own 0) ++ List.replicate 3 (.own 1) ++
  List.replicate 30 (.peer 0 0) ++ List.replicate 30 (.peer 1 0)

def exChat := Net.play (fun _ => Fixture.env) (fun _ => Fixture.env) exChatTurns ([], [], ⟨exChatJobs.map (Job.code (fun _ => Fixture.env) 100), exChatSocks, exChatPeers⟩)

/-- The thread is about to read from socket `j`. -/
def readsNow (j : Nat) : Code Unit → Bool
  | .act k (.read _) _ => k == j
  | _ => false

theorem readsNow_sound {g : Code Unit} {k : Nat} (h : readsNow k g = true) : ∃ c x, g = .act k (.read c) x := by
  unfold readsNow at h
  split at h
  · rw [eq_of_beq h]
    exact ⟨_, _, rfl⟩
  · cases h

/-- What the first session has said to the second client. -/
theorem exChat_said : (view (of 1 exChat.1) (exChat.2.2.peers 1), resignedNow (of 1 exChat.1)) =
    (⟨true, true, [.text (some [104, 105])], [.completed], [], [.readMessage 2 1 [104], .readMessage 2 1 [105], .readMessage 2 1 []], [], true⟩, true) := by decide +kernel

/-- What the first client has said to the first session. -/
theorem exChat_heard : (view (of 0 exChat.2.1) (.threads ⟨[], exChat.2.2.socks 0⟩), resignedNow (of 0 exChat.2.1), exChat.2.2.threads[0]?.map (readsNow 0)) =
    (⟨true, true, [.text (some [104, 105])], [], [.completed], [.readMessage 7 1 [104], .readMessage 7 1 [105], .readMessage 7 1 []], [], false⟩, true, some true) := by decide +kernel

theorem exChat_runs : Net.Runs (fun _ => Fixture.env) (fun _ => Fixture.env) exChatMay ⟨exChatJobs.map (Job.code (fun _ => Fixture.env) 100), exChatSocks, exChatPeers⟩ exChat.1 exChat.2.1 exChat.2.2 := by
  unfold exChat
  refine Net.play_runs _ (fun i cs h => ?_) .refl
  simp only [exChatTurns, List.mem_append, List.mem_cons, List.mem_replicate, List.not_mem_nil, reduceCtorEq, and_false, or_false, Turn.chooses.injEq] at h
  rcases h with (((⟨_, rfl⟩ | ⟨_, rfl⟩) | ⟨_, rfl⟩) | ⟨_, rfl⟩) | ⟨_, rfl⟩
  · nofun
  · nofun
  · nofun
  · nofun
  · intro x hx
    simp only [List.mem_cons, List.not_mem_nil, or_false] at hx
    rcases hx with rfl | rfl <;> exact ⟨_, rfl, by decide⟩

theorem exChat_speech : Speech [.text (some [104, 105])] [] := by
  refine ⟨⟨rfl, trivial⟩, .inl rfl, fun c hc => ?_⟩
  rw [List.append_nil] at hc
  rw [List.mem_singleton.mp hc]
  exact Nat.lt_of_le_of_lt (by decide : _ ≤ 2) (by decide)

/-- The hypotheses of the theorems above are met: the first client says "hi" to its session, which says it to the second client. -/
example : ∃ la lb n, Net.Runs (fun _ => Fixture.env) (fun _ => Fixture.env) exChatMay ⟨exChatJobs.map (Job.code (fun _ => Fixture.env) 100), exChatSocks, exChatPeers⟩ la lb n ∧
    callsOf (of 0 lb) = [.text (some [104, 105])] ∧ HeardWhole (callsOf (of 0 lb)) 7 (n.socks 0).sock.trace ∧
    callsOf (of 1 la) = [.text (some [104, 105])] ∧ HeardWhole (callsOf (of 1 la)) 2 (n.peers 1).st.sock.trace ∧
    (∀ k u, .ub k u ∉ n.threads) ∧ ∀ s ∈ sendsOf 0 (of 1 la), s.call.content.2.2.length < 2 ^ 63 → s.MaskedAs Fixture.env false := by
  have hl := exChat_runs
  have hA := exChat_said
  have hB := exChat_heard
  generalize exChat.1 = la, exChat.2.1 = lb, exChat.2.2 = n at hl hA hB
  injection hA with hA a9
  injection hA with a1 a2 a3 a4 a5 a6 a7 a8
  injection hB with hB hB'
  injection hB with b1 b2 b3 b4 b5 b6 b7 b8
  injection hB' with b9 b10
  have okOf : ∀ {l : List Entry}, l.all (fun e => !e.failed && (e.task == 0 || e.task == 1)) = true → ∀ e ∈ l, e.failed = false := by
    intro l h e hm
    have := List.all_eq_true.mp h e hm
    simp at this
    exact this.1
  have hpeer : ∀ k, (exChatPeers k).Listening Fixture.env 100 (1 + k) 2 := fun k => by
    refine ⟨⟨default, _, rfl, fun q hq => ?_⟩, fun _ _ h => (by cases h), by decide, ⟨⟨1 + k, rfl, rfl⟩, rfl, fun _ _ => trivial, rfl⟩, rfl⟩
    rw [List.mem_singleton.mp hq]
    refine .code _ fun op ho => ?_
    split at ho
    · rw [List.mem_singleton.mp ho]; trivial
    · cases ho
  obtain ⟨evs1, g1, g2⟩ := (C79_peer_hears hl 1 100 2 2 (hpeer 1) ⟨by decide, by decide⟩ (serialCheck_sound a1) (resignedNow_sound a9) _ [] (by rw [show callsOf (of 1 la) = _ from a3]; rfl) exChat_speech).2
    (okOf a2) (Threads.quietLog a2 (n := 1) (m := 0) a4 a5) (Endpoint.waitsNow_waits a8) a7
  have hw : ∃ c x, n.threads[0]? = some (.act 0 (.read c) x) := by
    cases h : n.threads[0]? with
    | none => rw [h] at b10; cases b10
    | some g =>
      rw [h] at b10
      injection b10 with b10
      obtain ⟨c, x, rfl⟩ := readsNow_sound b10
      exact ⟨c, x, rfl⟩
  obtain ⟨evs0, g3, g4⟩ := (C79_process_hears hl 0 0 100 7 2 default (.inr rfl)
    (fun j J hj hs => by
      match j, hj with
      | 0, _ => rfl
      | 1, hj => injection hj with hj; subst hj; cases hs)
    (fun op ho => by obtain ⟨m, rfl, _⟩ := ho; trivial) (by decide) ⟨⟨7, rfl, rfl⟩, rfl, fun _ _ => trivial, rfl⟩ rfl (by decide) (by decide) (hpeer 0).app
    (serialCheck_sound b1) (resignedNow_sound b9) _ [] (by rw [show callsOf (of 0 lb) = _ from b3]; rfl) exChat_speech).2
    (okOf b2) (Threads.quietLog b2 (n := 0) (m := 1) b4 b5) hw b7
  have g1 : (n.peers 1).st.sock.trace = evs1 := g1
  have g3 : (n.socks 0).sock.trace = evs0 := g3
  subst g1 g3
  refine ⟨la, lb, n, hl, b3, g4, a3, g2, C79_defined hl (fun _ => 2) (fun k op ho => ?_) fun k => rfl, C79_masks hl 1 false (fun op ho => ?_) rfl 0⟩
  · obtain ⟨m, rfl, hm⟩ := ho
    exact Nat.lt_of_le_of_lt hm (by decide)
  · obtain ⟨m, rfl, hm⟩ := ho
    trivial

end OatWS.Process
