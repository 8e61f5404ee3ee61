import Verif.Proofs.AsyncWaits
import Verif.Props.Link
/-! # C66: two connected endpoints of any kind -/

namespace OatWS.Async
open RFC6455

theorem logged_steps {env : Env} {p q : Pool} {log : List Entry} (h : Pool.Logged env p log q) : Pool.Steps env p q := by
  induction h with
  | refl => exact .refl
  | tail _ h1 h2 h3 _ ih => exact .tail ih (.mk h1 h2 h3)

/-- What an async endpoint has written: frames that carry the calls, the last one possibly not yet completely. -/
theorem Fed.sent {env : Env} {p q : Pool} {la fed} (h : Fed env p la fed q) (hp : ∀ t ∈ p.tasks, Outcome.quiet t)
    (hser : Serialised la) (hok : ∀ e ∈ la, e.failed = false) (hsmall : ∀ c ∈ callsOf la, c.content.2.2.length < 2 ^ 63) :
    ∃ F, CarryAll env (callsOf la) F ∧ la.flatMap Entry.wrote <+: wireOf F ∧ ((∀ j, ¬ Sending j la) → la.flatMap Entry.wrote = wireOf F) := by
  obtain ⟨used, hl⟩ := h.logged [] []
  have hp : ∀ t ∈ (withInp p (p.world.st.inp.bytes ++ fed ++ []) (used ++ [])).tasks, Outcome.quiet t := hp
  have hw := (C56_every_send env _ hp la _ hl).2
  rcases C33_any_tasks env _ hp la _ hl hser hok hsmall with ⟨fs, h1, _, h3⟩ | ⟨cs, c, fs, f, part, j, h1, h2, h3, h4, h5, _, h7⟩
  · rw [hw] at h3
    have := List.append_cancel_left h3
    exact ⟨fs, h1, by rw [this]; exact List.prefix_refl _, fun _ => this⟩
  · rw [hw] at h7
    have := List.append_cancel_left h7
    refine ⟨fs ++ [f], by rw [h1]; exact h2.append ⟨h3, trivial⟩, ?_, fun h => absurd h5 (h j)⟩
    rw [this, wireOf_append, show wireOf [f] = f.encode by simp [wireOf]]
    exact (List.prefix_append_right_inj _).mpr h4

/-- What a listening task has heard: `got` is what it has read of what has arrived. -/
theorem Fed.heard {env : Env} {p0 p : Pool} {log sent} (hfed : Fed env p0 log sent p) {l : Nat} {B : Int} (hB : Listening env l B p0)
    (hx : (∃ t, p.tasks[0]? = some (.run t) ∧ t.reads = true) ∨ p.tasks[0]? = some .finished) :
    ∃ got ds r evs, sent = got ++ p.world.st.inp.bytes ∧ p.world.st.sock.trace = p0.world.st.sock.trace ++ evs ∧ Receives false got ds r ∧ Renders l B.toNat evs ds ∧
      r ≠ .interrupted ∧ (p.tasks[0]? = some .finished → r = .closed) ∧ ((∃ t, p.tasks[0]? = some (.run t)) → r = .incomplete) := by
  obtain ⟨used, hlog⟩ := hfed.logged [] []
  obtain ⟨hd, others, hts, hoth⟩ := hB.tasks
  rw [hB.nothing, List.nil_append, List.append_nil, List.append_nil, List.append_nil] at hlog
  have hsteps : Pool.Steps env ⟨.run (listenTask hd) :: others, p0.world.setInp ⟨sent, used⟩⟩ (withInp p p.world.st.inp.bytes []) := by
    have := logged_steps hlog
    unfold withInp at this
    rw [hts] at this
    exact this
  obtain ⟨out, ts, e1, -, he⟩ := pool_exec hoth hsteps
  have hok := listening_ok (w0 := p0.world.setInp ⟨sent, used⟩) (o0 := false) hB.callbacks hd hB.noMessage hB.start he
  have e1 : p.tasks = out :: ts := e1
  have h0 : p.tasks[0]? = some out := by rw [e1]; rfl
  rw [h0] at hx ⊢
  rcases hx with ⟨t, e, hr⟩ | e
  · injection e with e
    subst e
    obtain ⟨c, ds, evs, k1, k2, k3, k4⟩ := LAt.waits hok hr
    exact ⟨c, ds, .incomplete, evs, k1, k2, k3, renders_fixed k4, nofun, nofun, fun _ => rfl⟩
  · injection e with e
    subst e
    obtain ⟨c, ds, evs, k1, k2, k3, k4⟩ := hok
    exact ⟨c, ds, .closed, evs, k1, k2, k3, renders_fixed k4, nofun, fun _ => rfl, fun ⟨_, h⟩ => (by cases h)⟩

end OatWS.Async

namespace OatWS.Network
open RFC6455 Async

/-- Steps of one endpoint, while bytes arrive. -/
inductive Fed (env : Env) (e0 : Endpoint) : List Entry → List UInt8 → Endpoint → Prop
  | refl : Fed env e0 [] [] e0
  | own {log fed e x e'} : Fed env e0 log fed e → e.Step env x e' → Fed env e0 (log ++ [x]) fed e'
  | feed {log fed e} (bs : List UInt8) : Fed env e0 log fed e → Fed env e0 log (fed ++ bs) (e.receive bs)

theorem Linked.fed {envA envB a0 b0 la lb a b} (h : Linked envA envB a0 b0 la lb a b) :
    Fed envA a0 la (lb.flatMap Entry.wrote) a ∧ Fed envB b0 lb (la.flatMap Entry.wrote) b := by
  induction h with
  | refl => exact ⟨.refl, .refl⟩
  | left _ h1 ih =>
    refine ⟨.own ih.1 h1, ?_⟩
    rw [List.flatMap_append, List.flatMap_singleton]
    exact .feed _ ih.2
  | right _ h1 ih =>
    refine ⟨?_, .own ih.2 h1⟩
    rw [List.flatMap_append, List.flatMap_singleton]
    exact .feed _ ih.1

theorem Linked.swap {envA envB a0 b0 la lb a b} (h : Linked envA envB a0 b0 la lb a b) : Linked envB envA b0 a0 lb la b a := by
  induction h with
  | refl => exact .refl
  | left _ h1 ih => exact .right ih h1
  | right _ h1 ih => exact .left ih h1

theorem Fed.threads {env : Env} {p : Threads.Pool} {log fed e} (h : Fed env (.threads p) log fed e) : ∃ q, e = .threads q ∧ Threads.Fed env p log fed q := by
  induction h with
  | refl => exact ⟨p, rfl, .refl⟩
  | own _ hs ih =>
    obtain ⟨q, rfl, hq⟩ := ih
    cases hs with
    | thread h1 h2 h3 => exact ⟨_, rfl, .own hq h1 h2 h3⟩
  | feed bs _ ih =>
    obtain ⟨q, rfl, hq⟩ := ih
    exact ⟨_, rfl, .feed bs hq⟩

theorem Fed.tasks {env : Env} {p : Async.Pool} {log fed e} (h : Fed env (.tasks p) log fed e) : ∃ q, e = .tasks q ∧ Async.Fed env p log fed q := by
  induction h with
  | refl => exact ⟨p, rfl, .refl⟩
  | own _ hs ih =>
    obtain ⟨q, rfl, hq⟩ := ih
    cases hs with
    | task h1 h2 h3 h4 h5 => exact ⟨_, rfl, .own hq h1 h2 h3 h4 h5⟩
  | feed bs _ ih =>
    obtain ⟨q, rfl, hq⟩ := ih
    exact ⟨_, rfl, .feed bs hq⟩

theorem Fed.sent {env : Env} {e0 e : Endpoint} {la fed} (h : Fed env e0 la fed e) {fuel : Nat} (hp : e0.App env fuel)
    (hser : Serialised la) (hok : ∀ e ∈ la, e.failed = false) (hsmall : ∀ c ∈ callsOf la, c.content.2.2.length < 2 ^ 63) :
    ∃ F, CarryAll env (callsOf la) F ∧ la.flatMap Entry.wrote <+: wireOf F ∧ ((∀ j, ¬ Sending j la) → la.flatMap Entry.wrote = wireOf F) := by
  cases e0 with
  | threads p =>
    obtain ⟨q, _, hq⟩ := h.threads
    exact hq.sent hp hser hok hsmall
  | tasks p =>
    obtain ⟨q, _, hq⟩ := h.tasks
    exact hq.sent hp hser hok hsmall

theorem Fed.heard {env : Env} {e0 e : Endpoint} {log sent} (h : Fed env e0 log sent e) {fuel l B : Nat} (hB : e0.Listening env fuel l B) (hx : e.Waits ∨ e.Ended env) :
    ∃ got ds r evs, sent = got ++ e.st.inp.bytes ∧ e.st.sock.trace = e0.st.sock.trace ++ evs ∧ Receives false got ds r ∧ Renders l B evs ds ∧ r ≠ .interrupted ∧
      (e.Ended env → Endpoint.Undisturbed e0 e → r ≠ .incomplete ∧ r ≠ .stopped) ∧ (e.Waits → r = .incomplete) := by
  cases e0 with
  | threads p =>
    obtain ⟨q, rfl, hq⟩ := h.threads
    obtain ⟨t, ht, hx⟩ : ∃ t, q.threads[0]? = some t ∧ (Threads.IsAt t .reading ∨ Threads.IsAt t (.ret ()) ∧ env.Calm) := by
      rcases hx with ⟨t, h1, h2⟩ | ⟨t, h1, h2, h3⟩
      · exact ⟨t, h1, .inl h2⟩
      · exact ⟨t, h1, .inr ⟨h2, h3⟩⟩
    obtain ⟨got, ds, r, evs, k1, k2, k3, k4, k5, k6, k7⟩ := hq.heard hB t ht hx
    refine ⟨got, ds, r, evs, k1, k2, k3, k4, k5, ?_, ?_⟩
    · rintro ⟨t', e1, e2, _⟩ ⟨e3, e4⟩
      rw [ht] at e1
      injection e1 with e1
      subst e1
      exact k6 e4 e2 e3
    · rintro ⟨t', e1, e2⟩
      rw [ht] at e1
      injection e1 with e1
      subst e1
      exact k7 e2
  | tasks p =>
    obtain ⟨q, rfl, hq⟩ := h.tasks
    obtain ⟨got, ds, r, evs, k1, k2, k3, k4, k5, k6, k7⟩ := hq.heard hB.1 hx
    refine ⟨got, ds, r, evs, k1, k2, k3, k4, k5, ?_, ?_⟩
    · intro e1 _
      rw [k6 e1]
      exact ⟨nofun, nofun⟩
    · rintro ⟨t, e1, _⟩
      exact k7 ⟨t, e1⟩

theorem Endpoint.Listening.app {env : Env} {fuel l B : Nat} {e : Endpoint} (h : e.Listening env fuel l B) : e.App env fuel := by
  cases e with
  | threads p => exact Threads.Listening.app h
  | tasks p => exact h.2

/-- **C66.** Two endpoints are connected, each a blocking socket used by any number of threads or an async socket used by any number of tasks,
in any order of steps. At one of them (the sender) sends are serialised, none has failed, and the calls were messages, ended or not by a close.
At the other one (the receiver) one thread or task listens; callbacks and other threads or tasks may send. Whenever the listening one is about
to read, or has ended normally, its listener has heard exactly the messages of the first calls, in the order of the calls, each once, unchanged,
and at most a proper part of the data of the next one. It has heard all of them when the sender is not in the middle of a send and the
receiver has nothing more to read (if it waits, none was a close), and when listening has ended by itself: then the last call was a close. -/
theorem C66_in_order (envA envB : Env) (fuelA fuelB l B : Nat) (a0 b0 a b : Endpoint) (logA logB : List Entry)
    (hA : a0.App envA fuelA) (hB : b0.Listening envB fuelB l B) (h : Linked envA envB a0 b0 logA logB a b)
    (hser : Serialised logA) (hok : ∀ e ∈ logA, e.failed = false) (cs last : List SendCall) (hc : callsOf logA = cs ++ last) (ht : Threads.Talk cs last)
    (hx : b.Waits ∨ b.Ended envB) :
    ∃ evs, b.st.sock.trace = b0.st.sock.trace ++ evs ∧ (∃ n, HeardFirst (callsOf logA) l n evs) ∧
      ((∀ j, ¬ Sending j logA) → b.st.inp.bytes = [] → HeardAll (callsOf logA) l evs ∧ (b.Waits → last = [])) ∧
      (b.Ended envB → Endpoint.Undisturbed b0 b → HeardAll (callsOf logA) l evs ∧ last ≠ []) := by
  obtain ⟨F, hF, hpre, hall⟩ := h.fed.1.sent hA hser hok (by rw [hc]; exact ht.small)
  obtain ⟨got, ds, r, evs, h1, h2, h3, h4, h5, h6, h7⟩ := h.fed.2.heard hB hx
  rw [hc] at hF ⊢
  obtain ⟨k0, k1, k2, k3⟩ := ht.heard hF hpre h1 h3 h5 h4
  refine ⟨evs, h2, k0, fun x y => ⟨k1 (hall x) y, fun z => ?_⟩, fun x y => k2 (h6 x y).1 (h6 x y).2⟩
  rcases Classical.em (last = []) with hl | hl
  · exact hl
  · exact absurd (h7 z) (k3 (hall x) y hl)

/-- **C66** (both directions). At each endpoint one thread or task listens, others send, callbacks send; sends are serialised at each endpoint (not
among them), none has failed, all were messages. When nothing moves any more (both listening ones wait for input, there is none, no send is in
progress) each listener has heard exactly the messages the other endpoint has sent, in the order of the calls, each once, unchanged, and
nothing else. -/
theorem C66_both (envA envB : Env) (fuelA fuelB lA lB BA BB : Nat) (a0 b0 a b : Endpoint) (logA logB : List Entry)
    (hA : a0.Listening envA fuelA lA BA) (hB : b0.Listening envB fuelB lB BB) (h : Linked envA envB a0 b0 logA logB a b)
    (hserA : Serialised logA) (hokA : ∀ e ∈ logA, e.failed = false) (htA : Threads.Talk (callsOf logA) []) (hdoneA : ∀ j, ¬ Sending j logA)
    (hserB : Serialised logB) (hokB : ∀ e ∈ logB, e.failed = false) (htB : Threads.Talk (callsOf logB) []) (hdoneB : ∀ j, ¬ Sending j logB)
    (hxA : a.Waits) (hxB : b.Waits) (heA : a.st.inp.bytes = []) (heB : b.st.inp.bytes = []) :
    ∃ evsA evsB, a.st.sock.trace = a0.st.sock.trace ++ evsA ∧ b.st.sock.trace = b0.st.sock.trace ++ evsB ∧
      HeardAll (callsOf logB) lA evsA ∧ HeardAll (callsOf logA) lB evsB := by
  obtain ⟨eB, b1, _, b2, _⟩ := C66_in_order envA envB fuelA fuelB lB BB a0 b0 a b logA logB hA.app hB h hserA hokA _ [] (by simp) htA (.inl hxB)
  obtain ⟨eA, a1, _, a2, _⟩ := C66_in_order envB envA fuelB fuelA lA BA b0 a0 b a logB logA hB.app hA h.swap hserB hokB _ [] (by simp) htB (.inl hxA)
  exact ⟨eA, eB, a1, b1, (a2 hdoneB heA).1, (b2 hdoneA heB).1⟩

/-! ## A concrete case -/

/-- The step of thread or task `i`, if it can step. -/
def Endpoint.turn (env : Env) (e : Endpoint) (i : Nat) : Option (Entry × Endpoint) :=
  match e with
  | .threads p =>
    match p.threads[i]? with
    | some (.act a k) =>
      match Threads.Ready a p.st, Threads.exec env a p.st with
      | true, some (r, st') => some (Threads.entry i a p.st st', .threads ⟨p.threads.set i (k r), st'⟩)
      | _, _ => none
    | _ => none
  | .tasks p =>
    match p.tasks[i]? with
    | some (.run t) =>
      if t.ready p.world = true ∧ (step env t p.world).1 ≠ .blocked ∧
          (step env t p.world).2.st.sock.out.written = p.world.st.sock.out.written ++ (step env t p.world).2.st.sock.out.written.drop p.world.st.sock.out.written.length then
        some (entryOf env i t p.world (step env t p.world).2 ((step env t p.world).2.st.sock.out.written.drop p.world.st.sock.out.written.length),
          .tasks ⟨p.tasks.set i (step env t p.world).1, (step env t p.world).2⟩)
      else none
    | _ => none

theorem Endpoint.turn_step {env : Env} {e : Endpoint} {i : Nat} {x : Entry} {e' : Endpoint} (h : e.turn env i = some (x, e')) : e.Step env x e' := by
  cases e with
  | threads p =>
    dsimp only [Endpoint.turn] at h
    split at h
    · rename_i a k e
      split at h
      · rename_i r st' e1 e2
        injection h with h
        injection h with h1 h2
        subst h1 h2
        exact .thread e e1 e2
      · cases h
    · cases h
  | tasks p =>
    dsimp only [Endpoint.turn] at h
    split at h
    · rename_i t e
      split at h
      · rename_i hc
        injection h with h
        injection h with h1 h2
        subst h1 h2
        exact .task e hc.1 rfl hc.2.1 hc.2.2
      · cases h
    · cases h

/-- Turns of threads and tasks, `(false, i)`: of the first endpoint, `(true, i)`: of the second; one that cannot step is passed over. -/
def run (envA envB : Env) : List (Bool × Nat) → List Entry → List Entry → Endpoint → Endpoint → List Entry × List Entry × Endpoint × Endpoint
  | [], la, lb, a, b => (la, lb, a, b)
  | (false, i) :: is, la, lb, a, b =>
    match a.turn envA i with
    | some (x, a') => run envA envB is (la ++ [x]) lb a' (b.receive x.wrote)
    | none => run envA envB is la lb a b
  | (true, i) :: is, la, lb, a, b =>
    match b.turn envB i with
    | some (x, b') => run envA envB is la (lb ++ [x]) (a.receive x.wrote) b'
    | none => run envA envB is la lb a b

theorem run_linked {envA envB : Env} {a0 b0 : Endpoint} (is : List (Bool × Nat)) {la lb : List Entry} {a b : Endpoint} (h : Linked envA envB a0 b0 la lb a b) :
    Linked envA envB a0 b0 (run envA envB is la lb a b).1 (run envA envB is la lb a b).2.1 (run envA envB is la lb a b).2.2.1 (run envA envB is la lb a b).2.2.2 := by
  induction is generalizing la lb a b with
  | nil => exact h
  | cons t is ih =>
    rcases t with ⟨side, i⟩
    cases side with
    | false =>
      rw [run]
      split
      · exact ih (.left h (Endpoint.turn_step ‹_›))
      · exact ih h
    | true =>
      rw [run]
      split
      · exact ih (.right h (Endpoint.turn_step ‹_›))
      · exact ih h

/-- The listening thread or task is about to read. -/
def Endpoint.waitsNow : Endpoint → Bool
  | .threads p => Threads.placeOf p.threads[0]? == 1
  | .tasks p => match p.tasks[0]? with
    | some (Outcome.run t) => Task.reads t
    | _ => false

theorem Endpoint.waitsNow_waits {e : Endpoint} (h : e.waitsNow = true) : e.Waits := by
  cases e with
  | threads p => exact Threads.placeOf_read (eq_of_beq h)
  | tasks p =>
    dsimp only [Endpoint.waitsNow] at h
    split at h
    · exact ⟨_, ‹_›, h⟩
    · cases h

/-- What can be checked by computation. -/
structure View where
  serial : Bool
  tasks : Bool
  calls : List SendCall
  sends0 : List SendState
  sends1 : List SendState
  trace : List Event
  left : List UInt8
  waits : Bool
  deriving DecidableEq

def view (l : List Entry) (e : Endpoint) : View :=
  ⟨serialCheck none l, l.all (fun e => !e.failed && (e.task == 0 || e.task == 1)), callsOf l, (sendsOf 0 l).map Sent.state, (sendsOf 1 l).map Sent.state,
    e.st.sock.trace, e.st.inp.bytes, e.waitsNow⟩

/-- The client of `Threads.exLink` (blocking, masks, sends a text and a ping), and an async server: it answers the ping from the callback, and another
task sends a message. -/
def exServer : Endpoint :=
  .tasks ⟨[.run (listenTask default), .run (userTask [.send (.binary (some [1, 2, 3])) false])],
    { st := { sock := { Sock.new { readBufferSize := 2 } ⟨[], Fixture.slow 60⟩ with listener := some 7 }, inp := ⟨[], Fixture.slow 60⟩ } }⟩

def exTurns : List (Bool × Nat) := List.replicate 2 (false, 0) ++ List.replicate 2 (true, 0) ++ List.replicate 20 (false, 1) ++ List.replicate 9 (true, 1) ++
  List.replicate 20 (true, 0) ++ List.replicate 25 (false, 1) ++ List.replicate 20 (true, 1) ++ List.replicate 90 (true, 0) ++ List.replicate 50 (false, 0)

def exEnd := run Fixture.env Async.exEnv exTurns [] [] (.threads Threads.exLink.a) exServer

theorem exEnd_client : view exEnd.1 exEnd.2.2.1 = ⟨true, true, [.text (some [7, 8]), .ping (some [0x21])], [], [.completed, .completed],
    [.readMessage 1 2 [1], .readMessage 1 2 [2], .readMessage 1 2 [3], .readMessage 1 2 [], .onPong 1 [0x21]], [], true⟩ := by decide +kernel

theorem exEnd_server : view exEnd.2.1 exEnd.2.2.2 = ⟨true, true, [.binary (some [1, 2, 3]), .pong (some [0x21])], [.completed], [.completed],
    [.readMessage 7 1 [7], .readMessage 7 1 [8], .readMessage 7 1 [], .onPing 7 [0x21]], [], true⟩ := by decide +kernel

theorem exServer_listening : exServer.Listening Async.exEnv 40 7 2 := by
  refine ⟨⟨⟨default, _, rfl, ?_⟩, exEnv_fixed, by decide, ⟨rfl, rfl⟩, rfl, rfl⟩, ?_⟩
  · intro t ht
    rw [List.mem_singleton] at ht
    subst ht
    intro c hc
    rw [List.mem_singleton.mp hc]
    refine ⟨trivial, fun u hu op hop => ?_⟩
    injection hu with hu
    subst hu
    rw [List.mem_singleton] at hop
    subst hop
    trivial
  · intro t ht
    simp only [List.mem_cons, List.not_mem_nil, or_false] at ht
    rcases ht with rfl | rfl
    · intro co hco
      rw [List.mem_singleton.mp hco]
      exact ⟨fun _ h => (by cases h), fun _ h => (by cases h)⟩
    · intro co hco
      rw [List.mem_singleton.mp hco]
      exact ⟨fun _ h => (by cases h), fun _ h => (by cases h)⟩

/-- The hypotheses of `C66_both` (and those of `C66_in_order`) are met, and its conclusion is what the execution shows. -/
example : ∃ a b logA logB, Linked Fixture.env Async.exEnv (.threads Threads.exLink.a) exServer logA logB a b ∧
    callsOf logA = [.text (some [7, 8]), .ping (some [0x21])] ∧ callsOf logB = [.binary (some [1, 2, 3]), .pong (some [0x21])] ∧
    HeardAll (callsOf logB) 1 a.st.sock.trace ∧ HeardAll (callsOf logA) 7 b.st.sock.trace := by
  have hl : Linked Fixture.env Async.exEnv (.threads Threads.exLink.a) exServer exEnd.1 exEnd.2.1 exEnd.2.2.1 exEnd.2.2.2 := by
    unfold exEnd
    exact run_linked exTurns .refl
  have hA := exEnd_client
  have hB := exEnd_server
  generalize exEnd.1 = logA, exEnd.2.1 = logB, exEnd.2.2.1 = a, exEnd.2.2.2 = b at hl hA hB
  injection hA with a1 a2 a3 a4 a5 a6 a7 a8
  injection hB with b1 b2 b3 b4 b5 b6 b7 b8
  have okOf : ∀ {l : List Entry}, l.all (fun e => !e.failed && (e.task == 0 || e.task == 1)) = true → ∀ e ∈ l, e.failed = false := by
    intro l h e hm
    have := List.all_eq_true.mp h e hm
    simp at this
    exact this.1
  have short : ∀ m : List UInt8, m.length ≤ 3 → m.length < 2 ^ 63 := fun m h => Nat.lt_of_le_of_lt h (by decide)
  have tA : Threads.Talk (callsOf logA) [] := by
    rw [show callsOf logA = _ from a3]
    refine ⟨?_, .inl rfl, ?_⟩
    · intro c hc
      simp only [List.mem_cons, List.not_mem_nil, or_false] at hc
      rcases hc with rfl | rfl
      · trivial
      · exact (by decide : 1 ≤ 125)
    · intro c hc
      simp only [List.append_nil, List.mem_cons, List.not_mem_nil, or_false] at hc
      rcases hc with rfl | rfl <;> exact short _ (by decide)
  have tB : Threads.Talk (callsOf logB) [] := by
    rw [show callsOf logB = _ from b3]
    refine ⟨?_, .inl rfl, ?_⟩
    · intro c hc
      simp only [List.mem_cons, List.not_mem_nil, or_false] at hc
      rcases hc with rfl | rfl
      · trivial
      · exact (by decide : 1 ≤ 125)
    · intro c hc
      simp only [List.append_nil, List.mem_cons, List.not_mem_nil, or_false] at hc
      rcases hc with rfl | rfl <;> exact short _ (by decide)
  obtain ⟨evsA, evsB, g1, g2, g3, g4⟩ := C66_both Fixture.env Async.exEnv 40 40 1 7 2 2 (.threads Threads.exLink.a) exServer a b logA logB Threads.exLink_a exServer_listening hl
    (serialCheck_sound a1) (okOf a2) tA (Threads.quietLog a2 (n := 0) (m := 2) a4 a5) (serialCheck_sound b1) (okOf b2) tB (Threads.quietLog b2 (n := 1) (m := 1) b4 b5)
    (Endpoint.waitsNow_waits a8) (Endpoint.waitsNow_waits b8) a7 b7
  have g1 : a.st.sock.trace = evsA := g1
  have g2 : b.st.sock.trace = evsB := g2
  subst g1 g2
  exact ⟨a, b, logA, logB, hl, a3, b3, g3, g4⟩

end OatWS.Network
