import Verif.Props.Speech
import Verif.Proofs.ThreadDefined
import Verif.Proofs.AsyncDefined
/-! # C72: nothing undefined, with any number of threads or tasks -/

namespace OatWS.Network
open RFC6455 Async

/-- **C72** (threads). Any number of threads use a blocking socket: any of them listen, send, install listeners, change whether to mask, in callbacks as well. If nobody changes the
size of the read buffer, or sends 2 GiB or more at a time, then in no execution, whatever the peer sends and the connection does, anything undefined happens: no received byte is stored beyond
the end of a read buffer, no index overflows, no negative number of bytes is asked for. -/
theorem C72_threads (env : Env) (fuel : Nat) (B : Int) (p p' : Threads.Pool) (hc : env.Careful B) (hp : (Endpoint.threads p).Careful env fuel B)
    (h : Threads.Pool.Steps env p p') : (Endpoint.threads p').Defined :=
  (Threads.SteadyPool.steps ⟨fun q hq => (hp.1 q hq).steady hc, hp.2⟩ h).defined

/-- **C72** (tasks). The same for any number of tasks that use an async socket. -/
theorem C72_tasks (env : Env) (fuel : Nat) (B : Int) (p p' : Async.Pool) (hc : env.Careful B) (hp : (Endpoint.tasks p).Careful env fuel B)
    (h : Async.Pool.Steps env p p') : (Endpoint.tasks p').Defined := by
  refine (Async.FinePool.steps hc ⟨fun o ho => ?_, hp.2⟩ h).defined
  obtain ⟨t, rfl, ht⟩ := hp.1 o ho
  exact ht.fine

theorem Fed.careful {env : Env} {fuel : Nat} {B : Int} {e0 e : Endpoint} {log fed} (h : Fed env e0 log fed e) (hc : env.Careful B) (hp : e0.Careful env fuel B) : e.Defined := by
  cases e0 with
  | threads p =>
    obtain ⟨q, rfl, hq⟩ := h.threads
    have : Threads.SteadyPool B q := by
      clear h
      induction hq with
      | refl => exact ⟨fun q hq => (hp.1 q hq).steady hc, hp.2⟩
      | own _ h1 _ h3 ih => exact Threads.SteadyPool.step ih h1 h3
      | feed bs _ ih => exact ⟨ih.threads, ih.size⟩
    exact this.defined
  | tasks p =>
    obtain ⟨q, rfl, hq⟩ := h.tasks
    have : Async.FinePool B q := by
      clear h
      induction hq with
      | refl =>
        refine ⟨fun o ho => ?_, hp.2⟩
        obtain ⟨t, rfl, ht⟩ := hp.1 o ho
        exact ht.fine
      | own _ h1 _ h3 _ _ ih => exact Async.FinePool.step hc ih h1 h3
      | feed bs _ ih => exact ⟨ih.tasks, ih.size⟩
    exact this.defined

/-- **C72** (connected endpoints). Whoever is at the other end, and whatever it does: nothing undefined happens at an endpoint whose code keeps to this. -/
theorem C72_connected (envA envB : Env) (fuel : Nat) (B : Int) (a0 b0 a b : Endpoint) (logA logB : List Entry) (hc : envA.Careful B) (hA : a0.Careful envA fuel B)
    (h : Linked envA envB a0 b0 logA logB a b) : a.Defined := h.fed.1.careful hc hA

/-- **C72** (sessions). The session of a threaded server: `onAfterCreate` may also set the size of the read buffer, before listening starts. -/
theorem C72_session (envA envB : Env) (fuel : Nat) (B : Int) (a0 a b : Endpoint) (p0 : Threads.Pool) (created destroyed : List UserOp) (logA logB : List Entry)
    (hB : Threads.CarefulSession envB fuel B created destroyed p0) (h : Linked envA envB a0 (.threads p0) logA logB a b) : b.Defined := by
  obtain ⟨q, rfl, hq⟩ := h.fed.2.threads
  have : Threads.SessionSound B q := by
    clear h
    generalize logA.flatMap Entry.wrote = sent at hq
    induction hq with
    | refl => exact hB.sound
    | own _ h1 _ h3 ih => exact Threads.SessionSound.step ih h1 h3
    | feed bs _ ih => exact ⟨ih.threads⟩
  exact this.defined

/-- **C72**, with C71: that nothing undefined happens need not be assumed. Two connected endpoints, as in C71, the sender keeps to this. When no thread or task can make a step
any more, the connection still working, no send having failed, and nothing but a close having ended listening, the listener has been told exactly what the calls say. -/
theorem C72_all_heard (envA envB : Env) (fuelA fuelB l B : Nat) (BA : Int) (a0 b0 a b : Endpoint) (logA logB : List Entry)
    (hA : a0.App envA fuelA) (hcA : envA.Careful BA) (hkA : a0.Careful envA fuelA BA) (hB : b0.Listening envB fuelB l B) (hfA : a0.Enough fuelA) (hfB : b0.Enough fuelB)
    (h : Linked envA envB a0 b0 logA logB a b)
    (hser : Serialised logA) (hok : ∀ e ∈ logA, e.failed = false) (cs last : List SendCall) (hc : callsOf logA = cs ++ last) (ht : Speech cs last)
    (hrA : a.AtRest envA) (hrB : b.AtRest envB) (hwA : a.Writable) (hwB : b.Writable) (hrdB : b.Readable) (hn : Endpoint.Unbroken envB b0 b) :
    ∃ evs, b.st.sock.trace = b0.st.sock.trace ++ evs ∧ HeardWhole (callsOf logA) l evs ∧ ((b.Waits ∧ last = []) ∨ (b.Ended envB ∧ last ≠ [])) :=
  C71_all_heard envA envB fuelA fuelB l B a0 b0 a b logA logB hA hB hfA hfB h hser hok cs last hc ht hrA hrB (C72_connected envA envB fuelA BA a0 b0 a b logA logB hcA hkA h) hwA hwB hrdB hn

/-! ## Examples -/

theorem exPolite_careful (B : Int) : exPolite.Careful B := by
  intro tr op h
  obtain ⟨m, rfl⟩ := exPolite_react tr op h
  show (m.take 125).length < 2 ^ 31
  rw [List.length_take]
  omega

/-- The hypotheses of `C72_connected`, `C72_all_heard` are met: the client of C71, which listens in one thread and sends in another one. -/
example : exAuthor.Careful exPolite 100 2 := by
  refine ⟨fun q hq => ?_, rfl⟩
  simp only [List.mem_cons, List.not_mem_nil, or_false] at hq
  rcases hq with rfl | rfl
  · exact .listen _
  · refine .code _ fun op h => ?_
    simp only [List.mem_cons, List.not_mem_nil, or_false] at h
    rcases h with rfl | rfl | rfl | rfl | rfl <;> exact Nat.le_of_ble_eq_true rfl

/-- Three threads, two of which listen. -/
example (st : St) (hs : st.sock.config.readBufferSize = 2) :
    (Endpoint.threads ⟨[Threads.listenT exPolite 100 default, Threads.Prog.andThen (Threads.userOpsT exPolite 100 [.setConfig { readBufferSize := 2, maskOutgoingMessages := true }]) fun _ =>
      Threads.listenT exPolite 100 default, Threads.userOpsT exPolite 100 [.send (.text (some [7, 8])) true, .setListener none]], st⟩).Careful exPolite 100 2 := by
  refine ⟨fun q hq => ?_, hs⟩
  simp only [List.mem_cons, List.not_mem_nil, or_false] at hq
  rcases hq with rfl | rfl | rfl
  · exact .listen _
  · exact .seq (.code _ fun op h => (by rw [List.mem_singleton.mp h]; rfl)) (.listen _)
  · refine .code _ fun op h => ?_
    simp only [List.mem_cons, List.not_mem_nil, or_false] at h
    rcases h with rfl | rfl
    · exact Nat.le_of_ble_eq_true rfl
    · trivial

/-- The hypotheses of `C72_session` are met: the session of C69, where `onAfterCreate` sets the size. -/
example : Threads.CarefulSession exPolite 100 2 exCreated exDestroyed exHost where
  threads := ⟨default, [], rfl, fun _ h => (by cases h)⟩
  size := rfl
  created := by
    intro c b h
    simp only [exCreated, List.mem_cons, List.not_mem_nil, or_false] at h
    rcases h with h | h | h
    · injection h with h _; subst h; exact Nat.le_of_ble_eq_true rfl
    · cases h
    · cases h
  callbacks := exPolite_careful 2
  destroyed := by
    intro op h
    rw [List.mem_singleton.mp h]
    exact Nat.le_of_ble_eq_true rfl

/-- A task listens with a read buffer of two bytes, another one sets the size to 100; a text message of five bytes arrives at once. -/
def exResizeA : Async.Pool := ⟨[.run (listenTask default), .run (userTask [.setConfig { readBufferSize := 100 }])],
  { st := { sock := { Sock.new { readBufferSize := 2 } ⟨[], []⟩ with listener := some 7 }, inp := ⟨[0x81, 0x05, 1, 2, 3, 4, 5], [.upTo 9, .upTo 9, .upTo 9]⟩ } }⟩

theorem exResizeA_run : (Async.Pool.exec Fixture.env [0, 0, 0, 0, 0, 1, 0, 0] exResizeA).map (fun q => q.tasks[0]?) = some (some (.ub .bufferOverflow)) := by decide +kernel

/-- **C72**, the exception: a task that sets the size while another one is about to read the payload of a frame makes that one write beyond the end of its buffer. The same on
async sockets as C20 shows for blocking ones. -/
theorem C72_overrun : ∃ p', Async.Pool.Steps Fixture.env exResizeA p' ∧ ¬ (Endpoint.tasks p').Defined := by
  have h := exResizeA_run
  rcases he : Async.Pool.exec Fixture.env [0, 0, 0, 0, 0, 1, 0, 0] exResizeA with _ | p'
  · rw [he] at h; cases h
  · rw [he] at h
    injection h with h
    exact ⟨p', Async.Pool.exec_steps he, fun hd => hd _ (List.mem_of_getElem? h)⟩

end OatWS.Network
