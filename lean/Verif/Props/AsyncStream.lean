import Verif.Proofs.AsyncStreamRun
import Verif.Props.AsyncSends
import Verif.Props.Speech
import Verif.Props.Defined
/-! # C90: frames that a coroutine of the application writes itself -/

namespace OatWS.Streams
open Async Network

/-- **C90** (one socket). Coroutines of the application write frames themselves: `sendFrameHeaderAsync`, then the payload in any pieces. Every execution, with any number of tasks and any interleaving, is one
of the program that calls `sendOneFrameAsync` instead, over a connection whose writes may have other outcomes: the same record (calls, bytes written, keys drawn, frames completed, failures; step by step), and it
leads to the same state: `asSends` only replaces the unfinished frames and the outcomes of coming writes. -/
theorem C90_same_record (env : Env) (p p' : XPool) (log : List Entry) (hp : ∀ x ∈ p.tasks, x.Plain) (h : XPool.Logged env p log p') (sched : List IoOutcome) :
    ∃ s, Pool.Logged env (p.asSends s) log (p'.asSends sched) :=
  (logged_sim h fun x hx => ok_of_plain (hp x hx)).2 sched

theorem map_plain {ts : List XTask} (h : ∀ x ∈ ts, x.Plain) : ts = (ts.map XTask.asSend).map XTask.plain := by
  induction ts with
  | nil => rfl
  | cons x xs ih =>
    have h1 := h x (by simp)
    rw [List.map_cons, List.map_cons, ← ih fun y hy => h y (by simp [hy])]
    cases x with
    | plain o => rfl
    | streaming s => exact h1.elim

/-- **C90** (what `asSends` leaves as it is). Socket, input, heap, callbacks and written bytes are the same, and so is every task that is not in the middle of such a frame. -/
theorem C90_same_state (p : XPool) (sched : List IoOutcome) :
    (p.asSends sched).world.st.sock.out.written = p.world.st.sock.out.written ∧ (p.asSends sched).world.st.sock.trace = p.world.st.sock.trace ∧
    (p.asSends sched).world.st.inp = p.world.st.inp ∧ (p.asSends sched).world.st.sock.config = p.world.st.sock.config ∧ (p.asSends sched).world.st.sock.rngPos = p.world.st.sock.rngPos ∧
    (p.asSends sched).world.st.sock.listener = p.world.st.sock.listener ∧ (p.asSends sched).world.st.sock.lastOpcode = p.world.st.sock.lastOpcode ∧
    (p.asSends sched).world.calls = p.world.calls ∧ (p.asSends sched).world.heap = p.world.heap ∧
    (∀ (i : Nat) (o : Outcome), p.tasks[i]? = some (.plain o) → (p.asSends sched).tasks[i]? = some o) ∧
    ((∀ x ∈ p.tasks, x.Plain) → p = ⟨(p.asSends p.world.st.sock.out.sched).tasks.map XTask.plain, (p.asSends p.world.st.sock.out.sched).world⟩) := by
  refine ⟨rfl, rfl, rfl, rfl, rfl, rfl, rfl, rfl, rfl, fun i o h => map_getElem? (p := p) h, fun h => ?_⟩
  obtain ⟨ts, w⟩ := p
  show (⟨ts, w⟩ : XPool) = ⟨(ts.map XTask.asSend).map .plain, w⟩
  rw [← map_plain h]

theorem quiet_asSends {p : XPool} (hq : ∀ x ∈ p.tasks, x.asSend.quiet) (s : List IoOutcome) : ∀ t ∈ (p.asSends s).tasks, t.quiet := by
  intro t ht
  obtain ⟨x, hx, rfl⟩ := List.mem_map.mp ht
  exact hq x hx

/-- **C90** (executions have records). -/
theorem C90_recorded (env : Env) (p p' : XPool) (hp : ∀ x ∈ p.tasks, x.Plain) (hq : ∀ x ∈ p.tasks, x.asSend.quiet) (h : XPool.Steps env p p') : ∃ log, XPool.Logged env p log p' := by
  induction h with
  | refl => exact ⟨[], .refl⟩
  | @tail q r i _ h2 ih =>
    obtain ⟨log, ih⟩ := ih
    have hw : ∃ bs, r.world.st.sock.out.written = q.world.st.sock.out.written ++ bs := by
      cases h2 with
      | @plain ts w w' _ t o e1 e2 e3 =>
        obtain ⟨s, hs⟩ := C90_same_record env p ⟨ts, w⟩ log hp ih w.st.sock.out.sched
        have hI := pool_inv env _ (quiet_asSends hq s) log _ hs
        obtain ⟨d, hd, -⟩ := task_step env i t (sendsOf i log) (hI.tasks i _ (map_getElem? (p := ⟨ts, w⟩) e1)) w o w' e2 e3
        exact ⟨d, hd⟩
      | choose => exact ⟨[], by simp⟩
      | stream e1 e2 => exact streamStep_written e2
    obtain ⟨bs, hb⟩ := hw
    have hx : ∃ x x', q.tasks[i]? = some x ∧ r.tasks[i]? = some x' := by
      cases h2 with
      | plain e1 e2 e3 => exact ⟨_, _, e1, List.getElem?_set_self (lt_of_some e1)⟩
      | choose e1 e2 e3 => exact ⟨_, _, e1, List.getElem?_set_self (lt_of_some e1)⟩
      | stream e1 e2 => exact ⟨_, _, e1, List.getElem?_set_self (lt_of_some e1)⟩
    obtain ⟨x, x', e1, e2⟩ := hx
    exact ⟨_, .tail ih h2 e1 e2 hb⟩

/-- **C90** (every frame). As C56: each frame, written by the library or by the coroutine itself, is written as a beginning of one frame that carries its opcode, FIN and payload; the whole frame when it is
completed; frames of one task do not overlap; nothing else is written. -/
theorem C90_every_frame (env : Env) (p p' : XPool) (log : List Entry) (hp : ∀ x ∈ p.tasks, x.Plain) (hq : ∀ x ∈ p.tasks, x.asSend.quiet) (h : XPool.Logged env p log p') :
    (∀ i < p.tasks.length, (∀ s ∈ sendsOf i log, s.call.content.2.2.length < 2 ^ 63 → s.Sound env) ∧
      (∀ s ∈ (sendsOf i log).tail, s.state ≠ .inProgress) ∧ bytesOf i log = (sendsOf i log).reverse.flatMap Sent.bytes) ∧
    p'.world.st.sock.out.written = p.world.st.sock.out.written ++ log.flatMap Entry.wrote := by
  obtain ⟨s, hs⟩ := C90_same_record env p p' log hp h []
  have := C56_every_send env (p.asSends s) (quiet_asSends hq s) log _ hs
  refine ⟨fun i hi => this.1 i ?_, this.2⟩
  show i < (p.tasks.map XTask.asSend).length
  rw [List.length_map]; exact hi

theorem fresh_ok {e : XEndpoint} (h : e.Fresh) : e.Ok := by
  cases e with
  | streams p => exact fun x hx => ok_of_plain (h x hx)
  | other e => trivial

/-- **C90** (connected). Two connected endpoints, of any kind, at each of which frames may be written in this way (by tasks or callbacks of an async socket): every execution is one in which
`sendOneFrameAsync` is called instead, with the same records at both. -/
theorem C90_connected (envA envB : Env) (a0 b0 a b : XEndpoint) (logA logB : List Entry) (hA : a0.Fresh) (hB : b0.Fresh) (h : XLinked envA envB a0 b0 logA logB a b) (schedA schedB : List IoOutcome) :
    ∃ sA sB, Linked envA envB (a0.asSends sA) (b0.asSends sB) logA logB (a.asSends schedA) (b.asSends schedB) :=
  (linked_sim h (fresh_ok hA) (fresh_ok hB)).2.2 schedA schedB

theorem asSends_trace (e : XEndpoint) (s : List IoOutcome) : (e.asSends s).st.sock.trace = e.st.sock.trace := by cases e <;> rfl

/-- **C90** (what the peer hears, at any moment). As C71: whatever of the messages, or of the fragments of a message, is written in pieces by coroutines of the application, at every moment the listener of the
peer has heard exactly what the first calls say, and at most a beginning of the data of the next one. -/
theorem C90_any_moment (envA envB : Env) (fuelA fuelB l B : Nat) (a0 b0 a b : XEndpoint) (logA logB : List Entry) (hfa : a0.Fresh) (hfb : b0.Fresh)
    (hA : ∀ s, (a0.asSends s).App envA fuelA) (hB : ∀ s, (b0.asSends s).Listening envB fuelB l B) (hf : ∀ s, (b0.asSends s).Enough fuelB) (h : XLinked envA envB a0 b0 logA logB a b)
    (hser : Serialised logA) (hres : Resigned logA) (cs last : List SendCall) (hc : callsOf logA = cs ++ last) (ht : Speech cs last) :
    ∃ evs n part, b.st.sock.trace = b0.st.sock.trace ++ evs ∧ HeardUpTo (callsOf logA) l n part evs := by
  obtain ⟨sA, sB, hl⟩ := C90_connected envA envB a0 b0 a b logA logB hfa hfb h [] []
  obtain ⟨evs, n, part, h1, h2⟩ := C71_any_moment envA envB fuelA fuelB l B _ _ _ _ logA logB (hA sA) (hB sB) (hf sB) hl hser hres cs last hc ht
  rw [asSends_trace, asSends_trace] at h1
  exact ⟨evs, n, part, h1, h2⟩

/-- **C90** (a frame goes on). A coroutine in the middle of a frame waits for nothing but the connection: as long as that takes bytes, it can make a step. -/
theorem C90_goes_on (env : Env) (p : XPool) (i : Nat) (s : Stream) (h : p.tasks[i]? = some (.streaming s)) (hw : p.world.st.sock.out.sched ≠ []) : ∃ p', XPool.Step env p i p' := by
  obtain ⟨x, w', e⟩ := streamNext_ready (env := env) (s := s) hw
  obtain ⟨ts, w⟩ := p
  exact ⟨_, .stream h (streamNext_sound e)⟩

theorem rest_plain {env : Env} {p : XPool} (h : (XEndpoint.streams p).AtRest env) (hw : p.world.st.sock.out.sched ≠ []) : ∀ x ∈ p.tasks, x.Plain := by
  intro x hx
  cases x with
  | plain o => trivial
  | streaming s =>
    obtain ⟨i, hi⟩ := List.getElem?_of_mem hx
    obtain ⟨x, w', e⟩ := streamNext_ready (env := env) (s := s) hw
    obtain ⟨bs, hb⟩ := streamStep_written (streamNext_sound e)
    obtain ⟨ts, w⟩ := p
    exact (h _ _ (.streams (.stream hi (streamNext_sound e)) hi (List.getElem?_set_self (lt_of_some hi)) (fun t ht => by cases ht) hb)).elim

theorem rest_now {env : Env} {e : XEndpoint} (h : e.AtRest env) (hw : e.st.sock.out.sched ≠ []) : e.now.AtRest env := by
  cases e with
  | other e => exact fun x e' hs => h _ _ (.other hs)
  | streams p =>
    have hp := rest_plain h hw
    intro x e' hs
    obtain ⟨ts, w⟩ := p
    have hm : (XEndpoint.streams ⟨ts, w⟩).now = .tasks ⟨ts.map XTask.asSend, w⟩ := rfl
    rw [hm] at hs
    cases hs with
    | @task _ i t o w' bs e1 e2 e3 e4 e5 =>
      have hi : ts[i]? = some (.plain (.run t)) := by
        rw [List.getElem?_map] at e1
        cases hx : ts[i]? with
        | none => rw [hx] at e1; cases e1
        | some x =>
          rw [hx] at e1
          cases x with
          | plain o => cases e1; rfl
          | streaming s => exact (hp _ (List.mem_of_getElem? hx)).elim
      exact h _ _ (.streams (.plain hi e3 e4) hi (List.getElem?_set_self (lt_of_some hi)) (fun t' ht => by cases ht; exact e2) e5)

/-- **C90** (everything is heard). When nobody can make a step any more, the connection still working, no send has failed and nothing but a close has ended listening, then the listener of the peer has heard
exactly what the calls say, whichever of them were written in pieces by coroutines. -/
theorem C90_all_heard (envA envB : Env) (fuelA fuelB l B : Nat) (a0 b0 a b : XEndpoint) (logA logB : List Entry) (hfa : a0.Fresh) (hfb : b0.Fresh)
    (hA : ∀ s, (a0.asSends s).App envA fuelA) (hB : ∀ s, (b0.asSends s).Listening envB fuelB l B) (hfA : ∀ s, (a0.asSends s).Enough fuelA) (hfB : ∀ s, (b0.asSends s).Enough fuelB)
    (h : XLinked envA envB a0 b0 logA logB a b) (hser : Serialised logA) (hok : ∀ e ∈ logA, e.failed = false)
    (cs last : List SendCall) (hc : callsOf logA = cs ++ last) (ht : Speech cs last)
    (hrA : a.AtRest envA) (hrB : b.AtRest envB) (hdA : a.now.Defined) (hwA : a.st.sock.out.sched ≠ []) (hwB : b.st.sock.out.sched ≠ []) (hrdB : b.st.inp.sched ≠ [])
    (hn : ∀ s, Endpoint.Unbroken envB (b0.asSends s) b.now) :
    ∃ evs, b.st.sock.trace = b0.st.sock.trace ++ evs ∧ HeardWhole (callsOf logA) l evs ∧ ((b.now.Waits ∧ last = []) ∨ (b.now.Ended envB ∧ last ≠ [])) := by
  obtain ⟨sA, sB, hl⟩ := C90_connected envA envB a0 b0 a b logA logB hfa hfb h a.st.sock.out.sched b.st.sock.out.sched
  obtain ⟨evs, h1, h2, h3⟩ := C71_all_heard envA envB fuelA fuelB l B _ _ _ _ logA logB (hA sA) (hB sB) (hfA sA) (hfB sB) hl hser hok cs last hc ht (rest_now hrA hwA) (rest_now hrB hwB) hdA
    (by cases a <;> exact hwA) (by cases b <;> exact hwB) (by cases b <;> exact hrdB) (hn sB)
  rw [asSends_trace, asSends_trace] at h1
  exact ⟨evs, h1, h2, h3⟩

theorem logged_steps {env : Env} {p q : Pool} {log : List Entry} (h : Pool.Logged env p log q) : Pool.Steps env p q := by
  induction h with
  | refl => exact .refl
  | tail _ h1 h2 h3 h4 ih => exact .tail ih (.mk h1 h2 h3)

/-- **C90** (nothing undefined). If nobody changes the size of the read buffer and no send has 2 GiB or more, no execution reaches undefined behaviour (C72). -/
theorem C90_defined (env : Env) (fuel : Nat) (B : Int) (p p' : XPool) (hp : ∀ x ∈ p.tasks, x.Plain) (hq : ∀ x ∈ p.tasks, x.asSend.quiet) (hc : env.Careful B) (hk : ∀ s, (Endpoint.tasks (p.asSends s)).Careful env fuel B)
    (h : XPool.Steps env p p') (u : UB) : XTask.plain (.ub u) ∉ p'.tasks := by
  obtain ⟨log, hl⟩ := C90_recorded env p p' hp hq h
  obtain ⟨s, hs⟩ := C90_same_record env p p' log hp hl []
  intro hm
  exact C72_tasks env fuel B _ _ hc (hk s) (logged_steps hs) u (List.mem_map.mpr ⟨_, hm, rfl⟩)

/-! ## A concrete case -/

/-- A step of task `i`; `some pieces`: it begins to write the next frame itself. -/
def xturn (env : Env) (p : XPool) (i : Nat) (c : Option (List (List UInt8))) : Option (List Entry × XPool) :=
  match p.tasks[i]?, c with
  | some (.plain (.run ⟨.user u :: below, l⟩)), some pieces =>
    match u.ops with
    | .send (.oneFrame fin opcode (some m)) catches :: ops =>
      if pieces.flatten = m ∧ pieces.flatten.length < 2 ^ 31 then
        some (recordOf env i (.plain (.run ⟨.user u :: below, l⟩)) (.streaming ⟨fin, opcode, pieces.flatten, .start default pieces, { u with ops := ops, catching := catches }, below, l⟩) p.world p.world [],
          ⟨p.tasks.set i (.streaming ⟨fin, opcode, pieces.flatten, .start default pieces, { u with ops := ops, catching := catches }, below, l⟩), p.world⟩)
      else none
    | _ => none
  | some (.plain (.run t)), none =>
    if t.ready p.world = true ∧ (step env t p.world).1 ≠ .blocked ∧
        (step env t p.world).2.st.sock.out.written = p.world.st.sock.out.written ++ (step env t p.world).2.st.sock.out.written.drop p.world.st.sock.out.written.length then
      some (recordOf env i (.plain (.run t)) (.plain (step env t p.world).1) p.world (step env t p.world).2
          ((step env t p.world).2.st.sock.out.written.drop p.world.st.sock.out.written.length),
        ⟨p.tasks.set i (.plain (step env t p.world).1), (step env t p.world).2⟩)
    else none
  | some (.streaming s), none =>
    match streamNext env s p.world with
    | some (x, w') =>
      if w'.st.sock.out.written = p.world.st.sock.out.written ++ w'.st.sock.out.written.drop p.world.st.sock.out.written.length then
        some (recordOf env i (.streaming s) x p.world w' (w'.st.sock.out.written.drop p.world.st.sock.out.written.length), ⟨p.tasks.set i x, w'⟩)
      else none
    | none => none
  | _, _ => none

theorem xturn_step {env : Env} {p p' : XPool} {i : Nat} {c : Option (List (List UInt8))} {es : List Entry} (h : xturn env p i c = some (es, p')) :
    XEndpoint.Step env (.streams p) es (.streams p') ∧ ∃ x x' bs, XPool.Step env p i p' ∧ p.tasks[i]? = some x ∧ p'.tasks[i]? = some x' ∧
      p'.world.st.sock.out.written = p.world.st.sock.out.written ++ bs ∧ es = recordOf env i x x' p.world p'.world bs := by
  suffices h : ∃ x x' bs, XPool.Step env p i p' ∧ p.tasks[i]? = some x ∧ p'.tasks[i]? = some x' ∧ (∀ t, x = .plain (.run t) → t.ready p.world = true) ∧
      p'.world.st.sock.out.written = p.world.st.sock.out.written ++ bs ∧ es = recordOf env i x x' p.world p'.world bs by
    obtain ⟨x, x', bs, h1, h2, h3, h4, h5, rfl⟩ := h
    exact ⟨.streams h1 h2 h3 h4 h5, x, x', bs, h1, h2, h3, h5, rfl⟩
  obtain ⟨ts, w⟩ := p
  unfold xturn at h
  split at h
  · rename_i u below l pieces e1
    split at h
    · rename_i fin opcode m catches ops e2
      split at h
      · rename_i hc
        obtain ⟨rfl, hlen⟩ := hc
        cases h
        exact ⟨_, _, [], .choose e1 e2 hlen, e1, List.getElem?_set_self (lt_of_some e1), fun t ht => by cases ht; rfl, by simp, rfl⟩
      · cases h
    · cases h
  · rename_i t e1
    split at h
    · rename_i hc
      cases h
      exact ⟨_, _, _, .plain e1 rfl hc.2.1, e1, List.getElem?_set_self (lt_of_some e1), fun t ht => by cases ht; exact hc.1, hc.2.2, rfl⟩
    · cases h
  · rename_i s e1
    split at h
    · rename_i x w' e2
      split at h
      · rename_i hc
        cases h
        exact ⟨_, _, _, .stream e1 (streamNext_sound e2), e1, List.getElem?_set_self (lt_of_some e1), fun t ht => (by cases ht), hc, rfl⟩
      · cases h
    · cases h
  · cases h

/-- Turns of the tasks of the first endpoint, then of the threads or tasks of the second one; who cannot step is passed over. -/
def xrunA (env : Env) : List (Nat × Option (List (List UInt8))) → List Entry → XPool → List Entry × XPool
  | [], la, p => (la, p)
  | (i, c) :: is, la, p =>
    match xturn env p i c with
    | some (es, p') => xrunA env is (la ++ es) p'
    | none => xrunA env is la p

def xrunB (env : Env) : List Nat → List Entry → Endpoint → List Entry × Endpoint
  | [], lb, b => (lb, b)
  | i :: is, lb, b =>
    match b.turn env i with
    | some (e, b') => xrunB env is (lb ++ [e]) b'
    | none => xrunB env is lb b

theorem xrunA_logged {env : Env} (is : List (Nat × Option (List (List UInt8)))) {p0 p : XPool} {la : List Entry} (h : XPool.Logged env p0 la p) :
    XPool.Logged env p0 (xrunA env is la p).1 (xrunA env is la p).2 := by
  induction is generalizing la p with
  | nil => exact h
  | cons t is ih =>
    rcases t with ⟨i, c⟩
    rw [xrunA]
    split
    · rename_i es p' e
      obtain ⟨-, x, x', bs, h1, h2, h3, h4, rfl⟩ := xturn_step e
      exact ih (.tail h h1 h2 h3 h4)
    · exact ih h

theorem xrunA_linked {envA envB : Env} (is : List (Nat × Option (List (List UInt8)))) {a0 b0 : XEndpoint} {p : XPool} {b : Endpoint} {la lb : List Entry}
    (h : XLinked envA envB a0 b0 la lb (.streams p) (.other (b.receive (la.flatMap Entry.wrote)))) :
    XLinked envA envB a0 b0 (xrunA envA is la p).1 lb (.streams (xrunA envA is la p).2) (.other (b.receive ((xrunA envA is la p).1.flatMap Entry.wrote))) := by
  induction is generalizing la p with
  | nil => exact h
  | cons t is ih =>
    rcases t with ⟨i, c⟩
    rw [xrunA]
    split
    · rename_i es p' e
      have := XLinked.left h (xturn_step e).1
      rw [show (XEndpoint.other (b.receive (la.flatMap Entry.wrote))).receive (es.flatMap Entry.wrote) = .other ((b.receive (la.flatMap Entry.wrote)).receive (es.flatMap Entry.wrote)) from rfl,
        receive_append, ← List.flatMap_append] at this
      exact ih this
    · exact ih h

theorem xrunB_linked {envA envB : Env} (is : List Nat) {a0 b0 a : XEndpoint} {b : Endpoint} {la lb : List Entry} (h : XLinked envA envB a0 b0 la lb a (.other b)) (hq : lb.flatMap Entry.wrote = [])
    (hn : (xrunB envB is lb b).1.flatMap Entry.wrote = []) : XLinked envA envB a0 b0 la (xrunB envB is lb b).1 a (.other (xrunB envB is lb b).2) := by
  have mono : ∀ (is : List Nat) (lb : List Entry) (b : Endpoint), ∃ more, (xrunB envB is lb b).1 = lb ++ more := by
    intro is
    induction is with
    | nil => intro lb b; exact ⟨[], by simp [xrunB]⟩
    | cons i is ih =>
      intro lb b
      rw [xrunB]
      split
      · rename_i e b' _
        obtain ⟨more, hm⟩ := ih (lb ++ [e]) b'
        exact ⟨e :: more, by rw [hm]; simp⟩
      · exact ih lb b
  induction is generalizing lb b with
  | nil => exact h
  | cons i is ih =>
    rw [xrunB] at hn ⊢
    split at hn
    · rename_i e b' he
      have hz : (lb ++ [e]).flatMap Entry.wrote = [] := by
        obtain ⟨more, hm⟩ := mono is (lb ++ [e]) b'
        rw [hm, List.flatMap_append] at hn
        exact (List.append_eq_nil_iff.mp hn).1
      have h2 := XLinked.right h (.other (Endpoint.turn_step he))
      have hw : [e].flatMap Entry.wrote = [] := by rw [List.flatMap_append] at hz; exact (List.append_eq_nil_iff.mp hz).2
      rw [hw] at h2
      have ha : a.receive [] = a := by
        cases a with
        | streams p =>
          obtain ⟨ts, w⟩ := p
          show XEndpoint.streams ⟨ts, w.setInp ⟨w.st.inp.bytes ++ [], w.st.inp.sched⟩⟩ = _
          rw [List.append_nil]; rfl
        | other e => exact congrArg XEndpoint.other (AsyncProcess.receive_nil e)
      rw [ha] at h2
      exact ih h2 hz hn
    · exact ih h hq hn

/-- When no task is in the middle of a frame: the computed check for ordinary endpoints suffices. -/
theorem rest_of_now {env : Env} {p : XPool} (hp : ∀ x ∈ p.tasks, x.Plain) (h : (XEndpoint.streams p).now.AtRest env) : (XEndpoint.streams p).AtRest env := by
  intro es e' hs
  obtain ⟨ts, w⟩ := p
  have hm : (XEndpoint.streams ⟨ts, w⟩).now = .tasks ⟨ts.map XTask.asSend, w⟩ := rfl
  rw [hm] at h
  cases hs with
  | @streams _ p' i x x' bs e1 e2 e3 e4 e5 =>
    cases e1 with
    | @plain _ _ w' _ t o f1 f2 f3 =>
      rw [show (ts[i]? : Option XTask) = _ from f1] at e2
      cases e2
      exact h _ _ (.task (map_getElem? (p := ⟨ts, w⟩) f1) (e4 t rfl) f2 f3 e5)
    | @choose _ _ _ u below l fin opcode h0 pieces catches ops f1 f2 f3 =>
      have : step env ⟨.user u :: below, l⟩ w = (.run ⟨[sendAsync env (.oneFrame fin opcode (some pieces.flatten))] ++ .user { u with ops := ops, catching := catches } :: below, l⟩, w) := by
        refine step_call ?_
        show userStep env u l w = _
        unfold userStep
        rw [f2]
      exact h _ _ (.task (bs := []) (map_getElem? (p := ⟨ts, w⟩) f1) (ready_user ..) this (fun h => by cases h) (by simp))
    | @stream _ _ w' _ s x f1 f2 => exact hp _ (List.mem_of_getElem? f1)

/-- A client that masks, listens, and sends a text and then "Hello" as a binary message. -/
def exTalker : XPool :=
  ⟨[.plain (.run (listenTask default)), .plain (.run (userTask [.send (.text (some [7, 8])) true, .send (.oneFrame true 2 (some [0x48, 0x65, 0x6c, 0x6c, 0x6f])) true]))],
    { st := { sock := { Sock.new { maskOutgoingMessages := true, readBufferSize := 2 } ⟨[], Fixture.slow 40⟩ with listener := some 9 }, inp := ⟨[], Fixture.slow 5⟩ } }⟩

def exHearer : Endpoint := .threads ⟨[Threads.listenT Fixture.env 100 default],
  { sock := { Sock.new { readBufferSize := 2 } ⟨[], Fixture.slow 10⟩ with listener := some 1 }, inp := ⟨[], Fixture.slow 40⟩ }⟩

/-- It writes "Hello" itself, in the pieces "H", "", "ell", "o", one byte at a time (`Fixture.slow`). -/
def exTalk := xrunA Fixture.env (List.replicate 3 (0, none) ++ List.replicate 21 (1, none) ++ [(1, some [[0x48], [], [0x65, 0x6c, 0x6c], [0x6f]])] ++ List.replicate 50 (1, none)) [] exTalker

def exHeard := xrunB Fixture.env (List.replicate 200 0) [] (exHearer.receive (exTalk.1.flatMap Entry.wrote))

/-- The tasks that are in the middle of a frame they write themselves. -/
def streamingNow (p : XPool) : List Bool := p.tasks.map fun | .streaming _ => true | .plain _ => false

theorem plain_of_now {p : XPool} (h : streamingNow p = [false, false]) : ∀ x ∈ p.tasks, x.Plain := by
  intro x hx
  cases x with
  | plain o => trivial
  | streaming s =>
    have : true ∈ streamingNow p := List.mem_map.mpr ⟨_, hx, rfl⟩
    rw [h] at this
    simp at this

/-- In the middle: the coroutine has written the header and "He". -/
def exMidway := xrunA Fixture.env (List.replicate 3 (0, none) ++ List.replicate 21 (1, none) ++ [(1, some [[0x48], [], [0x65, 0x6c, 0x6c], [0x6f]])] ++ List.replicate 22 (1, none)) [] exTalker

theorem exMidway_view : (streamingNow exMidway.2, exMidway.2.world.st.sock.out.written, callsOf exMidway.1) =
    ([false, true], [129, 130, 3, 20, 37, 54, 4, 28, 130, 133, 71, 88, 105, 122, 15, 61], [.text (some [7, 8]), .oneFrame true 2 (some [0x48, 0x65, 0x6c, 0x6c, 0x6f])]) := by decide +kernel

theorem exTalk_view : (streamingNow exTalk.2, restView Fixture.env exTalk.1 (XEndpoint.streams exTalk.2).now, exTalk.1.flatMap Entry.wrote, resignedNow exTalk.1) =
    ([false, false], ⟨⟨true, true, [.text (some [7, 8]), .oneFrame true 2 (some [0x48, 0x65, 0x6c, 0x6c, 0x6f])], [], [.completed, .completed], [], [], true⟩, true, true, true, false⟩,
      [129, 130, 3, 20, 37, 54, 4, 28, 130, 133, 71, 88, 105, 122, 15, 61, 5, 22, 40], true) := by decide +kernel

theorem exHeard_view : (restView Fixture.env exHeard.1 exHeard.2, exHeard.1.flatMap Entry.wrote) =
    (⟨⟨true, true, [], [], [], [.readMessage 1 1 [7], .readMessage 1 1 [8], .readMessage 1 1 [], .readMessage 1 2 [0x48], .readMessage 1 2 [0x65], .readMessage 1 2 [0x6c], .readMessage 1 2 [0x6c],
      .readMessage 1 2 [0x6f], .readMessage 1 2 []], [], true⟩, true, true, true, true⟩, []) := by decide +kernel

theorem exTalker_plain : ∀ x ∈ exTalker.tasks, x.Plain := plain_of_now rfl

theorem exTalker_quiet : ∀ x ∈ exTalker.tasks, x.asSend.quiet := by
  intro x hx
  simp only [exTalker, List.mem_cons, List.not_mem_nil, or_false] at hx
  rcases hx with rfl | rfl <;> (intro co hco; rw [List.mem_singleton.mp hco]; exact ⟨fun c h => (by cases h), fun c h => (by cases h)⟩)

theorem exTalker_careful (s : List IoOutcome) : (Endpoint.tasks (exTalker.asSends s)).Careful Fixture.env 100 2 := by
  refine ⟨fun o ho => ?_, rfl⟩
  obtain ⟨x, hx, rfl⟩ := List.mem_map.mp ho
  simp only [exTalker, List.mem_cons, List.not_mem_nil, or_false] at hx
  rcases hx with rfl | rfl
  · exact ⟨_, rfl, .listen _⟩
  · refine ⟨_, rfl, .code _ fun op h => ?_⟩
    simp only [List.mem_cons, List.not_mem_nil, or_false] at h
    rcases h with rfl | rfl <;> exact Nat.le_of_ble_eq_true rfl

/-- The hypotheses of `C90_same_record`, `C90_every_frame`, `C90_recorded` and `C90_defined` are met, by an execution that stops in the middle of a frame a coroutine writes itself, and by one that goes on to its
end; and those of `C90_goes_on`. -/
example : ∃ p log, XPool.Logged Fixture.env exTalker log p ∧ streamingNow p = [false, true] ∧ p.world.st.sock.out.written = [129, 130, 3, 20, 37, 54, 4, 28, 130, 133, 71, 88, 105, 122, 15, 61] ∧
    (∃ s, Pool.Logged Fixture.env (exTalker.asSends s) log (p.asSends [])) ∧ (∀ s ∈ sendsOf 1 log, s.call.content.2.2.length < 2 ^ 63 → s.Sound Fixture.env) ∧
    bytesOf 1 log = (sendsOf 1 log).reverse.flatMap Sent.bytes := by
  have hl : XPool.Logged Fixture.env exTalker exMidway.1 exMidway.2 := xrunA_logged _ .refl
  have hv := exMidway_view
  generalize exMidway.1 = log, exMidway.2 = p at hl hv
  injection hv with h1 h2
  injection h2 with h2 h3
  have := (C90_every_frame Fixture.env exTalker p log exTalker_plain exTalker_quiet hl).1 1 (by decide)
  exact ⟨p, log, hl, h1, h2, C90_same_record Fixture.env exTalker p log exTalker_plain hl [], this.1, this.2.2⟩

example : ∃ p p' log, XPool.Logged Fixture.env exTalker log p' ∧ (∃ l, XPool.Logged Fixture.env exTalker l p) ∧ (∃ s, p.tasks[1]? = some (.streaming s)) ∧ (∃ q, XPool.Step Fixture.env p 1 q) ∧
    (∀ x ∈ p'.tasks, x.Plain) ∧ (∀ u, XTask.plain (.ub u) ∉ p'.tasks) := by
  have hl : XPool.Logged Fixture.env exTalker exTalk.1 exTalk.2 := xrunA_logged _ .refl
  have hm : XPool.Logged Fixture.env exTalker exMidway.1 exMidway.2 := xrunA_logged _ .refl
  have hs : ∃ s, exMidway.2.tasks[1]? = some (.streaming s) := by
    have hv : (match exMidway.2.tasks[1]? with | some (.streaming _) => true | _ => false) = true := by decide +kernel
    split at hv
    · rename_i s e; exact ⟨s, e⟩
    · cases hv
  have hw : exMidway.2.world.st.sock.out.sched ≠ [] := by
    have : exMidway.2.world.st.sock.out.sched.isEmpty = false := by decide +kernel
    intro e; rw [e] at this; cases this
  have hst : ∀ {p q : XPool} {log : List Entry}, XPool.Logged Fixture.env p log q → XPool.Steps Fixture.env p q := by
    intro p q log h
    induction h with
    | refl => exact .refl
    | tail _ h2 _ _ _ ih => exact .tail ih h2
  have hv := exTalk_view
  injection hv with h1 h2
  obtain ⟨s, hs'⟩ := hs
  exact ⟨exMidway.2, exTalk.2, exTalk.1, hl, ⟨_, hm⟩, ⟨s, hs'⟩, C90_goes_on Fixture.env _ 1 s hs' hw, plain_of_now h1,
    fun u => C90_defined Fixture.env 100 2 exTalker exTalk.2 exTalker_plain exTalker_quiet (fun _ _ h => by cases h) exTalker_careful (hst hl) u⟩

theorem exTalk_speech : Speech [.text (some [7, 8]), .oneFrame true 2 (some [0x48, 0x65, 0x6c, 0x6c, 0x6f])] [] := by
  refine ⟨⟨rfl, .inr ⟨.inr rfl, rfl⟩, trivial⟩, .inl rfl, ?_⟩
  intro c hc
  simp only [List.append_nil, List.mem_cons, List.not_mem_nil, or_false] at hc
  rcases hc with rfl | rfl <;> exact Nat.lt_of_le_of_lt (by decide : _ ≤ 5) (by decide)

/-- The hypotheses of `C90_connected`, `C90_any_moment` and `C90_all_heard` are met: the listener of the peer hears the text and "Hello", which a coroutine has written as "H", "", "ell", "o". -/
example : ∃ a b logA logB, XLinked Fixture.env Fixture.env (.streams exTalker) (.other exHearer) logA logB a b ∧ a.AtRest Fixture.env ∧ b.AtRest Fixture.env ∧
    callsOf logA = [.text (some [7, 8]), .oneFrame true 2 (some [0x48, 0x65, 0x6c, 0x6c, 0x6f])] ∧ HeardWhole (callsOf logA) 1 b.st.sock.trace ∧ b.now.Waits ∧
    (∃ n part, HeardUpTo (callsOf logA) 1 n part b.st.sock.trace) := by
  have h0 : XLinked Fixture.env Fixture.env (.streams exTalker) (.other exHearer) [] [] (.streams exTalker) (.other (exHearer.receive ([].flatMap Entry.wrote))) := by
    rw [List.flatMap_nil, AsyncProcess.receive_nil]; exact .refl
  have hB := exHeard_view
  injection hB with hB hq
  have hl0 : XLinked Fixture.env Fixture.env (.streams exTalker) (.other exHearer) exTalk.1 [] (.streams exTalk.2) (.other (exHearer.receive (exTalk.1.flatMap Entry.wrote))) := by
    have := xrunA_linked (List.replicate 3 (0, none) ++ List.replicate 21 (1, none) ++ [(1, some [[0x48], [], [0x65, 0x6c, 0x6c], [0x6f]])] ++ List.replicate 50 (1, none)) h0
    exact this
  have hl : XLinked Fixture.env Fixture.env (.streams exTalker) (.other exHearer) exTalk.1 exHeard.1 (.streams exTalk.2) (.other exHeard.2) :=
    xrunB_linked (List.replicate 200 0) hl0 rfl hq
  have hA := exTalk_view
  generalize exTalk.1 = logA, exTalk.2 = p, exHeard.1 = logB, exHeard.2 = b at hl hA hB
  clear hl0
  injection hA with hp hA
  injection hA with hA hwr
  injection hwr with _ hres
  injection hA with hA ar ad aw al
  injection hA with a1 a2 a3 a4 a5 a6 a7 a8
  injection hB with hB br bd bw bl
  injection hB with b1 b2 b3 b4 b5 b6 b7 b8
  have ok : ∀ e ∈ logA, e.failed = false := by
    intro e hm
    have := List.all_eq_true.mp a2 e hm
    simp at this
    exact this.1
  have hlisten : exHearer.Listening Fixture.env 100 1 2 :=
    ⟨⟨default, _, rfl, fun _ h => (by cases h)⟩, fun _ _ h => (by cases h), by decide, ⟨⟨1, rfl, rfl⟩, rfl, fun _ _ => trivial, rfl⟩, rfl⟩
  have happ : ∀ s, ((XEndpoint.streams exTalker).asSends s).App Fixture.env 100 := fun s => quiet_asSends exTalker_quiet s
  have hen : ∀ s, ((XEndpoint.streams exTalker).asSends s).Enough 100 := fun s o ho => by
    obtain ⟨t, rfl, _⟩ := (exTalker_careful s).1 o ho
    exact fun h => by cases h
  have hC := C90_connected _ _ _ _ _ _ _ _ (show (XEndpoint.streams exTalker).Fresh from exTalker_plain) (show (XEndpoint.other exHearer).Fresh from trivial) hl [] []
  obtain ⟨sA, sB, hC⟩ := hC
  have uB : Endpoint.Unbroken Fixture.env exHearer b := by
    obtain ⟨q, e, _⟩ := Fed.threads hC.fed.2
    have e' : b = .threads q := e
    subst e'
    exact ⟨fun _ _ h => (by cases h), bl, by decide⟩
  have hsp : Speech (callsOf logA) [] := by rw [show callsOf logA = _ from a3]; exact exTalk_speech
  have rA := rest_of_now (plain_of_now hp) (restNow_sound ar)
  have rB : (XEndpoint.other b).AtRest Fixture.env := by
    intro es e' hs
    cases hs with
    | other h => exact restNow_sound br _ _ h
  obtain ⟨evs, g1, g2, g3⟩ := C90_all_heard Fixture.env Fixture.env 100 100 1 2 (.streams exTalker) (.other exHearer) (.streams p) (.other b) logA logB exTalker_plain trivial happ (fun _ => hlisten) hen
    (fun _ => ⟨by decide, by decide⟩) hl (serialCheck_sound a1) ok _ [] (by simp) hsp rA rB (definedNow_sound ad) (worksNow_sound aw).1 (worksNow_sound bw).1 (worksNow_sound bw).2 (fun _ => uB)
  obtain ⟨evs', n, part, k1, k2⟩ := C90_any_moment Fixture.env Fixture.env 100 100 1 2 (.streams exTalker) (.other exHearer) (.streams p) (.other b) logA logB exTalker_plain trivial happ (fun _ => hlisten)
    (fun _ => ⟨by decide, by decide⟩) hl (serialCheck_sound a1) (resignedNow_sound hres) _ [] (by simp) hsp
  have e1 : (XEndpoint.other b).st.sock.trace = evs := g1
  have e2 : (XEndpoint.other b).st.sock.trace = evs' := k1
  refine ⟨_, _, logA, logB, hl, rA, rB, a3, by rw [e1]; exact g2, ?_, n, part, by rw [e2]; exact k2⟩
  rcases g3 with ⟨g3, _⟩ | ⟨_, g3⟩
  · exact g3
  · exact absurd rfl g3

end OatWS.Streams
