import Verif.Spec.Rest
import Verif.Props.Network
import Verif.Props.AsyncLive
import Verif.Props.ThreadLive
/-! # C68: connected endpoints come to rest, and then everything sent has been heard -/

namespace OatWS.Threads
open RFC6455 Async Prog

/-- A thread at a read, or one that has ended, is not in the middle of a send. -/
theorem ThreadInv.at_read {env : Env} {n : Nat} {k} {ss : List Sent} (h : ThreadInv env (.act (.read n) k) ss) : HeadOver ss := by
  obtain ⟨⟨ph, hg, hok⟩, -, -⟩ := h
  have : ph = none := (hok (.retry) 0 trivial).1
  rw [this] at hg
  exact hg

theorem Fed.live {env : Env} {p q : Pool} {log fed} (h : Fed env p log fed q) (hl : AllLive p) : AllLive q := by
  induction h with
  | refl => exact hl
  | own _ h1 _ h3 ih => exact ih.step (.mk h1 h3)
  | feed bs _ ih => exact ih

/-- No thread can make a step. -/
def NoStep (env : Env) (q : Pool) : Prop :=
  ∀ (i : Nat) (a : Act) (k : a.Res → Prog Unit) (r : a.Res) (st' : St), q.threads[i]? = some (.act a k) → Ready a q.st = true → exec env a q.st = some (r, st') → False

/-- Nobody can make a step: each thread has ended, or waits. -/
theorem Fed.rest {env : Env} {p q : Pool} {log fed} (h : Fed env p log fed q) (hl : AllLive p)
    (hrest : NoStep env q) (t : Prog Unit) (ht : t ∈ q.threads) :
    Threads.Ended t ∨ (∃ n k, t = .act (.read n) k ∧ (q.st.inp.sched = [] ∨ q.st.inp.bytes = [])) ∨ (∃ d k, t = .act (.write d) k ∧ q.st.sock.out.sched = []) := by
  have hlive := h.live hl t ht
  obtain ⟨i, hi⟩ := List.getElem?_of_mem ht
  cases t with
  | ret a => exact .inl (.inl rfl)
  | throw e => exact .inl (.inr (.inl ⟨e, rfl⟩))
  | ub u => exact .inl (.inr (.inr ⟨u, rfl⟩))
  | stuck => exact hlive.elim
  | act a k =>
    rcases exec_or_waits env q.st a k with ⟨a', k', r, st', e, he⟩ | ⟨n, k', e, hs⟩ | ⟨d, k', e, hs⟩
    · injection e with e1 e2
      subst e1
      cases a with
      | read n =>
        refine .inr (.inl ⟨n, k, rfl, ?_⟩)
        by_cases hb : q.st.inp.bytes = []
        · exact .inr hb
        · refine (hrest i _ _ r st' hi ?_ he).elim
          unfold Ready
          split
          · exact decide_eq_true hb
          · rfl
      | _ => exact (hrest i _ _ r st' hi rfl he).elim
    · exact .inr (.inl ⟨n, k', e, .inl hs⟩)
    · exact .inr (.inr ⟨d, k', e, hs⟩)

/-- Where the listening thread can be. -/
theorem Fed.place {envB : Env} {p0 p : Pool} {logB sent} (hfed : Fed envB p0 logB sent p) {fuelB l B : Nat} (hB : Listening envB fuelB l B p0) (hcalm : envB.Calm)
    (q : Prog Unit) (hq : p.threads[0]? = some q) (x : Out Unit) (hx : IsAt q x) : x = .ret () ∨ x = .reading ∨ x = .writing := by
  obtain ⟨used, hlog, hused⟩ := hfed.logged [0] []
  obtain ⟨hd, others, hts, hoth⟩ := hB.threads
  rw [hB.nothing, List.nil_append, List.append_nil] at hlog
  have hin : (steady l B).In false { p0.st with inp := ⟨sent ++ [0], used⟩ } := ⟨hB.start.listener, hB.start.size, fun _ _ => trivial, hB.start.opened⟩
  have hsteps : Pool.Steps envB ⟨listenT envB fuelB hd :: others, { p0.st with inp := ⟨sent ++ [0], used⟩ }⟩ (withInp p (p.st.inp.bytes ++ [0]) []) := by
    have := hlog.steps
    unfold withInp at this
    rw [hts] at this
    exact this
  obtain ⟨whole, part, fe, -, h2⟩ := C59_reception (steady l B) envB false fuelB hd _ others _ hB.callbacks hB.size hin hoth hsteps q hq x hx
  cases fe with
  | next o => exact .inl h2.1
  | over r =>
    cases r with
    | stopped => exact h2.elim
    | incomplete => rcases h2 with h | ⟨h, _⟩; exact .inr (.inl h); exact .inl h
    | interrupted => rcases h2 with h | ⟨h, _⟩; exact .inr (.inr h); exact absurd hcalm h
    | _ => exact .inl h2

theorem Fed.indices {env : Env} {p q : Pool} {log fed} (h : Fed env p log fed q) : q.threads.length = p.threads.length ∧ ∀ e ∈ log, e.task < p.threads.length := by
  induction h with
  | refl => exact ⟨rfl, fun _ h => (by cases h)⟩
  | own _ h1 _ _ ih =>
    refine ⟨by rw [← ih.1, List.length_set], fun e he => ?_⟩
    rcases List.mem_append.mp he with he | he
    · exact ih.2 e he
    · rw [List.mem_singleton.mp he]
      rw [← ih.1]
      exact (List.getElem?_eq_some_iff.mp h1).1
  | feed bs _ ih => exact ih

theorem not_sending_of_indices {log : List Entry} {n : Nat} (h : ∀ e ∈ log, e.task < n) {j : Nat} (hj : n ≤ j) : ¬ Sending j log := by
  rintro ⟨s, ss, e, _⟩
  have : log.filter (fun e => e.task == j) = [] := by
    rw [List.filter_eq_nil_iff]
    intro x hx hj'
    have := h x hx
    have := eq_of_beq hj'
    omega
  rw [sendsOf, this] at e
  cases e

theorem not_sending_of_over {log : List Entry} {j : Nat} (h : HeadOver (sendsOf j log)) : ¬ Sending j log := by
  rintro ⟨s, ss, e, hs⟩
  exact h s ss e hs

/-- Nobody can make a step, and the connection takes bytes: no send is in progress. -/
theorem Fed.not_sending {env : Env} {p q : Pool} {log fed} (h : Fed env p log fed q) {fuel : Nat} (hp : ∀ t ∈ p.threads, AppThread env fuel t) (hl : AllLive p)
    (hrest : NoStep env q)
    (hub : ∀ u, Prog.ub u ∉ q.threads) (hw : q.st.sock.out.sched ≠ []) (j : Nat) : ¬ Sending j log := by
  rcases Nat.lt_or_ge j p.threads.length with hj | hj
  · obtain ⟨used, hlog, -⟩ := h.logged [] []
    have hI := pool_inv env _ fuel (by exact hp) log _ hlog
    have hj : j < q.threads.length := by rw [h.indices.1]; exact hj
    have hq : q.threads[j]? = some q.threads[j] := List.getElem?_eq_getElem hj
    have hT := hI.threads j q.threads[j] hq
    have hm : q.threads[j] ∈ q.threads := List.getElem_mem hj
    rcases h.rest hl hrest _ hm with (e | ⟨x, e⟩ | ⟨u, e⟩) | ⟨n, k, e, _⟩ | ⟨d, k, _, e⟩
    · rw [e] at hT
      obtain ⟨⟨ph, hg, hok⟩, -, -⟩ := hT
      have hok : ph = none := hok
      rw [hok] at hg
      exact not_sending_of_over hg
    · rw [e] at hT
      obtain ⟨⟨ph, hg, hok⟩, -, -⟩ := hT
      have hok : ph = none := hok
      rw [hok] at hg
      exact not_sending_of_over hg
    · exact absurd (e ▸ hm) (hub u)
    · rw [e] at hT
      exact not_sending_of_over hT.at_read
    · exact absurd e hw
  · exact not_sending_of_indices h.indices.2 hj

end OatWS.Threads

namespace OatWS.Async
open RFC6455

/-- No task can make a step. -/
def NoStep (env : Env) (q : Pool) : Prop :=
  ∀ (i : Nat) (t : Task) (o : Outcome) (w' : World) (bs : List UInt8), q.tasks[i]? = some (.run t) → t.ready q.world = true → step env t q.world = (o, w') → o ≠ .blocked →
    w'.st.sock.out.written = q.world.st.sock.out.written ++ bs → False

theorem Fed.inv {env : Env} {p q : Pool} {log fed} (h : Fed env p log fed q) (hp : ∀ t ∈ p.tasks, Outcome.quiet t) (i : Nat) (o : Outcome) (ho : q.tasks[i]? = some o) :
    TaskInv env o (sendsOf i log) := by
  obtain ⟨used, hlog⟩ := h.logged [] []
  exact (pool_inv env _ (by exact hp) log _ hlog).tasks i o ho

theorem Fed.indices {env : Env} {p q : Pool} {log fed} (h : Fed env p log fed q) : q.tasks.length = p.tasks.length ∧ ∀ e ∈ log, e.task < p.tasks.length := by
  induction h with
  | refl => exact ⟨rfl, fun _ h => (by cases h)⟩
  | own _ h1 _ _ _ _ ih =>
    refine ⟨by rw [← ih.1, List.length_set], fun e he => ?_⟩
    rcases List.mem_append.mp he with he | he
    · exact ih.2 e he
    · rw [List.mem_singleton.mp he]
      rw [← ih.1]
      exact (List.getElem?_eq_some_iff.mp h1).1
  | feed bs _ ih => exact ih

theorem Fed.not_blocked {env : Env} {p q : Pool} {log fed} (h : Fed env p log fed q) (hp : ∀ o ∈ p.tasks, o ≠ .blocked) : ∀ o ∈ q.tasks, o ≠ .blocked := by
  induction h with
  | refl => exact hp
  | own _ _ _ _ h4 _ ih =>
    intro o ho
    rcases List.mem_or_eq_of_mem_set ho with ho | rfl
    · exact ih o ho
    · exact h4
  | feed bs _ ih => exact ih

/-- Nobody can make a step: each task that has not ended waits. -/
theorem Fed.rest {env : Env} {p q : Pool} {log fed} (h : Fed env p log fed q) (hp : ∀ t ∈ p.tasks, Outcome.quiet t) (hrest : NoStep env q) (i : Nat) (t : Task)
    (ht : q.tasks[i]? = some (.run t)) : (t.reads = true ∧ (q.world.st.inp.sched = [] ∨ q.world.st.inp.bytes = [])) ∨ (t.writes = true ∧ q.world.st.sock.out.sched = []) := by
  rcases can_or_waits env q.world t with ⟨t', o, w', e, hs, hb⟩ | ⟨t', e, hw⟩
  · injection e with e
    subst e
    obtain ⟨d, hd, -⟩ := task_step env i t _ (h.inv hp i _ ht) q.world o w' hs hb
    have hnr : t.ready q.world ≠ true := fun hr => hrest i t o w' d ht hr hs hb hd
    unfold Task.ready at hnr
    split at hnr
    · rename_i hr hsched
      refine .inl ⟨hr, .inr ?_⟩
      by_cases hb : q.world.st.inp.bytes = []
      · exact hb
      · exact absurd (decide_eq_true hb) hnr
    · exact absurd rfl hnr
  · injection e with e
    subst e
    rcases hw with ⟨h1, h2⟩ | h
    · exact .inl ⟨h1, .inl h2⟩
    · exact .inr h

theorem InSend.not_reads {env : Env} {t : Task} {c : SendCall} {bytes : List UInt8} {key : Option Nat} (h : InSend env t.stack c bytes key) : t.reads = false := by
  obtain ⟨m, rest, -, -, h | ⟨s, left, h, -⟩⟩ := h
  · unfold Task.reads
    rw [h.1]
    rfl
  · generalize hst : t.stack = st at h
    unfold Task.reads
    rw [hst]
    cases h <;> rfl

/-- Nobody can make a step, and the connection takes bytes: no send is in progress. -/
theorem Fed.not_sending {env : Env} {p q : Pool} {log fed} (h : Fed env p log fed q) (hp : ∀ t ∈ p.tasks, Outcome.quiet t) (hnb : ∀ o ∈ p.tasks, o ≠ .blocked)
    (hrest : NoStep env q) (hub : ∀ u, Outcome.ub u ∉ q.tasks) (hw : q.world.st.sock.out.sched ≠ []) (j : Nat) : ¬ Sending j log := by
  rcases Nat.lt_or_ge j p.tasks.length with hj | hj
  · have hj : j < q.tasks.length := by rw [h.indices.1]; exact hj
    have hq : q.tasks[j]? = some q.tasks[j] := List.getElem?_eq_getElem hj
    have hm : q.tasks[j] ∈ q.tasks := List.getElem_mem hj
    have hT := h.inv hp j _ hq
    have hb := h.not_blocked hnb _ hm
    cases ho : q.tasks[j] with
    | run t =>
      rw [ho] at hq hT
      rcases h.rest hp hrest j t hq with ⟨hr, _⟩ | ⟨_, e⟩
      · rcases hT.head with ⟨_, hd⟩ | ⟨s, r, _, _, hin⟩
        · exact Threads.not_sending_of_over hd
        · rw [hin.not_reads] at hr
          cases hr
      · exact absurd e hw
    | finished =>
      rw [ho] at hT
      exact Threads.not_sending_of_over hT.head
    | failed e =>
      rw [ho] at hT
      exact Threads.not_sending_of_over hT.head
    | blocked => exact absurd ho hb
    | ub u => exact absurd (ho ▸ hm) (hub u)
  · exact Threads.not_sending_of_indices h.indices.2 hj

end OatWS.Async

namespace OatWS.Network
open RFC6455 Async

theorem Fed.not_sending {env : Env} {e0 e : Endpoint} {log fed} (h : Fed env e0 log fed e) {fuel : Nat} (hp : e0.App env fuel) (hf : e0.Enough fuel) (hrest : e.AtRest env)
    (hd : e.Defined) (hw : e.Writable) (j : Nat) : ¬ Sending j log := by
  cases e0 with
  | threads p =>
    obtain ⟨q, rfl, hq⟩ := h.threads
    exact hq.not_sending hp (fun t ht => (hp t ht).live _ _ hf.1 hf.2) (fun i a k r st' h1 h2 h3 => hrest _ _ (.thread h1 h2 h3)) hd hw j
  | tasks p =>
    obtain ⟨q, rfl, hq⟩ := h.tasks
    exact hq.not_sending hp hf (fun i t o w' bs h1 h2 h3 h4 h5 => hrest _ _ (.task h1 h2 h3 h4 h5)) hd hw j

/-- At rest, the listening thread or task waits for input, or has ended. -/
theorem Fed.listening {env : Env} {b0 b : Endpoint} {log fed} (h : Fed env b0 log fed b) {fuel l B : Nat} (hB : b0.Listening env fuel l B) (hf : b0.Enough fuel)
    (hrest : b.AtRest env) (hn : Endpoint.Unbroken env b0 b) (hw : b.Writable) (hr : b.Readable) : (b.Waits ∧ b.st.inp.bytes = []) ∨ b.Ended env ∧ Endpoint.Undisturbed b0 b := by
  cases b0 with
  | threads p =>
    obtain ⟨q, rfl, hq⟩ := h.threads
    obtain ⟨hcalm, hund⟩ := hn
    have happ := Threads.Listening.app hB
    obtain ⟨hd, others, hts, -⟩ := hB.threads
    have hlen : 0 < q.threads.length := by rw [hq.indices.1, hts]; simp
    have h0 : q.threads[0]? = some q.threads[0] := List.getElem?_eq_getElem hlen
    rcases hq.rest (fun t ht => (happ t ht).live _ _ hf.1 hf.2) (fun i a k r st' h1 h2 h3 => hrest _ _ (.thread h1 h2 h3)) _ (List.getElem_mem hlen) with
      (e | ⟨x, e⟩ | ⟨u, e⟩) | ⟨n, k, e, hb⟩ | ⟨d, k, _, e⟩
    · exact .inr ⟨⟨_, h0, by rw [e]; rfl, hcalm⟩, hund⟩
    · rcases hq.place hB hcalm _ h0 (.throw x) (by rw [e]; rfl) with h | h | h <;> cases h
    · rcases hq.place hB hcalm _ h0 (.ub u) (by rw [e]; rfl) with h | h | h <;> cases h
    · refine .inl ⟨⟨_, h0, by rw [e]; rfl⟩, ?_⟩
      rcases hb with hb | hb
      · exact absurd hb hr
      · exact hb
    · exact absurd e hw
  | tasks p =>
    obtain ⟨q, rfl, hq⟩ := h.tasks
    rcases hn with ⟨t, ht⟩ | hfin
    · rcases hq.rest hB.2 (fun i t o w' bs h1 h2 h3 h4 h5 => hrest _ _ (.task h1 h2 h3 h4 h5)) 0 t ht with ⟨h1, h2⟩ | ⟨_, e⟩
      · refine .inl ⟨⟨t, ht, h1⟩, ?_⟩
        rcases h2 with h2 | h2
        · exact absurd h2 hr
        · exact h2
      · exact absurd e hw
    · exact .inr ⟨hfin, trivial⟩

/-- **C68** (everything is heard). Two connected endpoints, as in C66. When no thread or task of either can make a step any more, the
connection still working, and nothing but a close has ended listening, then everything has been heard: the listener has been told exactly the
messages sent, in order, each once, unchanged; and it has stopped listening exactly if the last one was a close. Nothing gets stuck on the way, in a buffer or for want of a wake-up. -/
theorem C68_all_heard (envA envB : Env) (fuelA fuelB l B : Nat) (a0 b0 a b : Endpoint) (logA logB : List Entry)
    (hA : a0.App envA fuelA) (hB : b0.Listening envB fuelB l B) (hfA : a0.Enough fuelA) (hfB : b0.Enough fuelB) (h : Linked envA envB a0 b0 logA logB a b)
    (hser : Serialised logA) (hok : ∀ e ∈ logA, e.failed = false) (cs last : List SendCall) (hc : callsOf logA = cs ++ last) (ht : Threads.Talk cs last)
    (hrA : a.AtRest envA) (hrB : b.AtRest envB) (hdA : a.Defined) (hwA : a.Writable) (hwB : b.Writable) (hrdB : b.Readable) (hn : Endpoint.Unbroken envB b0 b) :
    ∃ evs, b.st.sock.trace = b0.st.sock.trace ++ evs ∧ HeardAll (callsOf logA) l evs ∧ ((b.Waits ∧ last = []) ∨ (b.Ended envB ∧ last ≠ [])) := by
  have hns := h.fed.1.not_sending hA hfA hrA hdA hwA
  rcases h.fed.2.listening hB hfB hrB hn hwB hrdB with ⟨h1, h2⟩ | ⟨h1, h2⟩
  · obtain ⟨evs, k1, _, k2, _⟩ := C66_in_order envA envB fuelA fuelB l B a0 b0 a b logA logB hA hB h hser hok cs last hc ht (.inl h1)
    exact ⟨evs, k1, (k2 hns h2).1, .inl ⟨h1, (k2 hns h2).2 h1⟩⟩
  · obtain ⟨evs, k1, _, _, k2⟩ := C66_in_order envA envB fuelA fuelB l B a0 b0 a b logA logB hA hB h hser hok cs last hc ht (.inr h1)
    exact ⟨evs, k1, (k2 h1 h2).1, .inr ⟨h1, (k2 h1 h2).2⟩⟩

/-- **C68** (both directions). At each endpoint one thread or task listens, others send, callbacks send; only messages are sent. When nobody can make
a step any more, each listener has been told exactly what the other endpoint has sent, and both still listen. -/
theorem C68_both (envA envB : Env) (fuelA fuelB lA lB BA BB : Nat) (a0 b0 a b : Endpoint) (logA logB : List Entry)
    (hA : a0.Listening envA fuelA lA BA) (hB : b0.Listening envB fuelB lB BB) (hfA : a0.Enough fuelA) (hfB : b0.Enough fuelB) (h : Linked envA envB a0 b0 logA logB a b)
    (hserA : Serialised logA) (hokA : ∀ e ∈ logA, e.failed = false) (htA : Threads.Talk (callsOf logA) [])
    (hserB : Serialised logB) (hokB : ∀ e ∈ logB, e.failed = false) (htB : Threads.Talk (callsOf logB) [])
    (hrA : a.AtRest envA) (hrB : b.AtRest envB) (hdA : a.Defined) (hdB : b.Defined) (hwA : a.Writable) (hwB : b.Writable) (hrdA : a.Readable) (hrdB : b.Readable)
    (hnA : Endpoint.Unbroken envA a0 a) (hnB : Endpoint.Unbroken envB b0 b) :
    ∃ evsA evsB, a.st.sock.trace = a0.st.sock.trace ++ evsA ∧ b.st.sock.trace = b0.st.sock.trace ++ evsB ∧
      HeardAll (callsOf logB) lA evsA ∧ HeardAll (callsOf logA) lB evsB ∧ a.Waits ∧ b.Waits := by
  obtain ⟨eB, b1, b2, b3⟩ := C68_all_heard envA envB fuelA fuelB lB BB a0 b0 a b logA logB hA.app hB hfA hfB h hserA hokA _ [] (by simp) htA hrA hrB hdA hwA hwB hrdB hnB
  obtain ⟨eA, a1, a2, a3⟩ := C68_all_heard envB envA fuelB fuelA lA BA b0 a0 b a logB logA hB.app hA hfB hfA h.swap hserB hokB _ [] (by simp) htB hrB hrA hdB hwB hwA hrdA hnA
  refine ⟨eA, eB, a1, b1, a2, b2, ?_, ?_⟩
  · rcases a3 with ⟨h, _⟩ | ⟨_, h⟩
    · exact h
    · exact absurd rfl h
  · rcases b3 with ⟨h, _⟩ | ⟨_, h⟩
    · exact h
    · exact absurd rfl h

/-! ## No infinite execution -/

/-- What an endpoint can still do. -/
inductive Left where
  | threads (ts : List (Threads.Prog Unit))
  | tasks (x : Nat × List Outcome)

inductive Left.Down : Left → Left → Prop
  | threads {ts ts'} : Threads.One ts' ts → Left.Down (.threads ts') (.threads ts)
  | tasks {x x'} : PoolDown x' x → Left.Down (.tasks x') (.tasks x)

theorem Left.acc (x : Left) : Acc Left.Down x := by
  cases x with
  | threads ts =>
    have h := Threads.one_acc ts
    induction h with
    | intro ts _ ih => exact ⟨_, fun y hy => by cases hy with | threads h => exact ih _ h⟩
  | tasks x =>
    have h := poolDown_acc x
    induction h with
    | intro ts _ ih => exact ⟨_, fun y hy => by cases hy with | tasks h => exact ih _ h⟩

def Endpoint.left : Endpoint → Left
  | .threads p => .threads p.threads
  | .tasks p => .tasks (p.world.left, p.tasks)

theorem Endpoint.left_receive (e : Endpoint) (bs : List UInt8) : (e.receive bs).left = e.left := by
  cases e <;> rfl

theorem Endpoint.Step.down {env : Env} {e e' : Endpoint} {x : Entry} (h : e.Step env x e') : Left.Down e'.left e.left := by
  cases h with
  | thread h1 _ _ => exact .threads (Threads.one_of_set h1 _)
  | task h1 _ h3 h4 _ => exact .tasks (poolDown_step h1 h3 h4)

theorem step_acc (envA envB : Env) (s : Endpoint × Endpoint) : Acc (fun s' s => Step envA envB s s') s := by
  have key : ∀ x, Acc Left.Down x → ∀ y, Acc Left.Down y → ∀ s : Endpoint × Endpoint, s.1.left = x → s.2.left = y → Acc (fun s' s => Step envA envB s s') s := by
    intro x hx
    induction hx with
    | intro x hx' ihx =>
      intro y hy
      induction hy with
      | intro y hy' ihy =>
        rintro ⟨a, b⟩ rfl rfl
        refine ⟨_, fun s' hs => ?_⟩
        cases hs with
        | left h => exact ihx _ h.down _ ⟨_, hy'⟩ _ rfl (Endpoint.left_receive _ _)
        | right h => exact ihy _ h.down _ (Endpoint.left_receive _ _) rfl
  exact key _ (Left.acc _) _ (Left.acc _) s rfl rfl

/-- **C68** (nothing goes on for ever). Connected endpoints, whatever threads, tasks and callbacks do: there is no infinite execution (each connection
answers finitely often). -/
theorem C68_finite (envA envB : Env) (f : Nat → Endpoint × Endpoint) : ¬ ∀ n, Step envA envB (f n) (f (n + 1)) := by
  intro h
  have go : ∀ s, Acc (fun s' s => Step envA envB s s') s → ∀ n, s = f n → False := by
    intro s hs
    induction hs with
    | intro s _ ih =>
      rintro n rfl
      exact ih _ (h n) (n + 1) rfl
  exact go _ (step_acc envA envB (f 0)) 0 rfl

/-- **C68** (they come to rest). However an execution has gone so far, it goes on to one after which no thread or task can make a step. -/
theorem C68_comes_to_rest (envA envB : Env) (a0 b0 a b : Endpoint) (logA logB : List Entry) (h : Linked envA envB a0 b0 logA logB a b) :
    ∃ logA' logB' a' b', Linked envA envB a0 b0 (logA ++ logA') (logB ++ logB') a' b' ∧ a'.AtRest envA ∧ b'.AtRest envB := by
  have hacc := step_acc envA envB (a, b)
  generalize hs : (a, b) = s at hacc
  induction hacc generalizing a b logA logB with
  | intro s _ ih =>
    subst hs
    by_cases hA : ∃ x a', a.Step envA x a'
    · obtain ⟨x, a', hx⟩ := hA
      obtain ⟨lA, lB, a2, b2, h2, h3⟩ := ih _ (.left hx) _ _ _ _ (.left h hx) rfl
      rw [List.append_assoc] at h2
      exact ⟨_, _, a2, b2, h2, h3⟩
    · by_cases hB : ∃ x b', b.Step envB x b'
      · obtain ⟨x, b', hx⟩ := hB
        obtain ⟨lA, lB, a2, b2, h2, h3⟩ := ih _ (.right hx) _ _ _ _ (.right h hx) rfl
        rw [List.append_assoc] at h2
        exact ⟨_, _, a2, b2, h2, h3⟩
      · refine ⟨[], [], a, b, by rw [List.append_nil, List.append_nil]; exact h, fun x a' hx => hA ⟨x, a', hx⟩, fun x b' hx => hB ⟨x, b', hx⟩⟩

/-! ## A concrete case -/

theorem Endpoint.turn_of_step {env : Env} {e e' : Endpoint} {x : Entry} (h : e.Step env x e') : ∃ i, (e.turn env i).isSome = true := by
  cases h with
  | @thread p i a k r st' h1 h2 h3 =>
    refine ⟨i, ?_⟩
    dsimp only [Endpoint.turn]
    rw [h1]
    dsimp only
    rw [h2, h3]
    rfl
  | @task p i t o w' bs h1 h2 h3 h4 h5 =>
    refine ⟨i, ?_⟩
    dsimp only [Endpoint.turn]
    rw [h1]
    dsimp only
    rw [h3]
    dsimp only
    rw [if_pos ⟨h2, h4, by rw [h5, List.drop_left]⟩]
    rfl

def Endpoint.size : Endpoint → Nat
  | .threads p => p.threads.length
  | .tasks p => p.tasks.length

theorem Endpoint.turn_size {env : Env} {e : Endpoint} {i : Nat} (h : (e.turn env i).isSome = true) : i < e.size := by
  cases e with
  | threads p =>
    rcases Nat.lt_or_ge i p.threads.length with h' | h'
    · exact h'
    · dsimp only [Endpoint.turn] at h
      rw [List.getElem?_eq_none h'] at h
      cases h
  | tasks p =>
    rcases Nat.lt_or_ge i p.tasks.length with h' | h'
    · exact h'
    · dsimp only [Endpoint.turn] at h
      rw [List.getElem?_eq_none h'] at h
      cases h

/-- What can be checked by computation. -/
def restNow (env : Env) (e : Endpoint) : Bool := (List.range e.size).all fun i => (e.turn env i).isNone

theorem restNow_sound {env : Env} {e : Endpoint} (h : restNow env e = true) : e.AtRest env := by
  intro x e' hs
  obtain ⟨i, hi⟩ := Endpoint.turn_of_step hs
  have := List.all_eq_true.mp h i (List.mem_range.mpr (Endpoint.turn_size hi))
  cases he : e.turn env i with
  | none => rw [he] at hi; cases hi
  | some y => rw [he] at this; cases this

def Endpoint.definedNow : Endpoint → Bool
  | .threads p => p.threads.all fun t => match t with | .ub _ => false | _ => true
  | .tasks p => p.tasks.all fun t => match t with | .ub _ => false | _ => true

theorem definedNow_sound {e : Endpoint} (h : e.definedNow = true) : e.Defined := by
  cases e with
  | threads p =>
    intro u hu
    have := List.all_eq_true.mp h _ hu
    cases this
  | tasks p =>
    intro u hu
    have := List.all_eq_true.mp h _ hu
    cases this

/-- The connection still works. -/
def Endpoint.worksNow (e : Endpoint) : Bool := !e.st.sock.out.sched.isEmpty && !e.st.inp.sched.isEmpty

theorem worksNow_sound {e : Endpoint} (h : e.worksNow = true) : e.Writable ∧ e.Readable := by
  unfold Endpoint.worksNow at h
  rw [Bool.and_eq_true] at h
  refine ⟨fun e => ?_, fun e => ?_⟩
  · rw [e] at h; cases h.1
  · rw [e] at h; cases h.2

structure RestView where
  view : View
  rest : Bool
  defined : Bool
  works : Bool
  listening : Bool
  deriving DecidableEq

def restView (env : Env) (l : List Entry) (e : Endpoint) : RestView := ⟨Network.view l e, restNow env e, e.definedNow, e.worksNow, e.st.sock.listening⟩

/-- The client and server of `Props/Network`; the connection answers at most 36 times to the client. -/
def exClient : Endpoint := .threads
  ⟨[Threads.listenT Fixture.env 40 default, Threads.userOpsT Fixture.env 40 [.send (.text (some [7, 8])) true, .send (.ping (some [0x21])) true]],
    { sock := { Sock.new { readBufferSize := 2, maskOutgoingMessages := true } ⟨[], Fixture.slow 18⟩ with listener := some 1 }, inp := ⟨[], Fixture.slow 18⟩ }⟩

def exRest := run Fixture.env Async.exEnv (exTurns ++ [(false, 0), (true, 0), (false, 1), (true, 1), (false, 0), (true, 0)]) [] [] exClient exServer

theorem exRest_client : restView Fixture.env exRest.1 exRest.2.2.1 =
    ⟨⟨true, true, [.text (some [7, 8]), .ping (some [0x21])], [], [.completed, .completed],
      [.readMessage 1 2 [1], .readMessage 1 2 [2], .readMessage 1 2 [3], .readMessage 1 2 [], .onPong 1 [0x21]], [], true⟩, true, true, true, true⟩ := by decide +kernel

theorem exRest_server : restView Async.exEnv exRest.2.1 exRest.2.2.2 =
    ⟨⟨true, true, [.binary (some [1, 2, 3]), .pong (some [0x21])], [.completed], [.completed],
      [.readMessage 7 1 [7], .readMessage 7 1 [8], .readMessage 7 1 [], .onPing 7 [0x21]], [], true⟩, true, true, true, false⟩ := by decide +kernel

theorem exClient_listening : exClient.Listening Fixture.env 40 1 2 := by
  refine ⟨⟨default, _, rfl, ?_⟩, fun _ _ h => (by cases h), by decide, ⟨⟨1, rfl, rfl⟩, rfl, fun _ _ => trivial, rfl⟩, rfl⟩
  intro q hq
  rw [List.mem_singleton] at hq
  subst hq
  refine .code _ fun op h => ?_
  simp only [List.mem_cons, List.not_mem_nil, or_false] at h
  rcases h with rfl | rfl <;> trivial

/-- The hypotheses of `C68_both` (and those of `C68_all_heard`) are met. -/
example : ∃ a b logA logB, Linked Fixture.env Async.exEnv exClient exServer logA logB a b ∧ a.AtRest Fixture.env ∧ b.AtRest Async.exEnv ∧
    callsOf logA = [.text (some [7, 8]), .ping (some [0x21])] ∧ callsOf logB = [.binary (some [1, 2, 3]), .pong (some [0x21])] ∧
    HeardAll (callsOf logB) 1 a.st.sock.trace ∧ HeardAll (callsOf logA) 7 b.st.sock.trace := by
  have hl : Linked Fixture.env Async.exEnv exClient exServer exRest.1 exRest.2.1 exRest.2.2.1 exRest.2.2.2 := by
    unfold exRest
    exact run_linked _ .refl
  have hA := exRest_client
  have hB := exRest_server
  generalize exRest.1 = logA, exRest.2.1 = logB, exRest.2.2.1 = a, exRest.2.2.2 = b at hl hA hB
  injection hA with hA ar ad aw al
  injection hA with a1 a2 a3 a4 a5 a6 a7 a8
  injection hB with hB br bd bw bl
  injection hB with b1 b2 b3 b4 b5 b6 b7 b8
  have okOf : ∀ {l : List Entry}, l.all (fun e => !e.failed && (e.task == 0 || e.task == 1)) = true → ∀ e ∈ l, e.failed = false := by
    intro l h e hm
    have := List.all_eq_true.mp h e hm
    simp at this
    exact this.1
  have short : ∀ m : List UInt8, m.length ≤ 3 → m.length < 2 ^ 63 := fun m h => Nat.lt_of_le_of_lt h (by decide)
  have tA : Threads.Talk (callsOf logA) [] := by
    rw [show callsOf logA = _ from a3]
    refine ⟨?_, .inl rfl, ?_⟩
    · intro c hc
      simp only [List.mem_cons, List.not_mem_nil, or_false] at hc
      rcases hc with rfl | rfl
      · trivial
      · exact (by decide : 1 ≤ 125)
    · intro c hc
      simp only [List.append_nil, List.mem_cons, List.not_mem_nil, or_false] at hc
      rcases hc with rfl | rfl <;> exact short _ (by decide)
  have tB : Threads.Talk (callsOf logB) [] := by
    rw [show callsOf logB = _ from b3]
    refine ⟨?_, .inl rfl, ?_⟩
    · intro c hc
      simp only [List.mem_cons, List.not_mem_nil, or_false] at hc
      rcases hc with rfl | rfl
      · trivial
      · exact (by decide : 1 ≤ 125)
    · intro c hc
      simp only [List.append_nil, List.mem_cons, List.not_mem_nil, or_false] at hc
      rcases hc with rfl | rfl <;> exact short _ (by decide)
  have uA : Endpoint.Unbroken Fixture.env exClient a := by
    obtain ⟨q, e, _⟩ := Fed.threads hl.fed.1
    subst e
    exact ⟨fun _ _ h => (by cases h), al, by decide⟩
  have uB : Endpoint.Unbroken Async.exEnv exServer b := by
    obtain ⟨q, e, _⟩ := Fed.tasks hl.fed.2
    subst e
    obtain ⟨t, h1, _⟩ := Endpoint.waitsNow_waits b8
    exact .inl ⟨t, h1⟩
  have nb : exServer.Enough 40 := by
    intro o ho
    simp only [List.mem_cons, List.not_mem_nil, or_false] at ho
    rcases ho with rfl | rfl <;> nofun
  obtain ⟨evsA, evsB, g1, g2, g3, g4, _⟩ := C68_both Fixture.env Async.exEnv 40 40 1 7 2 2 exClient exServer a b logA logB exClient_listening exServer_listening
    (show exClient.Enough 40 from ⟨by decide, by decide⟩) nb hl (serialCheck_sound a1) (okOf a2) tA (serialCheck_sound b1) (okOf b2) tB (restNow_sound ar) (restNow_sound br) (definedNow_sound ad) (definedNow_sound bd)
    (worksNow_sound aw).1 (worksNow_sound bw).1 (worksNow_sound aw).2 (worksNow_sound bw).2 uA uB
  have g1 : a.st.sock.trace = evsA := g1
  have g2 : b.st.sock.trace = evsB := g2
  subst g1 g2
  exact ⟨a, b, logA, logB, hl, restNow_sound ar, restNow_sound br, a3, b3, g3, g4⟩

end OatWS.Network
