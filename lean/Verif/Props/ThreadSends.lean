import Verif.Proofs.ThreadSends
import Verif.Proofs.ThreadsAlone
import Verif.Props.AsyncSendsHeard
/-! # C58: sends of several threads on one blocking socket -/

namespace OatWS.Threads
open RFC6455 Async Prog

/-! ## What a step does -/

/-- The bytes a step writes. -/
def wroteBy : (a : Act) → a.Res → List UInt8
  | .write d, .wrote n => d.take n
  | _, _ => []

theorem exec_can {env a st r st'} (h : exec env a st = some (r, st')) : Can env st.sock.rngPos a r := by
  cases a with
  | write d =>
    simp only [exec] at h
    split at h
    · cases h
    · rename_i o sched e
      split at h
      · rename_i n e2
        injection h with h; injection h with h _; subst h
        cases o with
        | upTo m =>
          simp only [lowWrite] at e2
          injection e2 with e2
          subst e2
          exact Nat.min_le_right _ _
        | _ => cases e2
      · rename_i hn
        injection h with h; injection h with h _; subst h
        cases ho : lowWrite o d with
        | wrote n => exact absurd ho (hn n)
        | _ => trivial
  | random => injection h with h; injection h with h _; subst h; rfl
  | _ => trivial

theorem exec_writes {env a st r st'} (h : exec env a st = some (r, st')) :
    st'.sock.out.written = st.sock.out.written ++ wroteBy a r ∧
      st'.sock.rngPos = if a = .random then st.sock.rngPos + 4 else st.sock.rngPos := by
  cases a with
  | write d =>
    simp only [exec] at h
    split at h
    · cases h
    · rename_i o sched e
      split at h
      · injection h with h; injection h with h h'; subst h h'
        exact ⟨rfl, rfl⟩
      · rename_i hn
        injection h with h; injection h with h h'; subst h h'
        refine ⟨?_, rfl⟩
        cases ho : lowWrite o d with
        | wrote n => exact absurd ho (hn n)
        | _ => exact (List.append_nil _).symm
  | read n =>
    simp only [exec] at h
    split at h
    · cases h
    · injection h with h; injection h with h h'; subst h h'
      exact ⟨(List.append_nil _).symm, rfl⟩
  | _ =>
    injection h with h; injection h with h h'; subst h h'
    exact ⟨(List.append_nil _).symm, rfl⟩

theorem entry_eq {env a st r st'} (i : Nat) (h : exec env a st = some (r, st')) :
    entry i a st st' = ⟨i, a.called, wroteBy a r, if a = .random then some st.sock.rngPos else none, a = .returned true, a = .returned false⟩ := by
  obtain ⟨h1, h2⟩ := exec_writes h
  unfold entry drewAt
  rw [h1, h2, List.drop_left]
  by_cases ha : a = .random
  · rw [if_pos ha, if_pos ha, if_neg (by omega)]
  · rw [if_neg ha, if_neg ha, if_pos rfl]

/-- The phase of a thread is that of its latest send. -/
def Agree (ph : Ph) (ss : List Sent) : Prop :=
  match ph with
  | none => HeadOver ss
  | some d => ∃ r, ss = ⟨d.call, d.bytes, d.key, .inProgress⟩ :: r

theorem frame_carries (env : Env) (d : Doing) : Carries env d.call (d.frame env) := by
  refine ⟨rfl, rfl, ⟨rfl, rfl, rfl⟩, rfl, ?_⟩
  unfold Doing.frame
  cases d.key with
  | none => exact .inl rfl
  | some p => exact .inr ⟨p, rfl⟩

/-- What one step does to the sends of the thread. -/
theorem thread_step (env : Env) (i : Nat) (a : Act) (ph : Ph) (ss : List Sent) (hg : Agree ph ss)
    (hsound : ∀ s ∈ ss, Small s.call → s.Sound env) (holder : ∀ s ∈ ss.tail, s.state ≠ .inProgress)
    (st : St) (r : a.Res) (st' : St) (he : exec env a st = some (r, st')) (hf : Fits env a r ph) :
    Agree (after st.sock.rngPos a r ph) (feed ss (entry i a st st')) ∧
    (∀ s ∈ feed ss (entry i a st st'), Small s.call → s.Sound env) ∧
    (∀ s ∈ (feed ss (entry i a st st')).tail, s.state ≠ .inProgress) ∧
    sentBytes (feed ss (entry i a st st')) = sentBytes ss ++ (entry i a st st').wrote ∧
    sentKeys (feed ss (entry i a st st')) = sentKeys ss ++ (entry i a st st').drew.toList ∧
    ((HeadOver ss ∧ (entry i a st st').wrote = [] ∧ (a.called = none → feed ss (entry i a st st') = ss)) ∨
      (a.called = none ∧ ∃ s r, ss = s :: r ∧ s.state = .inProgress)) := by
  have hcan := exec_can he
  rw [entry_eq i he]
  -- a step that does nothing to the sends
  have idle : ∀ e : Entry, e.called = none → e.wrote = [] → e.drew = none → e.completed = false → e.failed = false → feed ss e = ss := by
    intro e h1 h2 h3 h4 h5
    unfold feed
    rw [h1, h2, h3, h4, h5]
    cases ss with
    | nil => rfl
    | cons s r => simp
  have quiet : ∀ e : Entry, a.called = none → e.called = none → e.wrote = [] → e.drew = none → e.completed = false → e.failed = false →
      after st.sock.rngPos a r ph = ph →
      Agree (after st.sock.rngPos a r ph) (feed ss e) ∧ (∀ s ∈ feed ss e, Small s.call → s.Sound env) ∧
      (∀ s ∈ (feed ss e).tail, s.state ≠ .inProgress) ∧ sentBytes (feed ss e) = sentBytes ss ++ e.wrote ∧
      sentKeys (feed ss e) = sentKeys ss ++ e.drew.toList ∧
      ((HeadOver ss ∧ e.wrote = [] ∧ (a.called = none → feed ss e = ss)) ∨ (a.called = none ∧ ∃ s r, ss = s :: r ∧ s.state = .inProgress)) := by
    intro e h0 h1 h2 h3 h4 h5 h6
    rw [idle e h1 h2 h3 h4 h5, h6, h2, h3]
    refine ⟨hg, hsound, holder, by simp, by simp, ?_⟩
    cases ph with
    | none => exact .inl ⟨hg, rfl, fun _ => rfl⟩
    | some d => obtain ⟨rest, hg⟩ := hg; exact .inr ⟨h0, _, rest, hg, rfl⟩
  cases a with
  | call c =>
    have hf : ph = none := hf
    subst hf
    have hg : HeadOver ss := hg
    refine ⟨⟨ss, rfl⟩, ?_, hg.tail holder, ?_, ?_, .inl ⟨hg, rfl, nofun⟩⟩
    · intro s hs hsm
      rcases List.mem_cons.mp hs with rfl | hs
      · exact ⟨_, frame_carries env ⟨c, [], none⟩, rfl, List.nil_prefix, nofun, nofun⟩
      · exact hsound s hs hsm
    · show sentBytes (_ :: ss) = _
      rw [sentBytes_cons]
    · show sentKeys (_ :: ss) = _
      rw [sentKeys_cons]
  | write d =>
    obtain ⟨s, rfl, hpre⟩ := hf
    obtain ⟨rest, rfl⟩ := hg
    cases r with
    | wrote n =>
      have hfeed : feed (⟨s.call, s.bytes, s.key, .inProgress⟩ :: rest) ⟨i, none, d.take n, none, false, false⟩ =
          ⟨s.call, s.bytes ++ d.take n, s.key, .inProgress⟩ :: rest := by simp [feed]
      show Agree (some ⟨s.call, s.bytes ++ d.take n, s.key⟩) (feed _ ⟨i, none, d.take n, none, false, false⟩) ∧
        (∀ x ∈ feed _ ⟨i, none, d.take n, none, false, false⟩, _) ∧ (∀ x ∈ (feed _ ⟨i, none, d.take n, none, false, false⟩).tail, _) ∧
        sentBytes (feed _ ⟨i, none, d.take n, none, false, false⟩) = _ ++ d.take n ∧
        sentKeys (feed _ ⟨i, none, d.take n, none, false, false⟩) = _ ++ [] ∧ _
      rw [hfeed]
      refine ⟨⟨rest, rfl⟩, ?_, holder, ?_, ?_, .inr ⟨rfl, _, rest, rfl, rfl⟩⟩
      · intro x hx hsm
        rcases List.mem_cons.mp hx with rfl | hx
        · exact ⟨_, frame_carries env s, rfl, hpre n rfl hsm, nofun, nofun⟩
        · exact hsound x (List.mem_cons_of_mem _ hx) hsm
      · rw [sentBytes_cons, sentBytes_cons, List.append_assoc]
      · rw [sentKeys_cons, sentKeys_cons, List.append_nil]
    | retry => exact quiet _ rfl rfl rfl rfl rfl rfl rfl
    | zero => exact quiet _ rfl rfl rfl rfl rfl rfl rfl
    | broken => exact quiet _ rfl rfl rfl rfl rfl rfl rfl
  | random =>
    obtain ⟨s, rfl, hb, hk⟩ := hf
    obtain ⟨rest, rfl⟩ := hg
    have hfeed : feed (⟨s.call, s.bytes, s.key, .inProgress⟩ :: rest) ⟨i, none, [], some st.sock.rngPos, false, false⟩ =
        ⟨s.call, s.bytes, some st.sock.rngPos, .inProgress⟩ :: rest := by simp [feed, hk]
    show Agree (some ⟨s.call, s.bytes, some st.sock.rngPos⟩) (feed _ ⟨i, none, [], some st.sock.rngPos, false, false⟩) ∧
      (∀ x ∈ feed _ ⟨i, none, [], some st.sock.rngPos, false, false⟩, _) ∧ (∀ x ∈ (feed _ ⟨i, none, [], some st.sock.rngPos, false, false⟩).tail, _) ∧
      sentBytes (feed _ ⟨i, none, [], some st.sock.rngPos, false, false⟩) = _ ++ [] ∧
      sentKeys (feed _ ⟨i, none, [], some st.sock.rngPos, false, false⟩) = _ ++ [st.sock.rngPos] ∧ _
    rw [hfeed]
    refine ⟨⟨rest, rfl⟩, ?_, holder, ?_, ?_, .inr ⟨rfl, _, rest, rfl, rfl⟩⟩
    · intro x hx hsm
      rcases List.mem_cons.mp hx with rfl | hx
      · exact ⟨_, frame_carries env ⟨s.call, s.bytes, some st.sock.rngPos⟩, rfl, by rw [hb]; exact List.nil_prefix, nofun, nofun⟩
      · exact hsound x (List.mem_cons_of_mem _ hx) hsm
    · rw [sentBytes_cons, sentBytes_cons, List.append_nil]
    · rw [sentKeys_cons, sentKeys_cons, hk]
      simp
  | returned b =>
    cases b with
    | true =>
      obtain ⟨s, rfl, hw⟩ := hf
      obtain ⟨rest, rfl⟩ := hg
      have hfeed : feed (⟨s.call, s.bytes, s.key, .inProgress⟩ :: rest) ⟨i, none, [], none, true, false⟩ =
          ⟨s.call, s.bytes, s.key, .completed⟩ :: rest := by simp [feed]
      show Agree none (feed _ ⟨i, none, [], none, true, false⟩) ∧
        (∀ x ∈ feed _ ⟨i, none, [], none, true, false⟩, _) ∧ (∀ x ∈ (feed _ ⟨i, none, [], none, true, false⟩).tail, _) ∧
        sentBytes (feed _ ⟨i, none, [], none, true, false⟩) = _ ++ [] ∧
        sentKeys (feed _ ⟨i, none, [], none, true, false⟩) = _ ++ [] ∧ _
      rw [hfeed]
      refine ⟨?_, ?_, holder, ?_, ?_, .inr ⟨rfl, _, rest, rfl, rfl⟩⟩
      · intro x r' hx
        injection hx with hx _
        rw [← hx]; nofun
      · intro x hx hsm
        rcases List.mem_cons.mp hx with rfl | hx
        · exact ⟨_, frame_carries env s, rfl, by rw [hw hsm]; exact List.prefix_rfl, fun _ => hw hsm, nofun⟩
        · exact hsound x (List.mem_cons_of_mem _ hx) hsm
      · rw [sentBytes_cons, sentBytes_cons, List.append_nil]
      · rw [sentKeys_cons, sentKeys_cons, List.append_nil]
    | false =>
      obtain ⟨s, rfl, hw⟩ := hf
      obtain ⟨rest, rfl⟩ := hg
      have hfeed : feed (⟨s.call, s.bytes, s.key, .inProgress⟩ :: rest) ⟨i, none, [], none, false, true⟩ =
          ⟨s.call, s.bytes, s.key, .failed⟩ :: rest := by simp [feed]
      show Agree none (feed _ ⟨i, none, [], none, false, true⟩) ∧
        (∀ x ∈ feed _ ⟨i, none, [], none, false, true⟩, _) ∧ (∀ x ∈ (feed _ ⟨i, none, [], none, false, true⟩).tail, _) ∧
        sentBytes (feed _ ⟨i, none, [], none, false, true⟩) = _ ++ [] ∧
        sentKeys (feed _ ⟨i, none, [], none, false, true⟩) = _ ++ [] ∧ _
      rw [hfeed]
      refine ⟨?_, ?_, holder, ?_, ?_, .inr ⟨rfl, _, rest, rfl, rfl⟩⟩
      · intro x r' hx
        injection hx with hx _
        rw [← hx]; nofun
      · intro x hx hsm
        rcases List.mem_cons.mp hx with rfl | hx
        · obtain ⟨f, hc, hkey, hpre, -, -⟩ := hsound _ (List.mem_cons_self ..) hsm
          have hff : f = s.frame env := by
            obtain ⟨h1, h2, ⟨h3, h4, h5⟩, h6, h7⟩ := hc
            rcases f with ⟨fin, r1, r2, r3, op, key, pay⟩
            simp only at h1 h2 h3 h4 h5 h6 hkey
            subst h1 h2 h3 h4 h5 h6 hkey
            rfl
          subst hff
          exact ⟨_, hc, hkey, hpre, nofun, fun _ => hw hsm⟩
        · exact hsound x (List.mem_cons_of_mem _ hx) hsm
      · rw [sentBytes_cons, sentBytes_cons, List.append_nil]
      · rw [sentKeys_cons, sentKeys_cons, List.append_nil]
  | _ => exact quiet _ rfl rfl rfl rfl (by simp) (by simp) rfl

/-! ## Executions -/

/-- The state of a thread and of its sends. -/
structure ThreadInv (env : Env) (p : Prog Unit) (ss : List Sent) : Prop where
  phase : ∃ ph, Agree ph ss ∧ Ok env p ph Over
  sound : ∀ s ∈ ss, Small s.call → s.Sound env
  older : ∀ s ∈ ss.tail, s.state ≠ .inProgress

/-- The state of all threads. -/
structure PoolInv (env : Env) (p0 : Pool) (log : List Entry) (p : Pool) : Prop where
  threads : ∀ i q, p.threads[i]? = some q → ThreadInv env q (sendsOf i log)
  bytes : ∀ i, bytesOf i log = sentBytes (sendsOf i log)
  keys : ∀ i, drawn (log.filter fun e => e.task == i) = sentKeys (sendsOf i log)
  rng : p0.st.sock.rngPos ≤ p.st.sock.rngPos ∧ (∀ a ∈ drawn log, p0.st.sock.rngPos ≤ a ∧ a + 4 ≤ p.st.sock.rngPos) ∧
    (drawn log).Pairwise fun a b => a + 4 ≤ b
  wire : p.st.sock.out.written = p0.st.sock.out.written ++ log.flatMap Entry.wrote
  lawful : Lawful env log

theorem pool_inv (env : Env) (p : Pool) (fuel : Nat) (hp : ∀ t ∈ p.threads, AppThread env fuel t) (log : List Entry) (p' : Pool)
    (h : Pool.Logged env p log p') : PoolInv env p log p' := by
  induction h with
  | refl =>
    refine ⟨fun i q hq => ?_, fun _ => rfl, fun _ => rfl, ⟨Nat.le_refl _, nofun, .nil⟩, by simp, .nil⟩
    exact ⟨⟨none, (nofun : HeadOver []), (hp q (List.mem_of_getElem? hq)).ok⟩, nofun, nofun⟩
  | @tail log ts st i a k r st' hlog ht he ih =>
    have hI := ih.threads i _ ht
    obtain ⟨ph, hg, hok⟩ := hI.phase
    have hcan := exec_can he
    obtain ⟨hfit, hok'⟩ := hok r st.sock.rngPos hcan
    obtain ⟨s1, s2, s3, s4, s5, s6⟩ := thread_step env i a ph _ hg hI.sound hI.older st r st' he hfit
    obtain ⟨w1, w2⟩ := exec_writes he
    have hdrew : (entry i a st st').drew = if a = .random then some st.sock.rngPos else none := by rw [entry_eq i he]
    have hwrote : (entry i a st st').wrote = wroteBy a r := by rw [entry_eq i he]
    have htask : (entry i a st st').task = i := rfl
    refine ⟨fun j q hq => ?_, fun j => ?_, fun j => ?_, ?_, ?_, ?_⟩
    · rw [sendsOf_snoc, htask]
      by_cases hji : i = j
      · subst hji
        rw [if_pos rfl]
        have hlt : i < ts.length := by
          rw [List.getElem?_eq_some_iff] at ht; exact ht.1
        have hq : (ts.set i (k r))[i]? = some q := hq
        rw [List.getElem?_set_self hlt] at hq
        injection hq with hq
        rw [← hq]
        exact ⟨⟨_, s1, hok'⟩, s2, s3⟩
      · rw [if_neg hji]
        have hq : (ts.set i (k r))[j]? = some q := hq
        rw [List.getElem?_set_ne hji] at hq
        exact ih.threads j q hq
    · rw [sendsOf_snoc, bytesOf_snoc, htask]
      by_cases hji : i = j
      · subst hji
        rw [if_pos rfl, if_pos rfl, s4, ih.bytes]
      · rw [if_neg hji, if_neg hji]; exact ih.bytes j
    · rw [sendsOf_snoc, drawn_filter_snoc, htask]
      by_cases hji : i = j
      · subst hji
        rw [if_pos rfl, if_pos rfl, s5, ih.keys]
      · rw [if_neg hji, if_neg hji]; exact ih.keys j
    · obtain ⟨r1, r2, r3⟩ := ih.rng
      rw [drawn_snoc, hdrew]
      show _ ≤ st'.sock.rngPos ∧ (∀ a ∈ _, _ ∧ a + 4 ≤ st'.sock.rngPos) ∧ _
      have r1 : _ ≤ st.sock.rngPos := r1
      have r2 : ∀ a ∈ drawn log, _ ∧ a + 4 ≤ st.sock.rngPos := r2
      rw [w2]
      by_cases ha : a = .random
      · rw [if_pos ha, if_pos ha]
        refine ⟨by omega, fun x hx => ?_, ?_⟩
        · rcases List.mem_append.mp hx with hx | hx
          · have := r2 x hx; omega
          · have : x = st.sock.rngPos := by simpa using hx
            omega
        · rw [List.pairwise_append]
          refine ⟨r3, by simp, fun x hx y hy => ?_⟩
          have : y = st.sock.rngPos := by simpa using hy
          have := r2 x hx
          omega
      · rw [if_neg ha, if_neg ha]
        simp only [Option.toList, List.append_nil]
        exact ⟨r1, r2, r3⟩
    · show st'.sock.out.written = _
      rw [w1, List.flatMap_append, List.flatMap_singleton, hwrote, ← List.append_assoc]
      congr 1
      exact ih.wire
    · exact .snoc ih.lawful s6 s2

/-! ## C58 -/

/-- **C58.** Any number of threads that use one socket with the blocking API (listening, sending from callbacks, sending by themselves);
any execution, that is, any interleaving of their single accesses to the socket and the connection, any behaviour of the transport, any
changes of the configuration. Every send of every thread writes the bytes of one frame that carries its message, from the beginning and in
order: all of it when the send returned normally, a proper part of it when it failed. A thread's sends do not overlap, the bytes a
thread writes are those of its sends one after the other, and nothing else is written to the connection. -/
theorem C58_every_send (env : Env) (fuel : Nat) (p : Pool) (hp : ∀ t ∈ p.threads, AppThread env fuel t) (log : List Entry) (p' : Pool)
    (h : Pool.Logged env p log p') :
    (∀ i < p'.threads.length, (∀ s ∈ sendsOf i log, s.call.content.2.2.length < 2 ^ 63 → s.Sound env) ∧
      (∀ s ∈ (sendsOf i log).tail, s.state ≠ .inProgress) ∧
      bytesOf i log = (sendsOf i log).reverse.flatMap Sent.bytes) ∧
    p'.st.sock.out.written = p.st.sock.out.written ++ log.flatMap Entry.wrote := by
  have hI := pool_inv env p fuel hp log p' h
  refine ⟨fun i hi => ?_, hI.wire⟩
  have := hI.threads i p'.threads[i] (List.getElem?_eq_getElem hi)
  exact ⟨this.sound, this.older, hI.bytes i⟩

/-- When a thread has ended, none of its sends is in the middle. -/
theorem C58_finished (env : Env) (fuel : Nat) (p : Pool) (hp : ∀ t ∈ p.threads, AppThread env fuel t) (log : List Entry) (p' : Pool)
    (h : Pool.Logged env p log p') (i : Nat) (hf : p'.threads[i]? = some (.ret ()) ∨ ∃ e, p'.threads[i]? = some (.throw e)) :
    ∀ s ∈ sendsOf i log, s.state ≠ .inProgress := by
  have hI := pool_inv env p fuel hp log p' h
  have key : ∀ q, p'.threads[i]? = some q → Ok env q none Over → (∀ ph, Ok env q ph Over → ph = none) → ∀ s ∈ sendsOf i log, s.state ≠ .inProgress := by
    intro q hq _ hph
    obtain ⟨⟨ph, hg, hok⟩, -, ho⟩ := hI.threads i q hq
    rw [hph ph hok] at hg
    exact HeadOver.tail hg ho
  rcases hf with hf | ⟨e, hf⟩
  · exact key _ hf rfl fun ph h => h
  · exact key _ hf rfl fun ph h => h

/-- Every execution has such a record. -/
theorem C58_recorded (env : Env) (p p' : Pool) (h : Pool.Steps env p p') : ∃ log, Pool.Logged env p log p' := by
  induction h with
  | refl => exact ⟨[], .refl⟩
  | tail _ h ih =>
    obtain ⟨log, ih⟩ := ih
    cases h with
    | mk h1 h2 => exact ⟨_, .tail ih h1 h2⟩

/-- **C42** (threads). However the steps of the threads interleave: the four bytes of every masking key are taken behind those of
all keys before, so no two sends of any threads use the same bytes of the random source; the keys a thread takes are those of its
masked sends, one for each, in order. -/
theorem C42_threads_keys (env : Env) (fuel : Nat) (p : Pool) (hp : ∀ t ∈ p.threads, AppThread env fuel t) (log : List Entry) (p' : Pool)
    (h : Pool.Logged env p log p') :
    ((drawn log).Pairwise fun a b => a + 4 ≤ b) ∧
    (∀ a ∈ drawn log, p.st.sock.rngPos ≤ a ∧ a + 4 ≤ p'.st.sock.rngPos) ∧
    ∀ i, (sendsOf i log).reverse.filterMap Sent.key = drawn (log.filter fun e => e.task == i) :=
  let hI := pool_inv env p fuel hp log p' h
  ⟨hI.rng.2.2, hI.rng.2.1, fun i => (hI.keys i).symm⟩

/-- **C58** (serialised): if no send is called while another thread's send is in progress, and none fails, then the wire
carries whole frames, one for each call in the order of the calls; only when a send is still in progress, the last frame may be
incomplete. -/
theorem C58_serialised (env : Env) (fuel : Nat) (p : Pool) (hp : ∀ t ∈ p.threads, AppThread env fuel t) (log : List Entry) (p' : Pool)
    (h : Pool.Logged env p log p') (hser : Serialised log) (hok : ∀ e ∈ log, e.failed = false)
    (hsmall : ∀ c ∈ callsOf log, c.content.2.2.length < 2 ^ 63) :
    (∃ fs, CarryAll env (callsOf log) fs ∧ (∀ j, ¬ Sending j log) ∧
      p'.st.sock.out.written = p.st.sock.out.written ++ wireOf fs) ∨
    (∃ cs c fs f part j, callsOf log = cs ++ [c] ∧ CarryAll env cs fs ∧ Carries env c f ∧ part <+: f.encode ∧
      Sending j log ∧ (∀ i, i ≠ j → ¬ Sending i log) ∧
      p'.st.sock.out.written = p.st.sock.out.written ++ (wireOf fs ++ part)) := by
  have hI := pool_inv env p fuel hp log p' h
  rcases hI.lawful.wire hser hok hsmall with ⟨fs, h1, h2, h3⟩ | ⟨cs, c, fs, f, part, j, h1, h2, h3, h4, h5, h6, h7⟩
  · exact .inl ⟨fs, h1, h2, by rw [hI.wire, h3]⟩
  · exact .inr ⟨cs, c, fs, f, part, j, h1, h2, h3, h4, h5, h6, by rw [hI.wire, h7]⟩

/-- **C58** (heard). When the sends are serialised, none has failed and none is in progress, a peer that listens on the bytes written
puts together exactly the messages of the calls, in the order in which they were called, each once, unchanged. -/
theorem C58_heard (envS : Env) (fuel : Nat) (p : Pool) (hp : ∀ t ∈ p.threads, AppThread envS fuel t) (log : List Entry) (p' : Pool)
    (h : Pool.Logged envS p log p') (hser : Serialised log) (hok : ∀ e ∈ log, e.failed = false)
    (hcs : ∀ c ∈ callsOf log, c.isMessage ∧ c.content.2.2.length < 2 ^ 63) (hdone : ∀ j, ¬ Sending j log)
    (envR : Env) (hd : Header) (st : St) (l B : Nat) (hU : Undisturbed envR st l B false)
    (hb : p'.st.sock.out.written = p.st.sock.out.written ++ st.inp.bytes) :
    ∃ evs st', listen envR hd st = (.ret (), st') ∧ st'.sock.trace = st.sock.trace ++ evs ∧ (∀ e ∈ evs, e.to = l) ∧
      reassemble [] evs = ((callsOf log).map SendCall.msg, []) ∧ st'.inp.bytes = [] := by
  rcases C58_serialised envS fuel p hp log p' h hser hok (fun c hc => (hcs c hc).2) with ⟨fs, h1, _, h3⟩ | ⟨cs, c, fs, f, part, j, _, _, _, _, h6, _⟩
  · rw [hb] at h3
    have h3 := List.append_cancel_left h3
    obtain ⟨a1, a2, a3⟩ := carryAll_accepted envS _ fs (fun c hc => (hcs c hc).1) (fun c hc => (hcs c hc).2) h1
    obtain ⟨evs, st', e, htr, hf, hbytes⟩ := C08_C09_frames_heard envR hd st l B false false hU _ a1 h3
    refine ⟨evs, st', e, htr, events_to hf, ?_, hbytes⟩
    have := reassemble_frames a1 a2 hf []
    rw [List.append_nil] at this
    rw [this, a3]; simp [reassemble]
  · exact absurd h6 (hdone j)

/-! ## Concrete executions -/

theorem execLog_logged_from {env : Env} {p0 : Pool} : ∀ (is : List Nat) (p : Pool) (log0 log : List Entry) (q : Pool),
    Pool.Logged env p0 log0 p → Pool.execLog env is p = some (log, q) → Pool.Logged env p0 (log0 ++ log) q := by
  intro is
  induction is with
  | nil =>
    intro p log0 log q h0 h
    injection h with h; injection h with h h'; subst h h'
    rw [List.append_nil]; exact h0
  | cons i is ih =>
    intro p log0 log q h0 h
    rw [Pool.execLog.eq_def] at h
    simp only at h
    split at h
    · rename_i a k e
      split at h
      · cases h
      · rename_i r st' e2
        split at h
        · rename_i log' q' e3
          injection h with h; injection h with h h'; subst h h'
          have := ih _ _ _ _ (.tail h0 e e2) e3
          rwa [List.append_assoc] at this
        · cases h
    · cases h

theorem execLog_logged {env : Env} {is : List Nat} {p : Pool} {log : List Entry} {q : Pool} (h : Pool.execLog env is p = some (log, q)) :
    Pool.Logged env p log q := execLog_logged_from is p [] log q .refl h

/-- A thread that listens and answers a ping (from a callback), and one that sends a text message; the transport takes one byte at a time. -/
def exThreads : Pool := ⟨[listenT exEnv 40 default, userOpsT exEnv 40 [.send (.text (some [7, 8])) false]],
  { sock := { Sock.new { readBufferSize := 2 } ⟨[], Fixture.slow 30⟩ with listener := some 7 }
    inp := ⟨[0x89, 0x01, 0x21], Fixture.slow 4 ++ [.broken]⟩ }⟩

theorem exThreads_app : ∀ t ∈ exThreads.threads, AppThread exEnv 40 t := by
  intro t ht
  simp only [exThreads, List.mem_cons, List.not_mem_nil, or_false] at ht
  rcases ht with rfl | rfl
  · exact .listen _
  · exact .code _

def exView (r : Option (List Entry × Pool)) : Option ExView :=
  r.map fun (l, q) => ⟨serialCheck none l, callsOf l, l.all (fun e => !e.failed && (e.task == 0 || e.task == 1)), q.st.sock.out.written, sendsOf 0 l, sendsOf 1 l⟩

/-- Text first, then pong. -/
theorem exSerial : exView (Pool.execLog exEnv (List.replicate 11 1 ++ List.replicate 21 0) exThreads) =
    some ⟨true, [.text (some [7, 8]), .pong (some [0x21])], true,
    [0x81, 2, 7, 8, 0x8a, 1, 0x21], [⟨.pong (some [0x21]), [0x8a, 1, 0x21], none, .completed⟩], [⟨.text (some [7, 8]), [0x81, 2, 7, 8], none, .completed⟩]⟩ := by
  decide +kernel

/-- The text is sent while the pong is: the bytes on the wire are mixed, those of each send are right. -/
theorem exOverlap : exView (Pool.execLog exEnv (List.replicate 16 0 ++ List.replicate 11 1 ++ List.replicate 5 0) exThreads) =
    some ⟨false, [.pong (some [0x21]), .text (some [7, 8])], true,
    [0x8a, 0x81, 2, 7, 8, 1, 0x21], [⟨.pong (some [0x21]), [0x8a, 1, 0x21], none, .completed⟩], [⟨.text (some [7, 8]), [0x81, 2, 7, 8], none, .completed⟩]⟩ := by
  decide +kernel

/-- The hypotheses of `C58_every_send` are met by an execution with two overlapping sends, one of them from a callback. -/
example : ∃ log p', Pool.Logged exEnv exThreads log p' ∧ (∀ t ∈ exThreads.threads, AppThread exEnv 40 t) ∧
    sendsOf 0 log = [⟨.pong (some [0x21]), [0x8a, 1, 0x21], none, .completed⟩] ∧ sendsOf 1 log = [⟨.text (some [7, 8]), [0x81, 2, 7, 8], none, .completed⟩] ∧
    p'.st.sock.out.written = [0x8a, 0x81, 2, 7, 8, 1, 0x21] := by
  have h := exOverlap
  rcases he : Pool.execLog exEnv (List.replicate 16 0 ++ List.replicate 11 1 ++ List.replicate 5 0) exThreads with _ | ⟨log, p'⟩
  · rw [he] at h; cases h
  · rw [he] at h
    injection h with h
    injection h with h1 h2 h3 h4 h5 h6
    exact ⟨log, p', execLog_logged he, exThreads_app, h5, h6, h4⟩

/-- The hypotheses of `C58_serialised` and `C58_heard` are met: two serialised sends, and a peer with a read buffer of two bytes that receives
byte by byte. -/
example : ∃ log p', Pool.Logged exEnv exThreads log p' ∧ Serialised log ∧ (∀ e ∈ log, e.failed = false) ∧
    (∀ c ∈ callsOf log, c.isMessage ∧ c.content.2.2.length < 2 ^ 63) ∧ (∀ j, ¬ Sending j log) ∧
    callsOf log = [.text (some [7, 8]), .pong (some [0x21])] ∧
    Undisturbed Fixture.env (Fixture.receiving [0x81, 2, 7, 8, 0x8a, 1, 0x21]) 7 2 false ∧
    p'.st.sock.out.written = exThreads.st.sock.out.written ++ (Fixture.receiving [0x81, 2, 7, 8, 0x8a, 1, 0x21]).inp.bytes := by
  have h := exSerial
  rcases he : Pool.execLog exEnv (List.replicate 11 1 ++ List.replicate 21 0) exThreads with _ | ⟨log, p'⟩
  · rw [he] at h; cases h
  · rw [he] at h
    injection h with h
    injection h with h1 h2 h3 h4 h5 h6
    refine ⟨log, p', execLog_logged he, serialCheck_sound h1, ?_, ?_, exNotSending h3 h5 h6 rfl rfl, h2, ?_, h4⟩
    · intro e hm
      have := List.all_eq_true.mp h3 e hm
      simp at this
      exact this.1
    · rw [show callsOf log = _ from h2]
      intro c hc
      simp only [List.mem_cons, List.not_mem_nil, or_false] at hc
      rcases hc with rfl | rfl
      · exact ⟨trivial, by decide⟩
      · exact ⟨(by decide : 1 ≤ 125), by decide⟩
    · exact Fixture.undisturbed _ (by decide)

/-- Two threads that send masked messages, their steps alternating; the first one's transport then breaks, and it goes on to send a second message. -/
def exMasked : Pool := ⟨[userOpsT Fixture.env 9 [.send (.text (some [7])) true, .send (.ping none) true], userOpsT Fixture.env 9 [.send (.binary (some [9])) false]],
  { Fixture.receiving [] with sock := { (Fixture.receiving []).sock with
    config := { maskOutgoingMessages := true }, out := ⟨[], [.upTo 9, .upTo 9, .broken, .upTo 9, .upTo 9, .upTo 9, .upTo 9]⟩ } }⟩

structure KeyView where
  drawn : List Nat
  keys0 : List (Option Nat)
  keys1 : List (Option Nat)
  states : List SendState
deriving DecidableEq

def exKeys (r : Option (List Entry × Pool)) : Option KeyView :=
  r.map fun (l, _) => ⟨drawn l, (sendsOf 0 l).map Sent.key, (sendsOf 1 l).map Sent.key, (sendsOf 0 l).map Sent.state⟩

def exTurns : List Nat := [0, 1, 1, 0, 1, 0, 0, 1, 0, 0, 0, 0, 0, 0, 0, 0]

theorem exMaskedKeys : exKeys (Pool.execLog Fixture.env exTurns exMasked) =
    some ⟨[0, 4, 8], [some 8, some 4], [some 0], [.completed, .failed]⟩ := by
  decide +kernel

/-- The hypotheses of `C42_threads_keys` are met, with three keys drawn; one of the sends has failed. -/
example : ∃ log p', Pool.Logged Fixture.env exMasked log p' ∧ (∀ t ∈ exMasked.threads, AppThread Fixture.env 9 t) ∧ drawn log = [0, 4, 8] ∧
    (sendsOf 0 log).map Sent.state = [.completed, .failed] := by
  have h := exMaskedKeys
  rcases he : Pool.execLog Fixture.env exTurns exMasked with _ | ⟨log, p'⟩
  · rw [he] at h; cases h
  · rw [he] at h
    injection h with h
    injection h with h1 h2 h3 h4
    refine ⟨log, p', execLog_logged he, ?_, h1, h4⟩
    intro t ht
    simp only [exMasked, List.mem_cons, List.not_mem_nil, or_false] at ht
    rcases ht with rfl | rfl <;> exact .code _

end OatWS.Threads
