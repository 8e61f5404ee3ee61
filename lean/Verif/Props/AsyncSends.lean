import Verif.Proofs.ConcurrentQuiet
import Verif.Proofs.SendLog
import Verif.Spec.Fixtures
/-! # C56, C33: sends of any number of tasks on one socket -/

namespace OatWS.Async
open RFC6455

/-- The task is in the middle of a send that has written `bytes`. -/
def InSend (env : Env) (st : List Co) (c : SendCall) (bytes : List UInt8) (key : Option Nat) : Prop :=
  ∃ m rest, m.getD [] = c.content.2.2 ∧ Quiet rest ∧
    ((st = sendOneFrameAsync c.content.1 c.content.2.1 m :: rest ∧ bytes = [] ∧ key = none) ∨
     ∃ (s : Sock) (left : List UInt8), Mid env c.content.1 c.content.2.1 m (filledHeader env s c.content.1 c.content.2.1 (m.getD []).length) rest st left ∧
      bytes ++ left = rawBytes env (filledHeader env s c.content.1 c.content.2.1 (m.getD []).length) m ∧
      key = if s.config.maskOutgoingMessages then some s.rngPos else none)

theorem frameFor_carries (env : Env) (s : Sock) (c : SendCall) (m : List UInt8) (hm : m = c.content.2.2) :
    Carries env c (frameFor env s c.content.1 c.content.2.1 (some m)) := by
  refine ⟨rfl, rfl, ⟨rfl, rfl, rfl⟩, hm, ?_⟩
  unfold frameFor
  cases s.config.maskOutgoingMessages
  · exact .inl rfl
  · exact .inr ⟨_, rfl⟩

theorem frameFor_key (env : Env) (s : Sock) (fin op m) :
    (frameFor env s fin op m).maskKey = (if s.config.maskOutgoingMessages then some s.rngPos else none).map (maskBytesAt env) := by
  unfold frameFor
  cases s.config.maskOutgoingMessages <;> rfl

theorem InSend.sound {env st c bytes key} (h : InSend env st c bytes key) (hs : Small c) : Sent.Sound env ⟨c, bytes, key, .inProgress⟩ := by
  obtain ⟨m, rest, hm, hq, ⟨-, rfl, rfl⟩ | ⟨s, left, -, hb, rfl⟩⟩ := h
  · exact ⟨_, frameFor_carries env (Sock.new {} ⟨[], []⟩) c _ rfl, rfl, List.nil_prefix, nofun, nofun⟩
  · refine ⟨_, frameFor_carries env s c _ hm, frameFor_key .., ?_, nofun, nofun⟩
    rw [rawBytes_eq env s _ _ m (by rw [hm]; exact hs)] at hb
    exact ⟨left, hb⟩

/-- State of a task and of its sends. -/
structure TaskInv (env : Env) (o : Outcome) (ss : List Sent) : Prop where
  sound : ∀ s ∈ ss, Small s.call → s.Sound env
  older : ∀ s ∈ ss.tail, s.state ≠ .inProgress
  head : match o with
    | .run t => (Quiet t.stack ∧ HeadOver ss) ∨ ∃ s r, ss = s :: r ∧ s.state = .inProgress ∧ InSend env t.stack s.call s.bytes s.key
    | .finished => HeadOver ss
    | .failed _ => HeadOver ss
    | _ => True

theorem TaskInv.of_quiet {env o ss} (hq : Outcome.quiet o) (h1 : ∀ s ∈ ss, Small s.call → s.Sound env)
    (h2 : ∀ s ∈ ss.tail, s.state ≠ .inProgress) (hd : HeadOver ss) : TaskInv env o ss := by
  refine ⟨h1, h2, ?_⟩
  cases o with
  | run t => exact .inl ⟨hq, hd⟩
  | finished => exact hd
  | failed e => exact hd
  | blocked => trivial
  | ub u => trivial

theorem Mid.calls {env fin op m h rest st left} (hm : Mid env fin op m h rest st left) (l : Local) : Task.calls ⟨st, l⟩ = none := by
  cases hm <;> rfl

/-- The keys of sends, first send first. -/
def sentKeys (ss : List Sent) : List Nat := ss.reverse.filterMap Sent.key

theorem sentKeys_cons (s : Sent) (ss : List Sent) : sentKeys (s :: ss) = sentKeys ss ++ s.key.toList := by
  unfold sentKeys
  rw [List.reverse_cons, List.filterMap_append]
  cases h : s.key <;> simp [h]

theorem drewAt_none {s s' : Sock} (h : s'.rngPos = s.rngPos) : drewAt s s' = none := by
  unfold drewAt; rw [if_pos h]

/-- What one step of one task does. -/
theorem task_step (env : Env) (i : Nat) (t : Task) (ss : List Sent) (hI : TaskInv env (.run t) ss) (w : World) (o w')
    (he : step env t w = (o, w')) (hb : o ≠ .blocked) :
    ∃ d, w'.st.sock.out.written = w.st.sock.out.written ++ d ∧
      TaskInv env o (feed ss ⟨i, t.calls, d, drewAt w.st.sock w'.st.sock, t.completes env w, t.fails env w⟩) ∧
      sentBytes (feed ss ⟨i, t.calls, d, drewAt w.st.sock w'.st.sock, t.completes env w, t.fails env w⟩) = sentBytes ss ++ d ∧
      sentKeys (feed ss ⟨i, t.calls, d, drewAt w.st.sock w'.st.sock, t.completes env w, t.fails env w⟩) =
        sentKeys ss ++ (drewAt w.st.sock w'.st.sock).toList ∧
      w'.st.sock.rngPos = w.st.sock.rngPos + (if (drewAt w.st.sock w'.st.sock).isSome then 4 else 0) ∧
      ((HeadOver ss ∧ d = [] ∧ (t.calls = none → feed ss ⟨i, t.calls, d, drewAt w.st.sock w'.st.sock, t.completes env w, t.fails env w⟩ = ss)) ∨
        (t.calls = none ∧ ∃ s r, ss = s :: r ∧ s.state = .inProgress)) := by
  rcases hI.head with ⟨hq, hd⟩ | ⟨s, r, rfl, hs, hin⟩
  · obtain ⟨h1, h2, h3, h4⟩ := quiet_step env t hq w o w' he
    have ho : w'.st.sock.out = w.st.sock.out := congrArg Prod.fst h1
    have hr : w'.st.sock.rngPos = w.st.sock.rngPos := congrArg Prod.snd h1
    rw [h2, h3, drewAt_none hr]
    rcases h4 with ⟨h4, h5⟩ | ⟨c, rest, l, h4, rfl, h6⟩
    · have hf : feed ss ⟨i, t.calls, [], none, false, false⟩ = ss := by
        unfold feed
        rw [h4]
        cases ss with
        | nil => rfl
        | cons s r => simp [Option.or_none]
      refine ⟨[], by rw [ho]; simp, ?_, ?_, by rw [hf]; simp, hr, .inl ⟨hd, rfl, fun _ => hf⟩⟩
      · rw [hf]; exact .of_quiet h5 hI.sound hI.older hd
      · rw [hf]; simp
    · have hf : feed ss ⟨i, t.calls, [], none, false, false⟩ = ⟨c, [], none, .inProgress⟩ :: ss := by
        unfold feed
        rw [h4]
      have hin : InSend env (sendAsync env c :: rest) c [] none := by
        obtain ⟨m, e, hm⟩ := sendAsync_is env c
        exact ⟨m, rest, hm, h6, .inl ⟨by rw [e], rfl, rfl⟩⟩
      refine ⟨[], by rw [ho]; simp, ?_, ?_, by rw [hf, sentKeys_cons], hr, .inl ⟨hd, rfl, fun e => ?_⟩⟩
      · rw [hf]
        refine ⟨?_, hd.tail hI.older, .inr ⟨_, _, rfl, rfl, hin⟩⟩
        intro s hs hsm
        rcases List.mem_cons.mp hs with rfl | hs
        · exact hin.sound hsm
        · exact hI.sound s hs hsm
      · rw [hf, sentBytes_cons]
      · rw [h4] at e; cases e
  · obtain ⟨m, rest, hm, hq, ⟨hst, hb0, hk0⟩ | ⟨sk, left, hmid, hbl, hk⟩⟩ := hin
    · -- the first step
      rcases t with ⟨st, l⟩
      simp only at hst
      subst hst
      obtain ⟨w1, e, ho, hr⟩ := first_step env s.call.content.1 s.call.content.2.1 m rest l w
      have hcm : Task.completes env ⟨sendOneFrameAsync s.call.content.1 s.call.content.2.1 m :: rest, l⟩ w = false ∧
          Task.fails env ⟨sendOneFrameAsync s.call.content.1 s.call.content.2.1 m :: rest, l⟩ w = false := by
        unfold Task.completes Task.fails
        clear he hb e hm hI
        match m with
        | none => exact ⟨rfl, rfl⟩
        | some [] => exact ⟨rfl, rfl⟩
        | some (_ :: _) => exact ⟨rfl, rfl⟩
      rw [e] at he
      injection he with he1 he2
      subst he1 he2
      rw [hcm.1, hcm.2]
      have hk : drewAt w.st.sock w1.st.sock = if w.st.sock.config.maskOutgoingMessages then some w.st.sock.rngPos else none := by
        unfold drewAt
        rw [hr]
        cases w.st.sock.config.maskOutgoingMessages
        · exact if_pos rfl
        · exact if_neg (by show ¬ (w.st.sock.rngPos + 4 = w.st.sock.rngPos); omega)
      have hf : feed (s :: r) ⟨i, Task.calls ⟨sendOneFrameAsync s.call.content.1 s.call.content.2.1 m :: rest, l⟩, [],
          drewAt w.st.sock w1.st.sock, false, false⟩ = ⟨s.call, s.bytes, drewAt w.st.sock w1.st.sock, s.state⟩ :: r := by
        simp [feed, Task.calls, sendOneFrameAsync, hk0]
      have hin : InSend env (wf .act (filledHeader env w.st.sock s.call.content.1 s.call.content.2.1 (m.getD []).length)
          (bbBytes env (filledHeader env w.st.sock s.call.content.1 s.call.content.2.1 (m.getD []).length)) ::
          sf s.call.content.1 s.call.content.2.1 m (filledHeader env w.st.sock s.call.content.1 s.call.content.2.1 (m.getD []).length) (nextPc m) [] :: rest)
          s.call s.bytes (drewAt w.st.sock w1.st.sock) := by
        refine ⟨m, rest, hm, hq, .inr ⟨w.st.sock, _, .act _, ?_, hk⟩⟩
        rw [hb0]; rfl
      refine ⟨[], by rw [ho]; simp, ?_, by rw [hf, sentBytes_cons, sentBytes_cons]; simp, ?_, ?_, .inr ⟨rfl, s, r, rfl, hs⟩⟩
      · rw [hf]
        refine ⟨fun x hx hsm => ?_, hI.older, .inr ⟨_, r, rfl, hs, hin⟩⟩
        rcases List.mem_cons.mp hx with rfl | hx
        · rw [hs]; exact hin.sound hsm
        · exact hI.sound x (List.mem_cons_of_mem _ hx) hsm
      · rw [hf, sentKeys_cons, sentKeys_cons, hk0]; simp
      · rw [hr, hk]
        cases w.st.sock.config.maskOutgoingMessages <;> rfl
    · rcases t with ⟨st, l⟩
      have hcalls := hmid.calls l
      obtain ⟨d, hw, hr, hres⟩ := mid_step env _ _ m _ rest hq l st left hmid w o w' he hb
      rw [hcalls, drewAt_none hr]
      have hf : ∀ c f, feed (s :: r) ⟨i, none, d, none, c, f⟩ =
          ⟨s.call, s.bytes ++ d, s.key, if c then .completed else if f then .failed else s.state⟩ :: r := by
        intro c f
        simp [feed]
      refine ⟨d, hw, ?_, ?_, by rw [hf, sentKeys_cons, sentKeys_cons]; simp, hr, .inr ⟨rfl, s, r, rfl, hs⟩⟩
      · rw [hf]
        have rest' : ∀ x ∈ r, Small x.call → x.Sound env := fun x hx => hI.sound x (List.mem_cons_of_mem _ hx)
        cases hres with
        | goes st' left' ho hmid' hl hc hfl =>
          rw [hc, hfl, ho]
          have hin : InSend env st' s.call (s.bytes ++ d) s.key := by
            refine ⟨m, rest, hm, hq, .inr ⟨sk, left', hmid', ?_, hk⟩⟩
            rw [List.append_assoc, ← hl]; exact hbl
          refine ⟨?_, hI.older, .inr ⟨_, _, rfl, hs, hin⟩⟩
          intro x hx hsm
          rcases List.mem_cons.mp hx with rfl | hx
          · have := hin.sound hsm
            simp only [Bool.false_eq_true, if_false]
            rw [hs]; exact this
          · exact rest' x hx hsm
        | completed hoq hl hc hfl =>
          rw [hc, hfl]
          refine .of_quiet hoq ?_ hI.older ?_
          · intro x hx hsm
            rcases List.mem_cons.mp hx with rfl | hx
            · refine ⟨_, frameFor_carries env sk s.call _ hm, (frameFor_key ..).trans (by rw [hk]), ?_, fun _ => ?_, nofun⟩
              all_goals
                simp only []
                rw [← rawBytes_eq env sk _ _ m (by rw [hm]; exact hsm), ← hbl, hl]
              exact List.prefix_rfl
            · exact rest' x hx hsm
          · intro x r' hx
            injection hx with hx _
            rw [← hx]; nofun
        | failed q hoq hq0 hl hc hfl =>
          rw [hc, hfl]
          refine .of_quiet hoq ?_ hI.older ?_
          · intro x hx hsm
            rcases List.mem_cons.mp hx with rfl | hx
            · have hr := rawBytes_eq env sk s.call.content.1 s.call.content.2.1 m (by rw [hm]; exact hsm)
              rw [← hbl, hl] at hr
              refine ⟨_, frameFor_carries env sk s.call _ hm, (frameFor_key ..).trans (by rw [hk]), ?_, nofun, fun _ => ?_⟩
              · rw [← hr, ← List.append_assoc]; exact List.prefix_append _ _
              · rw [← hr]
                have : 0 < q.length := List.length_pos_iff.mpr hq0
                simp only [List.length_append]
                omega
            · exact rest' x hx hsm
          · intro x r' hx
            injection hx with hx _
            rw [← hx]; nofun
        | undefined u ho hd hc hfl =>
          subst hd
          rw [hc, hfl, ho]
          simp only [Bool.false_eq_true, if_false, List.append_nil]
          exact ⟨hI.sound, hI.older, trivial⟩
      · rw [hf, sentBytes_cons, sentBytes_cons, List.append_assoc]

theorem drewAt_some {s s' : Sock} {a} (h : drewAt s s' = some a) : a = s.rngPos := by
  unfold drewAt at h
  split at h
  · cases h
  · injection h with h; exact h.symm

theorem drawn_snoc (log : List Entry) (e : Entry) : drawn (log ++ [e]) = drawn log ++ e.drew.toList := by
  unfold drawn
  rw [List.filterMap_append]
  cases h : e.drew <;> simp [h]

theorem drawn_filter_snoc (i : Nat) (log : List Entry) (e : Entry) :
    drawn ((log ++ [e]).filter fun e => e.task == i) =
      if e.task = i then drawn (log.filter fun e => e.task == i) ++ e.drew.toList else drawn (log.filter fun e => e.task == i) := by
  rw [List.filter_append]
  by_cases h : e.task = i
  · rw [if_pos h, ← drawn_snoc]; simp [h]
  · rw [if_neg h]; simp [h]

/-- The state of all tasks. -/
structure PoolInv (env : Env) (p0 : Pool) (log : List Entry) (p : Pool) : Prop where
  tasks : ∀ i o, p.tasks[i]? = some o → TaskInv env o (sendsOf i log)
  bytes : ∀ i, bytesOf i log = sentBytes (sendsOf i log)
  keys : ∀ i, drawn (log.filter fun e => e.task == i) = sentKeys (sendsOf i log)
  rng : p0.world.st.sock.rngPos ≤ p.world.st.sock.rngPos ∧ (∀ a ∈ drawn log, p0.world.st.sock.rngPos ≤ a ∧ a + 4 ≤ p.world.st.sock.rngPos) ∧
    (drawn log).Pairwise fun a b => a + 4 ≤ b
  wire : p.world.st.sock.out.written = p0.world.st.sock.out.written ++ log.flatMap Entry.wrote

theorem append_left_cancel' {a b c : List UInt8} (h : a ++ b = a ++ c) : b = c := List.append_cancel_left h

theorem pool_inv (env : Env) (p : Pool) (hq : ∀ t ∈ p.tasks, Outcome.quiet t) (log : List Entry) (p' : Pool) (h : Pool.Logged env p log p') :
    PoolInv env p log p' := by
  induction h with
  | refl =>
    refine ⟨fun i o ho => ?_, fun _ => rfl, fun _ => rfl, ⟨Nat.le_refl _, nofun, .nil⟩, by simp⟩
    have : o ∈ _ := List.mem_of_getElem? ho
    exact .of_quiet (hq o this) nofun nofun nofun
  | @tail log ts w i t o w' bs hlog ht he hb hw ih =>
    obtain ⟨d, hd, hI, hsb, hsk, hrng, -⟩ := task_step env i t (sendsOf i log) (ih.tasks i _ ht) w o w' he hb
    rw [hw] at hd
    have : bs = d := append_left_cancel' hd
    subst this
    refine ⟨fun j oj hj => ?_, fun j => ?_, fun j => ?_, ?_, ?_⟩
    · rw [sendsOf_snoc]
      by_cases hji : i = j
      · subst hji
        rw [if_pos rfl]
        have hlt : i < ts.length := by
          rw [List.getElem?_eq_some_iff] at ht; exact ht.1
        rw [List.getElem?_set_self hlt] at hj
        injection hj with hj
        rw [← hj]; exact hI
      · rw [if_neg hji]
        rw [List.getElem?_set_ne hji] at hj
        exact ih.tasks j oj hj
    · rw [sendsOf_snoc, bytesOf_snoc]
      by_cases hji : i = j
      · subst hji
        rw [if_pos rfl, if_pos rfl, hsb, ih.bytes]
      · rw [if_neg hji, if_neg hji]; exact ih.bytes j
    · rw [sendsOf_snoc, drawn_filter_snoc]
      by_cases hji : i = j
      · subst hji
        rw [if_pos rfl, if_pos rfl, hsk, ih.keys]
      · rw [if_neg hji, if_neg hji]; exact ih.keys j
    · obtain ⟨r1, r2, r3⟩ := ih.rng
      rw [drawn_snoc]
      show _ ∧ (∀ a ∈ _, _ ∧ a + 4 ≤ w'.st.sock.rngPos) ∧ _
      have r1 : _ ≤ w.st.sock.rngPos := r1
      have r2 : ∀ a ∈ drawn log, _ ∧ a + 4 ≤ w.st.sock.rngPos := r2
      have hle : w.st.sock.rngPos ≤ w'.st.sock.rngPos := by rw [hrng]; omega
      refine ⟨Nat.le_trans r1 hle, fun a ha => ?_, ?_⟩
      · rcases List.mem_append.mp ha with ha | ha
        · exact ⟨(r2 a ha).1, Nat.le_trans (r2 a ha).2 hle⟩
        · have ha : drewAt w.st.sock w'.st.sock = some a := by simpa using ha
          have := drewAt_some ha
          subst this
          rw [ha] at hrng
          exact ⟨r1, Nat.le_of_eq hrng.symm⟩
      · rw [List.pairwise_append]
        refine ⟨r3, ?_, fun a ha b hb => ?_⟩
        · cases drewAt w.st.sock w'.st.sock <;> simp
        · have hb : drewAt w.st.sock w'.st.sock = some b := by simpa using hb
          rw [drewAt_some hb]
          exact (r2 a ha).2
    · show w'.st.sock.out.written = _
      rw [hw, ih.wire]
      simp

/-- Every step of every task appends to what was written. -/
theorem step_appends (env : Env) (p : Pool) (hq : ∀ t ∈ p.tasks, Outcome.quiet t) (p' : Pool) (h : Pool.Steps env p p') :
    ∃ log, Pool.Logged env p log p' := by
  induction h with
  | refl => exact ⟨[], .refl⟩
  | @tail q r h1 h2 ih =>
    obtain ⟨log, hl⟩ := ih
    cases h2 with
    | @mk ts w i t o w' ht he hb =>
      have hI := pool_inv env p hq log _ hl
      obtain ⟨d, hd, -⟩ := task_step env i t (sendsOf i log) (hI.tasks i _ ht) w o w' he hb
      exact ⟨_, .tail hl ht he hb hd⟩

theorem logged_length {env p log p'} (h : Pool.Logged env p log p') : p'.tasks.length = p.tasks.length := by
  induction h with
  | refl => rfl
  | tail _ _ _ _ _ ih => simpa using ih

/-! ## C56 -/

/-- **C56.** Any number of tasks that use one socket (listening, sending from callbacks, sending by themselves), none of them in the
middle of a send at first; any execution, that is, any interleaving of their steps, any behaviour of the transport, any
changes of the configuration. Every send of every task writes the bytes of one frame that carries its message, from the beginning and in
order: all of it when the send was completed, a proper part of it when it failed. A task's sends do not overlap, the bytes a
task writes are those of its sends one after the other, and nothing else is written to the connection. -/
theorem C56_every_send (env : Env) (p : Pool) (hq : ∀ t ∈ p.tasks, Outcome.quiet t) (log : List Entry) (p' : Pool)
    (h : Pool.Logged env p log p') :
    (∀ i < p.tasks.length, (∀ s ∈ sendsOf i log, s.call.content.2.2.length < 2 ^ 63 → s.Sound env) ∧
      (∀ s ∈ (sendsOf i log).tail, s.state ≠ .inProgress) ∧
      bytesOf i log = (sendsOf i log).reverse.flatMap Sent.bytes) ∧
    p'.world.st.sock.out.written = p.world.st.sock.out.written ++ log.flatMap Entry.wrote := by
  have hI := pool_inv env p hq log p' h
  have hlen := logged_length h
  refine ⟨fun i hi => ?_, hI.wire⟩
  have := hI.tasks i p'.tasks[i] (List.getElem?_eq_getElem (by omega))
  exact ⟨this.sound, this.older, hI.bytes i⟩

/-- When a task has finished, none of its sends is in the middle. -/
theorem C56_finished (env : Env) (p : Pool) (hq : ∀ t ∈ p.tasks, Outcome.quiet t) (log : List Entry) (p' : Pool)
    (h : Pool.Logged env p log p') (i : Nat) (hf : p'.tasks[i]? = some .finished) : ∀ s ∈ sendsOf i log, s.state ≠ .inProgress :=
  let hI := (pool_inv env p hq log p' h).tasks i _ hf
  HeadOver.tail hI.head hI.older

/-- Every execution has such a record. -/
theorem C56_recorded (env : Env) (p : Pool) (hq : ∀ t ∈ p.tasks, Outcome.quiet t) (p' : Pool) (h : Pool.Steps env p p') :
    ∃ log, Pool.Logged env p log p' := step_appends env p hq p' h

/-! ## C42 -/

/-- **C42** (async). Whatever tasks use the socket and however their steps interleave: the four bytes of every masking key are taken
behind those of all keys before, so no two sends of any tasks use the same bytes of the random source; the keys a task takes are
those of its masked sends, one for each, in order. (That each frame is masked with the key its send has taken: `C56_every_send`.) -/
theorem C42_async_keys (env : Env) (p : Pool) (hq : ∀ t ∈ p.tasks, Outcome.quiet t) (log : List Entry) (p' : Pool)
    (h : Pool.Logged env p log p') :
    ((drawn log).Pairwise fun a b => a + 4 ≤ b) ∧
    (∀ a ∈ drawn log, p.world.st.sock.rngPos ≤ a ∧ a + 4 ≤ p'.world.st.sock.rngPos) ∧
    ∀ i, (sendsOf i log).reverse.filterMap Sent.key = drawn (log.filter fun e => e.task == i) :=
  let hI := pool_inv env p hq log p' h
  ⟨hI.rng.2.2, hI.rng.2.1, fun i => (hI.keys i).symm⟩

/-! ## C33 -/

theorem pool_lawful (env : Env) (p : Pool) (hq : ∀ t ∈ p.tasks, Outcome.quiet t) (log : List Entry) (p' : Pool) (h : Pool.Logged env p log p') :
    Lawful env log := by
  induction h with
  | refl => exact .nil
  | @tail log ts w i t o w' bs hlog ht he hb hw ih =>
    have hI := pool_inv env p hq log _ hlog
    obtain ⟨d, hd, hI', hsb, -, -, hcase⟩ := task_step env i t (sendsOf i log) (hI.tasks i _ ht) w o w' he hb
    rw [hw] at hd
    have : bs = d := append_left_cancel' hd
    subst this
    refine .snoc ih ?_ hI'.sound
    rcases hcase with hc | ⟨h1, s, r, h2, h3⟩
    · exact .inl hc
    · exact .inr ⟨h1, s, r, h2, h3⟩

/-- **C33** (serialised, any tasks): if no send is called while another task's send is in progress, and none fails, then the wire
carries whole frames, one for each call in the order of the calls; only when a send is still in progress, the last frame may be
incomplete. -/
theorem C33_any_tasks (env : Env) (p : Pool) (hq : ∀ t ∈ p.tasks, Outcome.quiet t) (log : List Entry) (p' : Pool)
    (h : Pool.Logged env p log p') (hser : Serialised log) (hok : ∀ e ∈ log, e.failed = false)
    (hsmall : ∀ c ∈ callsOf log, c.content.2.2.length < 2 ^ 63) :
    (∃ fs, CarryAll env (callsOf log) fs ∧ (∀ j, ¬ Sending j log) ∧
      p'.world.st.sock.out.written = p.world.st.sock.out.written ++ wireOf fs) ∨
    (∃ cs c fs f part j, callsOf log = cs ++ [c] ∧ CarryAll env cs fs ∧ Carries env c f ∧ part <+: f.encode ∧
      Sending j log ∧ (∀ i, i ≠ j → ¬ Sending i log) ∧
      p'.world.st.sock.out.written = p.world.st.sock.out.written ++ (wireOf fs ++ part)) := by
  have hw := (pool_inv env p hq log p' h).wire
  rcases (pool_lawful env p hq log p' h).wire hser hok hsmall with ⟨fs, h1, h2, h3⟩ | ⟨cs, c, fs, f, part, j, h1, h2, h3, h4, h5, h6, h7⟩
  · exact .inl ⟨fs, h1, h2, by rw [hw, h3]⟩
  · exact .inr ⟨cs, c, fs, f, part, j, h1, h2, h3, h4, h5, h6, by rw [hw, h7]⟩

end OatWS.Async
