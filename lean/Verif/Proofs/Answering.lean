import Verif.Spec.Answering
import Verif.Props.Working
import Verif.Props.Service
import Verif.Proofs.NetworkReacts
/-! A server that answers, over a connection that does not fail: proofs. -/

namespace OatWS

/-- Less than 2 GiB. -/
def SendCall.brief (c : SendCall) : Bool := decide (c.content.2.2.length < 2 ^ 31)

def UserOp.brief : UserOp → Bool
  | .send c _ => c.brief
  | _ => true

/-- The listeners, but they say nothing where they would send 2 GiB or more. -/
def Env.brief (env : Env) (tr : List Event) : List UserOp := if (env.react tr).all UserOp.brief then env.react tr else []

def briefly (f : Msg → List SendCall) (m : Msg) : List SendCall := if (f m).all SendCall.brief then f m else []

theorem said_brief {ops : List UserOp} (h : ∀ op ∈ ops, ∃ c k, op = UserOp.send c k) : ops.all UserOp.brief = (said ops).all SendCall.brief := by
  induction ops with
  | nil => rfl
  | cons op ops ih =>
    obtain ⟨c, k, rfl⟩ := h _ (List.mem_cons_self ..)
    show (c.brief && ops.all UserOp.brief) = (c.brief && (said ops).all SendCall.brief)
    rw [ih fun op hop => h op (List.mem_cons_of_mem _ hop)]

theorem completes_one (tr : List Event) (e : Event) : completes tr e = [] ∨ ∃ m, completes tr e = [m] := by
  unfold completes
  cases e with
  | readMessage l op d =>
    cases d with
    | nil => exact .inr ⟨_, rfl⟩
    | cons x d => exact .inl rfl
  | _ => exact .inr ⟨_, rfl⟩

theorem brief_serves {env : Env} {f : Msg → List SendCall} (ho : ∀ tr, ∀ op ∈ env.react tr, ∃ c k, op = UserOp.send c k) (hs : env.Serves f) : (env.reacting env.brief).Serves (briefly f) := by
  intro tr e
  show said (env.brief (tr ++ [e])) = _
  have h := hs tr e
  unfold Env.brief
  rw [said_brief (ho _), h]
  rcases completes_one tr e with hc | ⟨m, hc⟩
  · rw [hc] at h ⊢
    exact h
  · rw [hc, List.flatMap_singleton] at h ⊢
    rw [List.flatMap_singleton]
    unfold briefly
    split
    · exact h
    · rfl

theorem catching_serves {env : Env} {f : Msg → List SendCall} (hs : env.Serves f) : env.catching.Serves f := by
  intro tr e
  rw [← hs tr e]
  show said ((env.react (tr ++ [e])).map UserOp.catching) = _
  generalize env.react (tr ++ [e]) = ops
  induction ops with
  | nil => rfl
  | cons op ops ih =>
    cases op with
    | send c k => exact congrArg (c :: ·) ih
    | throw => rfl
    | _ => exact ih

theorem brief_keeps {env : Env} (ho : ∀ tr, ∀ op ∈ env.react tr, ∃ c k, op = UserOp.send c k) (l B : Nat) : (env.reacting env.brief).Keeps l B := by
  intro tr op hop
  have hop : op ∈ env.brief tr := hop
  unfold Env.brief at hop
  split at hop
  next h =>
    obtain ⟨c, k, rfl⟩ := ho tr op hop
    exact of_decide_eq_true (p := c.content.2.2.length < 2 ^ 31) (List.all_eq_true.mp h _ hop)
  next => cases hop

theorem answers_briefly {f : Msg → List SendCall} {calls : List SendCall} (h : ∀ c ∈ answersTo f calls, c.content.2.2.length < 2 ^ 31) : answersTo (briefly f) calls = answersTo f calls := by
  unfold answersTo at h ⊢
  generalize (told [] calls).1 = ms at h ⊢
  induction ms with
  | nil => rfl
  | cons m ms ih =>
    rw [List.flatMap_cons, List.flatMap_cons, ih fun c hc => h c (by rw [List.flatMap_cons]; exact List.mem_append_right _ hc)]
    unfold briefly
    rw [if_pos]
    exact List.all_eq_true.mpr fun c hc => decide_eq_true (h c (by rw [List.flatMap_cons]; exact List.mem_append_left _ hc))

/-- In the callbacks that are made, the listeners send less than 2 GiB. -/
theorem brief_of {env : Env} {f : Msg → List SendCall} {T : List Event} (ho : ∀ tr, ∀ op ∈ env.react tr, ∃ c k, op = UserOp.send c k) (hs : env.Serves f)
    (hb : ∀ c ∈ (reassemble [] T).1.flatMap f, c.content.2.2.length < 2 ^ 31) : ∀ tr, tr <+: T → tr ≠ [] → env.brief tr = env.react tr := by
  intro tr htr hne
  obtain ⟨tr', e, rfl⟩ : ∃ tr' e, tr = tr' ++ [e] := ⟨tr.dropLast, tr.getLast hne, (List.dropLast_concat_getLast hne).symm⟩
  unfold Env.brief
  rw [if_pos]
  rw [said_brief (ho _), hs]
  refine List.all_eq_true.mpr fun c hc => decide_eq_true ?_
  obtain ⟨m, hm, hc⟩ := List.mem_flatMap.mp hc
  exact hb c (List.mem_flatMap.mpr ⟨m, Network.completes_sub htr hm, hc⟩)

namespace Together
open Network

variable {env : Env} {fuel l B : Nat} {f : Msg → List SendCall} {sched : List IoOutcome} {out : OutStream} {b : Endpoint}

theorem Client.on {c : OatWS.Client.Conn} {a : Endpoint} (h : Client env fuel l B c a) : ClientOn env fuel l B c a := by
  cases h with
  | threads mask settings h others h1 h2 h3 h4 h5 => exact .threads mask settings h others h1 h2 h3 (fun tr op hop => (h4 tr op hop).steady) fun q hq => (h5 q hq).weaken fun op => UserOp.Keeps.steady
  | tasks mask settings h others h1 h2 h3 h4 h5 =>
    exact .tasks mask settings h _ h1 h2 h3 (fun tr op hop => (h4 tr op hop).fixed) (fun t ht => (user_task h5 t ht).1) fun t ht => (user_task h5 t ht).2.1

theorem silent_calm {ops : List UserOp} (h : ∀ op ∈ ops, op ≠ .throw) (hs : said ops = []) : ∀ op ∈ ops, op.calm := by
  induction ops with
  | nil => intro op hop; cases hop
  | cons x ops ih =>
    have hx := h x (List.mem_cons_self ..)
    have ih := fun hs => ih (fun op hop => h op (List.mem_cons_of_mem _ hop)) hs
    intro op hop
    cases x with
    | send c k => cases hs
    | throw => exact absurd rfl hx
    | _ =>
      rcases List.mem_cons.mp hop with rfl | hop
      · trivial
      · exact ih hs op hop

theorem sends_steady (ho : ∀ tr, ∀ op ∈ env.react tr, ∃ c k, op = UserOp.send c k) (l B : Nat) : (Threads.steady l B).Reacts env := by
  intro tr op hop
  obtain ⟨c, k, rfl⟩ := ho tr op hop
  trivial

theorem sends_fixed (ho : ∀ tr, ∀ op ∈ env.react tr, ∃ c k, op = UserOp.send c k) (l : Nat) (B : Int) : (Async.fixedSettings l B).Env env := by
  intro tr op hop
  obtain ⟨c, k, rfl⟩ := ho tr op hop
  trivial

theorem keeps_throw {l B : Nat} {op : UserOp} (h : op.Keeps l B) : op ≠ .throw := fun e => by subst e; exact h
theorem starts_throw {op : UserOp} (h : op.Starts) : op ≠ .throw := fun e => by subst e; exact h

theorem Answering.serves (h : Answering env fuel l B f sched out b) : (∀ tr, ∀ op ∈ env.react tr, ∃ c k, op = UserOp.send c k) ∧ env.Serves f := by
  cases h with
  | threads created destroyed h h1 h2 h3 h4 h5 h6 h7 h8 h9 => exact ⟨h8, h9⟩
  | tasks created h h1 h2 h3 h4 h5 => exact ⟨h4, h5⟩

theorem Answering.on (h : Answering env fuel l B f sched out b) : SessionOn env fuel l B sched out b ∧ Server env fuel l B b := by
  cases h with
  | threads created destroyed h h1 h2 h3 h4 h5 h6 h7 h8 h9 =>
    have c1 := silent_calm (fun op hop => starts_throw (h4 op hop)) h6
    have c2 := silent_calm (fun op hop => keeps_throw (h5 op hop)) h7
    exact ⟨.threads created destroyed h [] h1 h2 h3 (fun op hop => (h5 op hop).steady) (sends_steady h8 l B) (fun _ hq => (by cases hq)) c1 c2,
      .session (Threads.newSession_session env fuel l B created destroyed h [] sched out h1 h2 h3 (fun op hop => (h5 op hop).steady) (sends_steady h8 l B) fun _ hq => (by cases hq)) c1 c2 h6 h7⟩
  | tasks created h h1 h2 h3 h4 h5 =>
    exact ⟨.tasks created h [] h1 h2 h3 (sends_fixed h4 l B) (fun _ hq => (by cases hq)) fun _ hq => (by cases hq),
      .listening (C69_async env fuel l B created h [] sched out h3 h1 h2 (sends_fixed h4 l B) (fun _ hq => (by cases hq)) fun _ hq => (by cases hq))⟩

/-- The same server, whose listener catches what sends throw, and never sends 2 GiB. -/
theorem Answering.calm (h : Answering env fuel l B f sched out b) (hr : Reliable b) : ∃ b' env' b'', Obeys env env.brief b b' ∧ Like (env.reacting env.brief) env' b' b'' ∧ SessionCalm env' fuel l B sched out b'' ∧
    Server env' fuel l B b'' ∧ env'.Serves (briefly f) := by
  cases h with
  | threads created destroyed h h1 h2 h3 h4 h5 h6 h7 h8 h9 =>
    have c1 := silent_calm (fun op hop => starts_throw (h4 op hop)) h6
    have c2 := silent_calm (fun op hop => keeps_throw (h5 op hop)) h7
    obtain ⟨k1, k2⟩ := env_catching (brief_keeps h8 l B)
    refine ⟨.threads (Threads.newSession (env.reacting env.brief) fuel created h destroyed [] ⟨[], sched⟩ out), (env.reacting env.brief).catching,
      .threads (Threads.newSession (env.reacting env.brief).catching fuel created h destroyed [] ⟨[], sched⟩ out), ?_, ?_, ?_, ?_, catching_serves (brief_serves h8 h9)⟩
    · refine .threads rfl rfl fun i t ht => ?_
      cases i with
      | zero =>
        injection ht with ht
        subst ht
        exact ⟨_, rfl, Threads.follows_session env fuel env.brief (fun tr h => h) created h destroyed⟩
      | succ i => cases ht
    · refine like_of (fuel := fuel) hr.2 (fun q hq => ?_) ?_
      · rw [List.mem_singleton.mp hq]
        exact .bind (.code created) fun _ => .bind (.listen h) fun _ => .code destroyed
      · have e1 : ∀ ops : List UserOp, Threads.userOpsT (env.reacting env.brief).catching fuel ops = Threads.userOpsT (env.reacting env.brief) fuel ops := Threads.ops_catching _ fuel
        unfold Threads.sessionT
        rw [e1, e1]
        exact .andThen (.refl _) fun _ => .andThen (Threads.same_listen _ fuel h) fun _ => .refl _
    · exact .threads created destroyed h [] h1 h2 h3 (fun op hop => ⟨h4 op hop, c1 op hop⟩) (fun op hop => ⟨h5 op hop, c2 op hop⟩) k1 k2 fun _ hq => (by cases hq)
    · exact .session (Threads.newSession_session _ fuel l B created destroyed h [] sched out h1 h2 h3 (fun op hop => (h5 op hop).steady) (fun tr op hop => (k1 tr op hop).steady) fun _ hq => (by cases hq)) c1 c2 h6 h7
  | tasks created h h1 h2 h3 h4 h5 =>
    have k1 := brief_keeps h4 l B
    exact ⟨_, _, _, .tasks, .tasks, .tasks created h [] h1 h2 h3 k1 (fun _ hq => (by cases hq)),
      .listening (C69_async _ fuel l B created h [] sched out h3 h1 h2 (fun tr op hop => (k1 tr op hop).fixed) (fun _ hq => (by cases hq)) fun _ hq => (by cases hq)), brief_serves h4 h5⟩

/-- Number of threads or tasks. -/
theorem step_size {e g : Endpoint} {x : Async.Entry} (h : e.Step env x g) : g.size = e.size ∧ x.task < e.size := by
  cases h with
  | @thread p i a k r st' g1 g2 g3 =>
    refine ⟨List.length_set .., ?_⟩
    show i < p.threads.length
    exact (List.getElem?_eq_some_iff.mp g1).1
  | @task p i t o w' bs g1 g2 g3 g4 g5 =>
    refine ⟨List.length_set .., ?_⟩
    show i < p.tasks.length
    exact (List.getElem?_eq_some_iff.mp g1).1

theorem receive_size (e : Endpoint) (bs : List UInt8) : (e.receive bs).size = e.size := by
  cases e <;> rfl

/-- With one thread or task, only this sends. -/
theorem only_listener {envA envB : Env} {a0 b0 a b : Endpoint} {logA logB : List Async.Entry} (hb : b0.size = 1) (h : Linked envA envB a0 b0 logA logB a b) : b.size = 1 ∧ ∀ e ∈ logB, e.task = 0 := by
  induction h with
  | refl => exact ⟨hb, fun _ h => (by cases h)⟩
  | left _ hs ih => exact ⟨(receive_size ..).trans ih.1, ih.2⟩
  | right _ hs ih =>
    obtain ⟨h1, h2⟩ := step_size hs
    refine ⟨h1.trans ih.1, fun e he => ?_⟩
    rcases List.mem_append.mp he with he | he
    · exact ih.2 e he
    · rw [List.mem_singleton.mp he]
      rw [ih.1] at h2
      omega

theorem enough_obeys {g : List Event → List UserOp} {e e' : Endpoint} (h : e.Enough fuel) (hl : Obeys env g e e') : e'.Enough fuel := by
  cases hl with
  | @threads p p' hs =>
    show p'.st.inp.sched.length < fuel ∧ p'.st.sock.out.sched.length < fuel
    rw [hs]
    exact h
  | tasks => exact h

theorem over_obeys {g : List Event → List UserOp} {e e' : Endpoint} (hl : Obeys env g e e') (h : Over e') : Over e := by
  cases hl with
  | threads _ h3 h4 =>
    obtain ⟨q, h1, h2⟩ := h
    exact Obeys.first h3 h4 h1 h2
  | tasks => exact h

theorem Answering.one (h : Answering env fuel l B f sched out b) : b.size = 1 := by
  cases h <;> rfl

end Together
end OatWS
