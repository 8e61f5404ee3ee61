import Verif.Spec.Relay
import Verif.Proofs.ProcessOrder
import Verif.Props.Service
/-! What threads of a process send is what user code has decided, in order. -/

namespace OatWS.Process
open Threads Code Async
open Network (reassemble_append)

variable {α β : Type} {R : Nat → Prop} {Q : Prop}

/-- Where `Q` holds, user code does not throw, and catches the exceptions of sends. -/
def CalmIf (Q : Prop) (cs : List (Nat × UserOp)) : Prop := Q → ∀ x ∈ cs, x.2.calm

/-- `p`: the sends that the code will still call before user code decides again, or the thread reads. `due`: user code has just been told something and now decides. `R`: the socket on which the thread listens. -/
def OwesM (R : Nat → Prop) (Q : Prop) {α : Type} : Bool → Code α → List (Nat × SendCall) → (α → List (Nat × SendCall) → Prop) → (List (Nat × SendCall) → Prop) → Prop
  | d, .ret a, p, K, _ => d = false ∧ K a p
  | d, .throw _, p, _, E => d = false ∧ E p
  | _, .ub _ _, _, _, _ => True
  | _, .stuck _, _, _, _ => True
  | true, .choose c, p, K, E => p = [] ∧ ∀ cs, CalmIf Q cs → OwesM R Q false (c cs) (saidM cs) K E
  | false, .choose c, p, K, E => ∀ cs, CalmIf Q cs → saidM cs = [] → OwesM R Q false (c cs) p K E
  | d, .act k (.call x) c, p, K, E => d = false ∧ ∃ p', p = (k, x) :: p' ∧ OwesM R Q false (c ()) p' K E
  | d, .act k (.callback e) c, p, K, E => d = false ∧ p = [] ∧ R k ∧ ∀ tr : (Threads.Act.callback e).Res, OwesM R Q true (c tr) [] K E
  | d, .act k (.read n) c, p, K, E => d = false ∧ p = [] ∧ R k ∧ ∀ r : (Threads.Act.read n).Res, OwesM R Q false (c r) [] K E
  | d, .act _ a c, p, K, E => d = false ∧ ∀ r : a.Res, OwesM R Q false (c r) p K E

theorem OwesM.bind {d : Bool} {g : Code α} {f : α → Code β} {p K E} (h : OwesM R Q d g p (fun a p => OwesM R Q false (f a) p K E) E) : OwesM R Q d (g.andThen f) p K E := by
  induction g generalizing p d with
  | ret a => cases h.1; exact h.2
  | throw e => exact h
  | ub k u => trivial
  | stuck k => trivial
  | choose c ih =>
    cases d with
    | true => exact ⟨h.1, fun cs hq => ih cs (h.2 cs hq)⟩
    | false => exact fun cs hq hc => ih cs (h cs hq hc)
  | act k a c ih =>
    cases a with
    | call x => obtain ⟨h1, p', h2, h3⟩ := h; exact ⟨h1, p', h2, ih _ h3⟩
    | callback e => exact ⟨h.1, h.2.1, h.2.2.1, fun r => ih r (h.2.2.2 r)⟩
    | read n => exact ⟨h.1, h.2.1, h.2.2.1, fun r => ih r (h.2.2.2 r)⟩
    | _ => exact ⟨h.1, fun r => ih r (h.2 r)⟩

theorem OwesM.catch {d : Bool} {g : Code α} {f : Err → Code α} {p K E} (h : OwesM R Q d g p K (fun p => ∀ e, OwesM R Q false (f e) p K E)) : OwesM R Q d (g.catching f) p K E := by
  induction g generalizing p d with
  | ret a => exact h
  | throw e => cases h.1; exact h.2 e
  | ub k u => trivial
  | stuck k => trivial
  | choose c ih =>
    cases d with
    | true => exact ⟨h.1, fun cs hq => ih cs (h.2 cs hq)⟩
    | false => exact fun cs hq hc => ih cs (h cs hq hc)
  | act k a c ih =>
    cases a with
    | call x => obtain ⟨h1, p', h2, h3⟩ := h; exact ⟨h1, p', h2, ih _ h3⟩
    | callback e => exact ⟨h.1, h.2.1, h.2.2.1, fun r => ih r (h.2.2.2 r)⟩
    | read n => exact ⟨h.1, h.2.1, h.2.2.1, fun r => ih r (h.2.2.2 r)⟩
    | _ => exact ⟨h.1, fun r => ih r (h.2 r)⟩

theorem OwesM.mono {d : Bool} {g : Code α} {p K K' E E'} (h : OwesM R Q d g p K E) (hk : ∀ a p, K a p → K' a p) (he : ∀ p, E p → E' p) : OwesM R Q d g p K' E' := by
  induction g generalizing p d with
  | ret a => exact ⟨h.1, hk _ _ h.2⟩
  | throw e => exact ⟨h.1, he _ h.2⟩
  | ub k u => trivial
  | stuck k => trivial
  | choose c ih =>
    cases d with
    | true => exact ⟨h.1, fun cs hq => ih cs (h.2 cs hq)⟩
    | false => exact fun cs hq hc => ih cs (h cs hq hc)
  | act k a c ih =>
    cases a with
    | call x => obtain ⟨h1, p', h2, h3⟩ := h; exact ⟨h1, p', h2, ih _ h3⟩
    | callback e => exact ⟨h.1, h.2.1, h.2.2.1, fun r => ih r (h.2.2.2 r)⟩
    | read n => exact ⟨h.1, h.2.1, h.2.2.1, fun r => ih r (h.2.2.2 r)⟩
    | _ => exact ⟨h.1, fun r => ih r (h.2 r)⟩

/-- What was owed is called by the operations, unless one of them ends with an exception. -/
theorem owesM_userSend (env : Env) (fuel k : Nat) (x : SendCall) (catches : Bool) {p K} {E : List (Nat × SendCall) → Prop} (hk : K () p) (he : catches = false → E p) :
    OwesM R Q false (on k (userSendT env fuel x catches)) ((k, x) :: p) K E := by
  refine ⟨rfl, p, rfl, ?_⟩
  have := silent_send env fuel x
  show OwesM R Q false (on k (Prog.andThen (Prog.catching (Prog.andThen (sendT env fuel x) _) _) _)) _ _ _
  generalize sendT env fuel x = q at this
  induction q with
  | ret a => exact ⟨rfl, fun _ => ⟨rfl, hk⟩⟩
  | throw e =>
    refine ⟨rfl, fun _ => ?_⟩
    show OwesM R Q false (on k (if catches = true then Prog.ret () else Prog.throw e)) _ _ _
    split
    · exact ⟨rfl, hk⟩
    · rename_i hc
      exact ⟨rfl, he (by simpa using hc)⟩
  | ub u => trivial
  | stuck => trivial
  | act a c ih =>
    cases a with
    | call x => exact this.elim
    | callback e => exact this.elim
    | returned b => exact this.elim
    | read n => exact this.elim
    | _ => exact ⟨rfl, fun r => ih r (this r)⟩

theorem owesM_ops (env : Nat → Env) (fuel : Nat) (cs : List (Nat × UserOp)) (hq : CalmIf Q cs) : OwesM R Q false (opsM env fuel cs) (saidM cs) (fun _ p => p = []) (fun p => Q → p = []) := by
  induction cs with
  | nil => exact ⟨rfl, rfl⟩
  | cons x cs ih =>
    obtain ⟨k, op⟩ := x
    have ih := ih fun q x hx => hq q x (List.mem_cons_of_mem _ hx)
    have ho : Q → op.calm := fun q => hq q _ List.mem_cons_self
    refine OwesM.bind ?_
    cases op with
    | send c b =>
      refine owesM_userSend _ _ _ _ _ (K := fun _ p => OwesM R Q false (opsM env fuel cs) p _ _) ih fun hb q => ?_
      have := ho q
      rw [hb] at this
      cases this.1
    | throw => exact ⟨rfl, fun q => (ho q).elim⟩
    | _ => exact ⟨rfl, fun _ => ⟨rfl, ih⟩⟩

theorem owesM_silent (env : Nat → Env) (fuel : Nat) (cs : List (Nat × UserOp)) (h : saidM cs = []) (p : List (Nat × SendCall)) {K : Unit → List (Nat × SendCall) → Prop} {E : List (Nat × SendCall) → Prop}
    (hK : K () p) (hE : E p) : OwesM R Q false (opsM env fuel cs) p K E := by
  induction cs with
  | nil => exact ⟨rfl, hK⟩
  | cons x cs ih =>
    obtain ⟨k, op⟩ := x
    refine OwesM.bind ?_
    cases op with
    | send c b => cases h
    | throw => exact ⟨rfl, hE⟩
    | _ => exact ⟨rfl, fun _ => ⟨rfl, ih h⟩⟩

theorem owesM_weave {env : Env} (hm : env.react = fun _ => []) (envs : Nat → Env) (fuel : Nat) {k : Nat} (hk : R k) {q : Prog α} {K E} (h : Owes env q [] K E) :
    OwesM R Q false (weave k (userM envs fuel) q) [] (fun _ p => p = []) (fun p => Q → p = []) := by
  induction q with
  | ret a => exact ⟨rfl, rfl⟩
  | throw e => exact ⟨rfl, fun _ => rfl⟩
  | ub u => trivial
  | stuck => trivial
  | act a c ih =>
    cases a with
    | call x => obtain ⟨_, h, _⟩ := h; cases h
    | callback e =>
      refine ⟨rfl, rfl, hk, fun tr => OwesM.bind ⟨rfl, fun cs hq => (owesM_ops envs fuel cs hq).mono (fun _ p hp => ?_) fun _ hp => hp⟩⟩
      subst hp
      have := h.2 tr
      rw [hm] at this
      exact ih tr this
    | read n => exact ⟨rfl, rfl, hk, fun r => ih r (h.2 r)⟩
    | _ => exact ⟨rfl, fun r => ih r (h r)⟩

theorem owesM_listen (env : Nat → Env) (fuel k : Nat) (h : Header) (hk : R k) : OwesM R Q false (listenM env fuel k h) [] (fun _ p => Q → p = []) (fun p => Q → p = []) := by
  refine OwesM.catch ((owesM_weave (env := mute (env k)) rfl env fuel hk (K := fun _ p => p = []) (E := fun p => (mute (env k)).Calm → p = []) ?_).mono (fun _ _ h _ => h)
    fun p hp e => ⟨rfl, hp⟩)
  exact fun _ => clean_listenLoop fuel fuel h

theorem owesM_job (env : Nat → Env) (fuel : Nat) (J : Job) : OwesM (fun k => J.socket = some k) Q false (J.code env fuel) [] (fun _ p => Q → p = []) (fun p => Q → p = []) := by
  cases J with
  | app => exact fun cs _ hc => owesM_silent env fuel cs hc [] (fun _ => rfl) fun _ => rfl
  | listens k h => exact owesM_listen env fuel k h rfl
  | session k h =>
    refine OwesM.bind fun cs _ hc => owesM_silent env fuel cs hc [] (OwesM.bind ?_) fun _ => rfl
    refine (owesM_listen (R := fun j => (Job.session k h).socket = some j) env fuel k h rfl).mono (fun _ p hp => ?_) fun _ h => h
    exact fun cs _ hc => owesM_silent env fuel cs hc p hp hp

/-- Callbacks are of the socket on which the thread listens. -/
def TellsOn (R : Nat → Prop) {α : Type} : Code α → Prop
  | .act k (.callback e) c => R k ∧ ∀ r : (Threads.Act.callback e).Res, TellsOn R (c r)
  | .act _ a c => ∀ r : a.Res, TellsOn R (c r)
  | .choose c => ∀ cs, TellsOn R (c cs)
  | _ => True

theorem TellsOn.bind {g : Code α} {f : α → Code β} (h : TellsOn R g) (hf : ∀ a, TellsOn R (f a)) : TellsOn R (g.andThen f) := by
  induction g with
  | ret a => exact hf a
  | choose c ih => exact fun cs => ih cs (h cs)
  | act k a c ih =>
    cases a with
    | callback e => exact ⟨h.1, fun r => ih r (h.2 r)⟩
    | _ => exact fun r => ih r (h r)
  | _ => trivial

theorem TellsOn.catch {g : Code α} {f : Err → Code α} (h : TellsOn R g) (hf : ∀ e, TellsOn R (f e)) : TellsOn R (g.catching f) := by
  induction g with
  | throw e => exact hf e
  | choose c ih => exact fun cs => ih cs (h cs)
  | act k a c ih =>
    cases a with
    | callback e => exact ⟨h.1, fun r => ih r (h.2 r)⟩
    | _ => exact fun r => ih r (h r)
  | _ => trivial

theorem tellsOn_userSend (env : Env) (fuel k : Nat) (x : SendCall) (catches : Bool) : TellsOn R (on k (userSendT env fuel x catches)) := by
  intro _
  have := silent_send env fuel x
  show TellsOn R (on k (Prog.andThen (Prog.catching (Prog.andThen (sendT env fuel x) _) _) _))
  generalize sendT env fuel x = q at this
  induction q with
  | ret a => exact fun _ => trivial
  | throw e =>
    intro _
    show TellsOn R (on k (if catches = true then Prog.ret () else Prog.throw e))
    split <;> trivial
  | ub u => trivial
  | stuck => trivial
  | act a c ih =>
    cases a with
    | call x => exact this.elim
    | callback e => exact this.elim
    | returned b => exact this.elim
    | read n => exact this.elim
    | _ => exact fun r => ih r (this r)

theorem tellsOn_user (env : Nat → Env) (fuel : Nat) : TellsOn R (userM env fuel) := by
  intro cs
  show TellsOn R (opsM env fuel cs)
  induction cs with
  | nil => trivial
  | cons x cs ih =>
    obtain ⟨k, op⟩ := x
    refine TellsOn.bind ?_ fun _ => ih
    cases op with
    | send c b => exact tellsOn_userSend _ _ _ _ _
    | throw => trivial
    | _ => exact fun _ => trivial

theorem tellsOn_weave {k : Nat} (hk : R k) {user : Code Unit} (hu : TellsOn R user) (q : Prog α) : TellsOn R (weave k user q) := by
  induction q with
  | act a c ih =>
    cases a with
    | callback e => exact ⟨hk, fun r => hu.bind fun _ => ih r⟩
    | _ => exact fun r => ih r
  | _ => trivial

theorem tellsOn_job (env : Nat → Env) (fuel : Nat) (J : Job) : TellsOn (fun k => J.socket = some k) (J.code env fuel) := by
  cases J with
  | app => exact tellsOn_user env fuel
  | listens k h => exact (tellsOn_weave (R := fun j => (Job.listens k h).socket = some j) rfl (tellsOn_user env fuel) _).catch fun _ => trivial
  | session k h =>
    exact (tellsOn_user env fuel).bind fun _ => ((tellsOn_weave (R := fun j => (Job.session k h).socket = some j) rfl (tellsOn_user env fuel) _).catch (f := fun _ => .ret ()) fun _ => trivial).bind fun _ => tellsOn_user env fuel

/-! ## Notes -/

/-- User code has just been told something. -/
def dueIn (N : List Note) : Bool :=
  match N.getLast? with
  | some (.told _ _) => true
  | _ => false

/-- All that user code has decided to send. -/
def decided (N : List Note) : List (Nat × SendCall) := N.flatMap fun
  | .told _ _ => []
  | .chose cs => saidM cs

/-- Sends are decided on in callbacks only. -/
def QuietElse (N : List Note) : Prop := ∀ pre cs, pre ++ [.chose cs] <+: N → dueIn pre = false → saidM cs = []

/-- User code does not throw, and catches the exceptions of sends. -/
def CalmNotes (N : List Note) : Prop := ∀ cs, .chose cs ∈ N → ∀ x ∈ cs, x.2.calm

theorem PassesOn.quiet {f : Msg → List (Nat × SendCall)} {N : List Note} (h : PassesOn f N) : QuietElse N := by
  intro pre cs hp hd
  rw [h pre cs hp]
  unfold dueIn at hd
  unfold dueAfter
  split
  · rename_i k e he
    rw [he] at hd
    cases hd
  · rfl

theorem PassesOn.prefix {f : Msg → List (Nat × SendCall)} {N N' : List Note} (h : PassesOn f N') (hp : N <+: N') : PassesOn f N := fun pre cs hx => h pre cs (hx.trans hp)

theorem QuietElse.prefix {N N' : List Note} (h : QuietElse N') (hp : N <+: N') : QuietElse N := fun pre cs hx => h pre cs (hx.trans hp)

theorem notesOf_append (i : Nat) (xs ys : List (Nat × Note)) : notesOf i (xs ++ ys) = notesOf i xs ++ notesOf i ys := by simp [notesOf]

theorem notesOf_one (i : Nat) (x : Note) : notesOf i [(i, x)] = [x] := by simp [notesOf]

theorem notesOf_other {i j : Nat} (h : j ≠ i) (x : Note) : notesOf i [(j, x)] = [] := by simp [notesOf, h]

theorem dueIn_snoc (N : List Note) (x : Note) : dueIn (N ++ [x]) = (match x with | .told _ _ => true | _ => false) := by
  cases x <;> simp [dueIn]

theorem decided_snoc (N : List Note) (x : Note) : decided (N ++ [x]) = decided N ++ (match x with | .told _ _ => [] | .chose cs => saidM cs) := by
  cases x <;> simp [decided]

theorem callsBy_append (i : Nat) (xs ys : List (Nat × Entry)) : callsBy i (xs ++ ys) = callsBy i xs ++ callsBy i ys := by simp [callsBy]

theorem callsBy_one (i k : Nat) (a : Threads.Act) (st st' : St) : callsBy i [(k, entry i a st st')] = (match a with | .call x => [(k, x)] | _ => []) := by
  cases a <;> simp [callsBy, entry, Threads.Act.called]

theorem callsBy_other {i j : Nat} (h : j ≠ i) (k : Nat) (a : Threads.Act) (st st' : St) : callsBy i [(k, entry j a st st')] = [] := by
  simp [callsBy, entry, h]

theorem toldIn_snoc (N : List Note) (x : Note) : toldIn (N ++ [x]) = toldIn N ++ (match x with | .told _ e => [e] | .chose _ => []) := by
  cases x <;> simp [toldIn]

/-- User code decides after each callback, before the next. -/
def Alternate (N : List Note) : Prop := ∀ pre k e, pre ++ [.told k e] <+: N → dueIn pre = false

theorem snoc_prefix_snoc {γ : Type} {M N : List γ} {x y : γ} (h : M ++ [x] <+: N ++ [y]) : M ++ [x] <+: N ∨ (M = N ∧ x = y) := by
  obtain ⟨t, ht⟩ := h
  rcases List.eq_nil_or_concat t with rfl | ⟨t', z, rfl⟩
  · rw [List.append_nil] at ht
    have := List.append_inj' ht rfl
    exact .inr ⟨this.1, by injection this.2⟩
  · rw [List.concat_eq_append, ← List.append_assoc] at ht
    exact .inl ⟨t', (List.append_inj' ht rfl).1⟩

/-- What is decided by user code that passes messages on. -/
theorem PassesOn.decides {f : Msg → List (Nat × SendCall)} {N : List Note} (h : PassesOn f N) (ha : Alternate N) :
    (dueIn N = false → decided N = (reassemble [] (toldIn N)).1.flatMap f) ∧ (dueIn N = true → decided N ++ dueAfter f N = (reassemble [] (toldIn N)).1.flatMap f) := by
  generalize hm : N.length = m
  induction m generalizing N with
  | zero => rw [List.length_eq_zero_iff.mp hm]; exact ⟨fun _ => rfl, nofun⟩
  | succ m ih =>
    rcases List.eq_nil_or_concat N with rfl | ⟨M, x, rfl⟩
    · cases hm
    rw [List.concat_eq_append] at h ha hm ⊢
    have hp : M <+: M ++ [x] := List.prefix_append ..
    obtain ⟨i1, i2⟩ := ih (h.prefix hp) (fun pre k e hx => ha pre k e (hx.trans hp)) (by simpa using hm)
    cases x with
    | told k e =>
      have hd := ha M k e (List.prefix_refl _)
      refine ⟨fun h0 => ?_, fun _ => ?_⟩
      · rw [dueIn_snoc] at h0
        cases h0
      · rw [decided_snoc, toldIn_snoc, reassemble_append, List.flatMap_append, ← i1 hd, List.append_nil]
        simp [dueAfter, completes]
    | chose cs =>
      refine ⟨fun _ => ?_, fun h0 => ?_⟩
      · rw [decided_snoc, toldIn_snoc, List.append_nil]
        have hc := h M cs (List.prefix_refl _)
        dsimp only
        cases hd : dueIn M with
        | true => rw [hc]; exact i2 hd
        | false => rw [h.quiet M cs (List.prefix_refl _) hd, List.append_nil]; exact i1 hd
      · rw [dueIn_snoc] at h0
        cases h0

/-! ## Executions -/

variable {env penv : Nat → Env} {may : Nat → UserOp → Prop} {fuel : Nat} {jobs : List Job} {socks : Nat → St} {peers : Nat → Network.Endpoint} {la lb : List (Nat × Entry)} {ns : List (Nat × Note)}
  {n n0 : Net}

theorem Net.Noted.runs (h : Net.Noted env penv may n0 la lb ns n) : Net.Runs env penv may n0 la lb n := by
  induction h with
  | refl => exact .refl
  | own _ h1 h2 h3 ih => exact .own ih h1 h2 h3
  | chooses _ h1 h2 ih => exact .chooses ih h1 h2
  | peer _ h1 ih => exact .peer ih h1

theorem Net.Runs.noted (h : Net.Runs env penv may n0 la lb n) : ∃ ns, Net.Noted env penv may n0 la lb ns n := by
  induction h with
  | refl => exact ⟨_, .refl⟩
  | own _ h1 h2 h3 ih => obtain ⟨ns, ih⟩ := ih; exact ⟨_, .own ih h1 h2 h3⟩
  | chooses _ h1 h2 ih => obtain ⟨ns, ih⟩ := ih; exact ⟨_, .chooses ih h1 h2⟩
  | peer _ h1 ih => obtain ⟨ns, ih⟩ := ih; exact ⟨_, .peer ih h1⟩

/-- What was told by the listener of socket `k`, whichever thread was told. -/
def toldOn (k : Nat) (ns : List (Nat × Note)) : List Event := ns.filterMap fun x => match x.2 with
  | .told k' e => if k' = k then some e else none
  | .chose _ => none

theorem toldOn_append (k : Nat) (xs ys : List (Nat × Note)) : toldOn k (xs ++ ys) = toldOn k xs ++ toldOn k ys := by simp [toldOn]

/-- Whom the listener of a socket tells something: the thread that listens there. -/
theorem Net.Noted.tells (h : Net.Noted env penv may ⟨jobs.map (Job.code env fuel), socks, peers⟩ la lb ns n) :
    n.threads.length = jobs.length ∧ (∀ (i : Nat) J g, jobs[i]? = some J → n.threads[i]? = some g → TellsOn (fun k => J.socket = some k) g) ∧
    (∀ x ∈ ns, ∀ k e, x.2 = .told k e → ∃ J, jobs[x.1]? = some J ∧ J.socket = some k) ∧ ∀ k, (n.socks k).sock.trace = (socks k).sock.trace ++ toldOn k ns := by
  induction h with
  | refl =>
    refine ⟨by simp, fun i J g hJ hg => ?_, fun x hx => absurd hx List.not_mem_nil, fun k => (List.append_nil _).symm⟩
    have hg : (jobs.map (Job.code env fuel))[i]? = some g := hg
    rw [List.getElem?_map, hJ] at hg
    injection hg with hg
    subst hg
    exact tellsOn_job env fuel J
  | @peer la lb ns n k e b _ _ ih =>
    refine ⟨ih.1, ih.2.1, ih.2.2.1, fun j => ?_⟩
    show (upd n.socks k (arrive (n.socks k) e.wrote) j).sock.trace = _
    by_cases hj : j = k
    · subst hj; rw [upd_same]; exact ih.2.2.2 j
    · rw [upd_other _ _ hj]; exact ih.2.2.2 j
  | @chooses la lb ns n i c cs _ h1 h2 ih =>
    obtain ⟨i1, i2, i3, i4⟩ := ih
    refine ⟨by simpa using i1, fun j J g hJ hg => ?_, fun x hx k e hxe => ?_, fun k => ?_⟩
    · have hg : (n.threads.set i (c cs))[j]? = some g := hg
      by_cases hj : j = i
      · subst hj
        rw [List.getElem?_set_self (List.getElem?_eq_some_iff.mp h1).1] at hg
        injection hg with hg
        subst hg
        exact i2 _ J _ hJ h1 cs
      · rw [List.getElem?_set_ne (Ne.symm hj)] at hg
        exact i2 _ J _ hJ hg
    · rcases List.mem_append.mp hx with hx | hx
      · exact i3 x hx k e hxe
      · rw [List.mem_singleton.mp hx] at hxe
        cases hxe
    · rw [toldOn_append]
      exact (i4 k).trans (by simp [toldOn])
  | @own la lb ns n i k a c r st' _ h1 h2 h3 ih =>
    obtain ⟨i1, i2, i3, i4⟩ := ih
    have hil : i < jobs.length := i1 ▸ (List.getElem?_eq_some_iff.mp h1).1
    have hJi : jobs[i]? = some jobs[i] := List.getElem?_eq_getElem hil
    refine ⟨by simpa using i1, fun j J g hJ hg => ?_, fun x hx k' e hxe => ?_, fun k' => ?_⟩
    · have hg : (n.threads.set i (c r))[j]? = some g := hg
      by_cases hj : j = i
      · subst hj
        rw [List.getElem?_set_self (List.getElem?_eq_some_iff.mp h1).1] at hg
        injection hg with hg
        subst hg
        have := i2 _ J _ hJ h1
        cases a with
        | callback e => exact this.2 r
        | _ => exact this r
      · rw [List.getElem?_set_ne (Ne.symm hj)] at hg
        exact i2 _ J _ hJ hg
    · rcases List.mem_append.mp hx with hx | hx
      · exact i3 x hx k' e hxe
      · cases a with
        | callback e' =>
          rw [List.mem_singleton.mp hx] at hxe ⊢
          injection hxe with h4 h5
          exact ⟨_, hJi, h4 ▸ (i2 _ _ _ hJi h1).1⟩
        | _ => exact absurd hx List.not_mem_nil
    · show (upd n.socks k st' k').sock.trace = _
      rw [toldOn_append]
      by_cases hj : k' = k
      · subst hj
        rw [upd_same]
        have ht : st'.sock.trace = (n.socks k').sock.trace ++ toldOn k' (noteAt i k' a) := by
          cases a with
          | callback e => injection h3 with h3; injection h3 with _ h3; rw [← h3]; simp [noteAt, toldOn]
          | read m =>
            unfold exec at h3
            dsimp only at h3
            split at h3
            · cases h3
            · injection h3 with h3; injection h3 with _ h3; rw [← h3]; simp [noteAt, toldOn]
          | write m =>
            unfold exec at h3
            dsimp only at h3
            split at h3
            · cases h3
            · split at h3 <;> (injection h3 with h3; injection h3 with _ h3; rw [← h3]; simp [noteAt, toldOn])
          | _ => injection h3 with h3; injection h3 with _ h3; rw [← h3]; simp [noteAt, toldOn]
        rw [ht, i4 k', List.append_assoc]
      · rw [upd_other _ _ hj, i4 k']
        have : toldOn k' (noteAt i k a) = [] := by
          cases a with
          | callback e => simp [noteAt, toldOn, Ne.symm hj]
          | _ => rfl
        rw [this, List.append_nil]

theorem toldOn_eq {i k : Nat} {ns : List (Nat × Note)} (h : ∀ x ∈ ns, ∀ k' e, x.2 = .told k' e → (k' = k ↔ x.1 = i)) : toldOn k ns = toldIn (notesOf i ns) := by
  induction ns with
  | nil => rfl
  | cons x ns ih =>
    have ih := ih fun y hy => h y (List.mem_cons_of_mem _ hy)
    have hx := h x List.mem_cons_self
    rw [show x :: ns = [x] ++ ns from rfl, toldOn_append, notesOf_append, ih]
    show _ = toldIn (notesOf i [x] ++ notesOf i ns)
    have : ∀ A B : List Note, toldIn (A ++ B) = toldIn A ++ toldIn B := fun A B => by simp [toldIn]
    rw [this]
    congr 1
    obtain ⟨j, y⟩ := x
    by_cases hj : j = i
    · subst hj
      rw [notesOf_one]
      cases y with
      | told k' e =>
        have : k' = k := (hx k' e rfl).mpr rfl
        simp [toldOn, toldIn, this]
      | chose cs => rfl
    · rw [notesOf_other hj]
      cases y with
      | told k' e =>
        have : ¬ k' = k := fun h => hj ((hx k' e rfl).mp h)
        simp [toldOn, toldIn, this]
      | chose cs => rfl

/-- If only thread `i` listens on socket `k`, it is told what the listener of this socket hears. -/
theorem Net.Noted.told_alone (h : Net.Noted env penv may ⟨jobs.map (Job.code env fuel), socks, peers⟩ la lb ns n) {i k : Nat} {J : Job} (hJ : jobs[i]? = some J) (hk : J.socket = some k)
    (hother : ∀ j J, jobs[j]? = some J → J.socket = some k → j = i) : (n.socks k).sock.trace = (socks k).sock.trace ++ toldIn (notesOf i ns) := by
  obtain ⟨_, _, h3, h4⟩ := h.tells
  rw [h4 k, toldOn_eq fun x hx k' e hxe => ?_]
  obtain ⟨J', h5, h6⟩ := h3 x hx k' e hxe
  refine ⟨fun h => hother _ J' h5 (h ▸ h6), fun h => ?_⟩
  rw [h, hJ] at h5
  injection h5 with h5
  rw [← h5, hk] at h6
  injection h6 with h6
  exact h6.symm

/-- What thread `i` has still to send of what user code has decided, if it decides on sends in callbacks only. -/
theorem Net.Noted.owing (h : Net.Noted env penv may ⟨jobs.map (Job.code env fuel), socks, peers⟩ la lb ns n) :
    n.threads.length = jobs.length ∧ ∀ (i : Nat) J g, jobs[i]? = some J → n.threads[i]? = some g → QuietElse (notesOf i ns) → (Q → CalmNotes (notesOf i ns)) →
      Alternate (notesOf i ns) ∧ ∃ p, OwesM (fun k => J.socket = some k) Q (dueIn (notesOf i ns)) g p (fun _ p => Q → p = []) (fun p => Q → p = []) ∧ callsBy i la ++ p = decided (notesOf i ns) := by
  induction h with
  | refl =>
    refine ⟨by simp, fun i J g hJ hg _ _ => ⟨fun pre k e hx => ?_, [], ?_, rfl⟩⟩
    · obtain ⟨t, ht⟩ := hx
      have := congrArg List.length ht
      simp [notesOf] at this
    · have hg : (jobs.map (Job.code env fuel))[i]? = some g := hg
      rw [List.getElem?_map, hJ] at hg
      injection hg with hg
      subst hg
      exact owesM_job env fuel J
  | peer _ _ ih => exact ih
  | @chooses la lb ns n i c cs _ h1 h2 ih =>
    obtain ⟨i1, i2⟩ := ih
    refine ⟨by simpa using i1, fun j J g hJ hg hq hc => ?_⟩
    have hg : (n.threads.set i (c cs))[j]? = some g := hg
    by_cases hj : j = i
    · subst hj
      rw [List.getElem?_set_self (List.getElem?_eq_some_iff.mp h1).1] at hg
      injection hg with hg
      subst hg
      rw [notesOf_append, notesOf_one] at hq hc ⊢
      obtain ⟨ha, p, hp, hcalls⟩ := i2 _ J _ hJ h1 (hq.prefix (List.prefix_append ..)) fun q cs hx => hc q cs (List.mem_append_left _ hx)
      refine ⟨fun pre k e hx => ?_, ?_⟩
      · rcases snoc_prefix_snoc hx with hx | ⟨_, hx⟩
        · exact ha pre k e hx
        · cases hx
      · rw [dueIn_snoc, decided_snoc]
        cases hd : dueIn (notesOf j ns) with
        | true =>
          rw [hd] at hp
          obtain ⟨rfl, hp⟩ := hp
          rw [List.append_nil] at hcalls
          exact ⟨_, hp cs fun q => hc q cs (by simp), by rw [hcalls]⟩
        | false =>
          rw [hd] at hp
          have hs := hq _ cs (List.prefix_refl _) hd
          refine ⟨p, hp cs (fun q => hc q cs (by simp)) hs, ?_⟩
          dsimp only
          rw [hs, List.append_nil]
          exact hcalls
    · rw [List.getElem?_set_ne (Ne.symm hj)] at hg
      rw [notesOf_append, notesOf_other (Ne.symm hj), List.append_nil] at hq hc ⊢
      exact i2 _ J _ hJ hg hq hc
  | @own la lb ns n i k a c r st' _ h1 h2 h3 ih =>
    obtain ⟨i1, i2⟩ := ih
    refine ⟨by simpa using i1, fun j J g hJ hg hq hc => ?_⟩
    have hg : (n.threads.set i (c r))[j]? = some g := hg
    by_cases hj : j = i
    · subst hj
      rw [List.getElem?_set_self (List.getElem?_eq_some_iff.mp h1).1] at hg
      injection hg with hg
      subst hg
      rw [notesOf_append] at hq hc ⊢
      obtain ⟨ha, p, hp, hcalls⟩ := i2 _ J _ hJ h1 (hq.prefix (List.prefix_append ..)) fun q cs hx => hc q cs (List.mem_append_left _ hx)
      rw [callsBy_append, callsBy_one]
      cases a with
      | callback e =>
        obtain ⟨hd, rfl, hk, hp⟩ := hp
        rw [show noteAt j k (.callback e) = [(j, .told k e)] from rfl, notesOf_one]
        refine ⟨fun pre k' e' hx => ?_, [], ?_, ?_⟩
        · rcases snoc_prefix_snoc hx with hx | ⟨rfl, _⟩
          · exact ha pre k' e' hx
          · exact hd
        · rw [dueIn_snoc]; exact hp r
        · rw [decided_snoc, ← hcalls]
      | call x =>
        obtain ⟨hd, p', rfl, hp⟩ := hp
        refine ⟨by simpa [noteAt, notesOf] using ha, p', ?_, ?_⟩
        · simp only [noteAt]
          rw [show notesOf j [] = [] from rfl, List.append_nil, hd]
          exact hp
        · rw [show notesOf j (noteAt j k (.call x)) = [] from rfl, List.append_nil, ← hcalls]; simp
      | read m =>
        obtain ⟨hd, rfl, hk, hp⟩ := hp
        rw [show notesOf j (noteAt j k (.read m)) = [] from rfl, List.append_nil, hd]
        exact ⟨ha, [], hp r, by simp [← hcalls]⟩
      | _ =>
        rw [show notesOf j (noteAt j k _) = [] from rfl, List.append_nil, hp.1]
        exact ⟨ha, p, hp.2 r, by simp [← hcalls]⟩
    · rw [List.getElem?_set_ne (Ne.symm hj)] at hg
      have hn : notesOf j (noteAt i k a) = [] := by
        cases a with
        | callback e => exact notesOf_other (Ne.symm hj) _
        | _ => rfl
      rw [notesOf_append, hn, List.append_nil] at hq hc ⊢
      rw [callsBy_append, callsBy_other (Ne.symm hj), List.append_nil]
      exact i2 _ J _ hJ hg hq hc

end OatWS.Process
