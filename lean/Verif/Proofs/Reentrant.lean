import Verif.Spec.Reentrant
import Verif.Props.Flow
/-! Reading inside callbacks between frames is reading in turn. -/

namespace OatWS.Reentrant

theorem bind_eq {σ α β : Type} (m : P σ α) (f : α → P σ β) (s : σ) : (m >>= f) s = match m s with
  | (.ret a, s') => f a s'
  | (.throw e, s') => (.throw e, s')
  | (.block, s') => (.block, s')
  | (.ub u, s') => (.ub u, s') := rfl

theorem pure_eq {σ α : Type} (a : α) (s : σ) : (pure a : P σ α) s = (.ret a, s) := rfl

theorem xor_ne {m : Mask} {n : Nat} {bs : List UInt8} (h : bs ≠ []) : xorMask m n bs ≠ [] := by
  cases bs with
  | nil => exact absurd rfl h
  | cons b bs => exact fun h => by cases h

theorem data_ne {o : IoOutcome} {bytes bs bytes' : List UInt8} {n : Nat} (h : lowRead o bytes n = (.data bs, bytes')) : bs ≠ [] := by
  unfold lowRead at h
  split at h
  · dsimp only at h
    split at h
    · cases h
    · rename_i hk
      injection h with h1 h2
      injection h1 with h1
      subst h1
      intro he
      have := congrArg List.length he
      rw [List.length_take, List.length_nil] at this
      omega
  all_goals cases h

/-- Callbacks with data that are as in `Model/WebSocket`. -/
def Plain (env : Env) (call : Callback) : Prop := ∀ op x d st, call (fun l => .readMessage l op (x :: d)) st = liftSock (callListener env fun l => .readMessage l op (x :: d)) st

theorem payloadLoop_plain {env : Env} {call : Callback} (hp : Plain env call) (h : Header) (short : Bool) (cap : Nat) (sched : List IoOutcome) (bytes : List UInt8) (s : Sock) (progress : Int) (acc : List UInt8) (fuel : Nat)
    (hf : sched.length ≤ fuel) : payloadLoopWith call h short cap fuel ⟨s, ⟨bytes, sched⟩⟩ progress acc = readPayloadLoop env h short cap sched bytes s progress acc := by
  induction sched generalizing bytes s progress acc fuel with
  | nil =>
    rw [readPayloadLoop]
    cases fuel <;> rw [payloadLoopWith] <;> split <;> rfl
  | cons o sched ih =>
    cases fuel with
    | zero => exact absurd hf (by simp)
    | succ fuel =>
      have hf : sched.length ≤ fuel := Nat.le_of_succ_le_succ hf
      rw [payloadLoopWith, readPayloadLoop]
      split
      · dsimp only
        generalize (if s.config.readBufferSize > h.payloadLength - progress then h.payloadLength - progress else s.config.readBufferSize) = n
        split
        · rfl
        · rcases he : lowRead o bytes n.toNat with ⟨r, bytes'⟩
          cases r with
          | data bs =>
            dsimp only
            split
            · rfl
            · cases short with
              | true => exact ih _ _ _ _ _ hf
              | false =>
                have hne : (if h.hasMask then xorMask h.mask progress.toNat bs else bs) ≠ [] := by
                  split
                  · exact xor_ne (data_ne he)
                  · exact data_ne he
                generalize (if h.hasMask then xorMask h.mask progress.toNat bs else bs) = chunk at hne
                cases chunk with
                | nil => exact absurd rfl hne
                | cons x d =>
                  simp only [Bool.false_eq_true, if_false]
                  rw [hp]
                  unfold liftSock
                  dsimp only
                  rcases callListener env (fun l => .readMessage l h.opcode (x :: d)) s with ⟨r, s'⟩
                  cases r with
                  | ret a => exact ih _ _ _ _ _ hf
                  | throw e => rfl
                  | block => rfl
                  | ub u => rfl
          | retry => exact ih _ _ _ _ _ hf
          | zero => rfl
          | broken => rfl
      · rfl

theorem runPayloadLoop_plain {env : Env} {call : Callback} (hp : Plain env call) (h : Header) (short : Bool) : runPayloadLoopWith call h short = runPayloadLoop env h short :=
  funext fun st => payloadLoop_plain hp h short _ _ _ _ _ _ _ (Nat.le_refl _)

/-- `m` is `m0` and then some actions. -/
def Extends {α : Type} (D : Action → Prop) (env : Env) (m m0 : P St α) : Prop := ∀ st, ∃ acts, (∀ a ∈ acts, D a.1) ∧ Same (m st) ((do let a ← m0; inTurn env acts; pure a) st)

/-- `m` is some actions. -/
def Acts (D : Action → Prop) (env : Env) (m : P St Unit) : Prop := ∀ st, ∃ acts, (∀ a ∈ acts, D a.1) ∧ Same (m st) (inTurn env acts st)

theorem Same.refl {α : Type} (r : Exit α × St) : Same r r := ⟨rfl, .inl rfl⟩

theorem Extends.of_eq {α : Type} {env : Env} {m m0 : P St α} (h : m = m0) : Extends D env m m0 := by
  subst h
  intro st
  refine ⟨[], (fun _ h => absurd h List.not_mem_nil), ?_⟩
  rw [bind_eq]
  rcases m st with ⟨r, s⟩
  cases r <;> exact Same.refl _

/-- Only the end differs. -/
theorem Extends.bind {α β : Type} {env : Env} (k : P St α) {m m0 : α → P St β} (h : ∀ a, Extends D env (m a) (m0 a)) : Extends D env (k >>= m) (k >>= m0) := by
  intro st
  rcases hk : k st with ⟨r, s⟩
  cases r with
  | ret a =>
    obtain ⟨acts, hd, ha⟩ := h a s
    refine ⟨acts, hd, ?_⟩
    have e1 : (k >>= m) st = m a s := by rw [bind_eq, hk]
    have e2 : (do let b ← k >>= m0; inTurn env acts; pure b) st = (do let b ← m0 a; inTurn env acts; pure b) s := by
      rw [bind_eq, bind_eq, hk]
      rfl
    rw [e1, e2]
    exact ha
  | throw e => exact ⟨[], (fun _ h => absurd h List.not_mem_nil), by rw [bind_eq, bind_eq, bind_eq, hk]; exact Same.refl _⟩
  | block => exact ⟨[], (fun _ h => absurd h List.not_mem_nil), by rw [bind_eq, bind_eq, bind_eq, hk]; exact Same.refl _⟩
  | ub u => exact ⟨[], (fun _ h => absurd h List.not_mem_nil), by rw [bind_eq, bind_eq, bind_eq, hk]; exact Same.refl _⟩

/-- The result, with another value. -/
def mapR {α β : Type} (f : α → β) : Exit α × St → Exit β × St
  | (.ret a, s) => (.ret (f a), s)
  | (.throw e, s) => (.throw e, s)
  | (.block, s) => (.block, s)
  | (.ub u, s) => (.ub u, s)

theorem bind_pure_eq {α β : Type} (f : α → β) (m : P St α) (st : St) : (m >>= fun a => pure (f a)) st = mapR f (m st) := by
  rw [bind_eq]
  rcases m st with ⟨r, s⟩
  cases r <;> rfl

theorem Same.map {α β : Type} (f : α → β) {r s : Exit α × St} (h : Same r s) : Same (mapR f r) (mapR f s) := by
  obtain ⟨r, r'⟩ := r
  obtain ⟨s, s'⟩ := s
  obtain ⟨h1, h2⟩ := h
  dsimp only at h1 h2
  subst h1
  rcases h2 with rfl | rfl
  · exact Same.refl _
  · cases s <;> exact ⟨rfl, .inr rfl⟩

/-- What is returned does not matter. -/
theorem Extends.map {α β : Type} {env : Env} {m m0 : P St α} (f : α → β) (h : Extends D env m m0) : Extends D env (do let a ← m; pure (f a)) (do let a ← m0; pure (f a)) := by
  intro st
  obtain ⟨acts, hd, h⟩ := h st
  refine ⟨acts, hd, ?_⟩
  have h := h.map f
  have e2 : (do let b ← (do let a ← m0; pure (f a)); inTurn env acts; pure b : P St β) st = mapR f ((do let a ← m0; inTurn env acts; pure a : P St α) st) := by
    rw [bind_eq, bind_pure_eq, bind_eq]
    rcases m0 st with ⟨r0, s0⟩
    cases r0 with
    | ret a =>
      show (inTurn env acts >>= fun _ => pure (f a)) s0 = mapR f ((inTurn env acts >>= fun _ => pure a) s0)
      rw [bind_eq, bind_eq]
      rcases inTurn env acts s0 with ⟨r1, s1⟩
      cases r1 <;> rfl
    | _ => rfl
  rw [bind_pure_eq, e2]
  exact h

theorem inTurn_append (env : Env) (xs ys : List (Action × Bool)) (st : St) : inTurn env (xs ++ ys) st = match inTurn env xs st with
    | (.ret _, st') => inTurn env ys st'
    | r => r := by
  induction xs generalizing st with
  | nil => rfl
  | cons x xs ih =>
    obtain ⟨a, c⟩ := x
    show (match a.run env st with
      | (.ret _, st') => inTurn env (xs ++ ys) st'
      | (.throw e, st') => if c then inTurn env (xs ++ ys) st' else (.throw e, st')
      | r => r) = match (match a.run env st with
      | (.ret _, st') => inTurn env xs st'
      | (.throw e, st') => if c then inTurn env xs st' else (.throw e, st')
      | r => r) with
      | (.ret _, st') => inTurn env ys st'
      | r => r
    rcases a.run env st with ⟨r, s⟩
    cases r with
    | ret _ => exact ih s
    | throw e => cases c with
      | true => exact ih s
      | false => rfl
    | block => rfl
    | ub u => rfl

/-- What throws can be caught: then the rest is not done. -/
theorem inTurn_caught (env : Env) (acts : List (Action × Bool)) (st : St) (e : Err) (s : St) (h : inTurn env acts st = (.throw e, s)) {D : Action → Prop} (hd : ∀ a ∈ acts, D a.1) : ∃ acts', (∀ a ∈ acts', D a.1) ∧ inTurn env acts' st = (.ret (), s) := by
  induction acts generalizing st with
  | nil => cases h
  | cons x xs ih =>
    obtain ⟨a, c⟩ := x
    have h : (match a.run env st with
      | (.ret _, st') => inTurn env xs st'
      | (.throw e, st') => if c then inTurn env xs st' else (.throw e, st')
      | r => r) = (.throw e, s) := h
    have ret : ∀ s', a.run env st = (.ret (), s') → ∀ acts', inTurn env ((a, true) :: acts') st = inTurn env acts' s' := by
      intro s' ha acts'
      show (match a.run env st with
        | (.ret _, st') => inTurn env acts' st'
        | (.throw e, st') => if true then inTurn env acts' st' else (.throw e, st')
        | r => r) = _
      rw [ha]
    have thr : ∀ e' s', a.run env st = (.throw e', s') → ∀ acts', inTurn env ((a, true) :: acts') st = inTurn env acts' s' := by
      intro e' s' ha acts'
      show (match a.run env st with
        | (.ret _, st') => inTurn env acts' st'
        | (.throw e, st') => if true then inTurn env acts' st' else (.throw e, st')
        | r => r) = _
      rw [ha]
      rfl
    have hda : D a := hd _ (List.mem_cons_self ..)
    have hdx : ∀ b ∈ xs, D b.1 := fun b hb => hd b (List.mem_cons_of_mem _ hb)
    have cons : ∀ acts' : List (Action × Bool), (∀ b ∈ acts', D b.1) → ∀ b ∈ (a, true) :: acts', D b.1 := fun acts' h b hb => (List.mem_cons.mp hb).elim (fun e => e ▸ hda) (h b)
    rcases ha : a.run env st with ⟨r, s'⟩
    rw [ha] at h
    cases r with
    | ret _ =>
      obtain ⟨acts', hd', h'⟩ := ih s' h hdx
      exact ⟨(a, true) :: acts', cons _ hd', by rw [ret _ ha]; exact h'⟩
    | throw e' =>
      cases c with
      | true =>
        obtain ⟨acts', hd', h'⟩ := ih s' h hdx
        exact ⟨(a, true) :: acts', cons _ hd', by rw [thr _ _ ha]; exact h'⟩
      | false =>
        injection h with h1 h2
        subst h2
        exact ⟨[(a, true)], cons [] (fun _ h => absurd h List.not_mem_nil), by rw [thr _ _ ha]; rfl⟩
    | block => cases h
    | ub u => cases h

variable {env : Env} {call : Callback} {D : Action → Prop}

theorem endMarker_extends (hc : ∀ mk, Extends D env (call mk) (liftSock (callListener env mk))) (h : Header) (short : Bool) : Extends D env (endMarkerWith call h short) (endMarker env h short) := by
  unfold endMarkerWith endMarker
  split
  · exact hc _
  · exact .of_eq rfl

theorem readPayload_extends (hp : Plain env call) (hc : ∀ mk, Extends D env (call mk) (liftSock (callListener env mk))) (h : Header) (short : Bool) : Extends D env (readPayloadWith call h short) (readPayload env h short) := by
  unfold readPayloadWith readPayload
  split
  · exact .of_eq rfl
  · refine .bind _ fun st => ?_
    split
    · exact .of_eq rfl
    · rw [runPayloadLoop_plain hp]
      exact .bind _ fun acc => .map (fun _ => acc) (endMarker_extends hc h short)

theorem readPayload_short (hp : Plain env call) (h : Header) : readPayloadWith call h true = readPayload env h true := by
  unfold readPayloadWith readPayload endMarkerWith endMarker
  rw [runPayloadLoop_plain hp]
  rfl

theorem handleFrame_extends (hp : Plain env call) (hc : ∀ mk, Extends D env (call mk) (liftSock (callListener env mk))) (h : Header) : Extends D env (handleFrameWith env call h) (handleFrame env h) := by
  have data : Extends D env (do let _ ← readPayloadWith call h false : P St Unit) (do let _ ← readPayload env h false) := .map (fun _ => ()) (readPayload_extends hp hc h false)
  unfold handleFrameWith handleFrame
  rw [readPayload_short hp]
  split
  · refine .bind _ fun st => ?_
    split
    · exact .of_eq rfl
    · exact data
  split
  · refine .bind _ fun b => ?_
    split
    · exact data
    · exact .of_eq rfl
  split
  · refine .bind _ fun b => ?_
    split
    · exact data
    · exact .of_eq rfl
  split
  · exact .bind _ fun _ => hc _
  split
  · exact .bind _ fun _ => hc _
  split
  · exact .bind _ fun _ => hc _
  · exact .of_eq rfl

theorem iterate_extends (hp : Plain env call) (hc : ∀ mk, Extends D env (call mk) (liftSock (callListener env mk))) (h : Header) : Extends D env (iterateWith env call h) (OatWS.iterateFrame env h) := by
  unfold iterateWith OatWS.iterateFrame
  exact .bind _ fun h' => .map (fun _ => h') (handleFrame_extends hp hc h')

/-- A frame and then some actions are actions, whatever the header object contained. -/
theorem frame_acts (env : Env) (st : St) (h : Header) (acts : List (Action × Bool)) :
    mapR (fun _ => ()) ((do let a ← OatWS.iterateFrame env h; inTurn env acts; pure a : P St Header) st) = inTurn env ((.frame, false) :: acts) st := by
  show _ = match (do let _ ← OatWS.iterateFrame env default : P St Unit) st with
    | (.ret _, st') => inTurn env acts st'
    | (.throw e, st') => if false then inTurn env acts st' else (.throw e, st')
    | r => r
  rw [bind_eq, bind_eq]
  obtain ⟨h1, h2⟩ := C43_iterateFrame env h default st
  rcases hr' : OatWS.iterateFrame env h st with ⟨r', s'⟩
  rcases hr : OatWS.iterateFrame env default st with ⟨r, s⟩
  rw [hr, hr'] at h1 h2
  dsimp only at h1 h2
  subst h1 h2
  cases r with
  | ret a =>
    show mapR _ ((inTurn env acts >>= fun _ => pure _) s') = inTurn env acts s'
    rw [bind_eq]
    rcases inTurn env acts s' with ⟨r1, s1⟩
    cases r1 <;> rfl
  | _ => rfl

theorem op_acts (env : Env) (u : UserOp) (hu : D (.op u)) : Acts D env (liftSock (runUserOp env u)) := by
  intro st
  refine ⟨[(.op u, false)], (fun a h => by rw [List.mem_singleton.mp h]; exact hu), ?_⟩
  show Same _ (match liftSock (runUserOp env u) st with
    | (.ret _, st') => inTurn env [] st'
    | (.throw e, st') => if false then inTurn env [] st' else (.throw e, st')
    | r => r)
  rcases liftSock (runUserOp env u) st with ⟨r, s⟩
  cases r <;> exact Same.refl _

/-- Exceptions that are caught. -/
theorem caught_acts {st : St} {acts : List (Action × Bool)} {r : Exit Unit × St} (hd : ∀ a ∈ acts, D a.1) (h : Same r (inTurn env acts st)) : ∃ acts', (∀ a ∈ acts', D a.1) ∧ Same (match r with
    | (.throw _, st') => (.ret (), st')
    | r => r) (inTurn env acts' st) := by
  obtain ⟨r, s⟩ := r
  obtain ⟨h1, h2⟩ := h
  cases r with
  | throw e =>
    rcases h2 with h2 | h2
    · obtain ⟨acts', hd', h'⟩ := inTurn_caught env acts st e s (Prod.ext h2.symm h1.symm) hd
      exact ⟨acts', hd', by rw [h']; exact Same.refl _⟩
    · cases h2
  | ret a => exact ⟨acts, hd, h1, h2⟩
  | block => exact ⟨acts, hd, h1, h2⟩
  | ub u => exact ⟨acts, hd, h1, h2⟩

/-- First actions, then, if they return, others. -/
theorem then_acts {st : St} {acts : List (Action × Bool)} {r : Exit Unit × St} (hd : ∀ a ∈ acts, D a.1) (h : Same r (inTurn env acts st)) {k : P St Unit} (hk : Acts D env k) : ∃ acts', (∀ a ∈ acts', D a.1) ∧ Same (match r with
    | (.ret _, st') => k st'
    | r => r) (inTurn env acts' st) := by
  obtain ⟨r, s⟩ := r
  obtain ⟨h1, h2⟩ := h
  cases r with
  | ret a =>
    rcases h2 with h2 | h2
    · obtain ⟨acts', hd', h'⟩ := hk s
      refine ⟨acts ++ acts', fun a h => (List.mem_append.mp h).elim (hd a) (hd' a), ?_⟩
      rw [inTurn_append, show inTurn env acts st = (.ret (), s) from Prod.ext h2.symm h1.symm]
      exact h'
    · cases h2
  | throw e => exact ⟨acts, hd, h1, h2⟩
  | block => exact ⟨acts, hd, h1, h2⟩
  | ub u => exact ⟨acts, hd, h1, h2⟩

theorem listenLoop_acts (hf : D .frame) (hi : ∀ h, Extends D env (iterateWith env call h) (OatWS.iterateFrame env h)) (fuel : Nat) (h : Header) : Acts D env (listenLoopWith env call fuel h) := by
  induction fuel generalizing h with
  | zero => exact fun st => ⟨[], (fun _ h => absurd h List.not_mem_nil), rfl, .inr rfl⟩
  | succ fuel ih =>
    intro st
    obtain ⟨acts, hd, ha⟩ := hi h st
    have hd' : ∀ a ∈ ((Action.frame, false) :: acts), D a.1 := fun a h => (List.mem_cons.mp h).elim (fun e => e ▸ hf) (hd a)
    have ha := ha.map fun _ => ()
    rw [frame_acts] at ha
    unfold listenLoopWith
    rcases hr : iterateWith env call h st with ⟨r, s⟩
    rw [hr] at ha
    cases r with
    | ret h' =>
      have : Acts D env (fun st' => if h'.opcode ≠ OPCODE_CLOSE ∧ st'.sock.listening then listenLoopWith env call fuel h' st' else (.ret (), st')) := by
        intro st'
        dsimp only
        split
        · exact ih h' st'
        · exact ⟨[], (fun _ h => absurd h List.not_mem_nil), Same.refl _⟩
      exact then_acts hd' ha this
    | throw e => exact ⟨_, hd', ha⟩
    | block => exact ⟨_, hd', ha⟩
    | ub u => exact ⟨_, hd', ha⟩

theorem listen_acts (hf : D .frame) (hi : ∀ h, Extends D env (iterateWith env call h) (OatWS.iterateFrame env h)) (h : Header) (st : St) : ∃ acts, (∀ a ∈ acts, D a.1) ∧ Same (listenWith env call h st) (inTurn env ((.start, false) :: acts) st) := by
  obtain ⟨acts, hd, ha⟩ := listenLoop_acts hf hi (st.inp.sched.length + 1) h { st with sock := { st.sock with listening := true } }
  obtain ⟨acts', hd', ha'⟩ := caught_acts hd ha
  exact ⟨acts', hd', ha'⟩

theorem nested_acts (hf : D .frame) (hi : ∀ h, Extends D env (iterateWith env call h) (OatWS.iterateFrame env h)) (op : NestedOp) (ho : ∀ u, op = .op u → D (.op u)) (hl : op = .listen → D .start) : Acts D env (nestedWith env call op) := by
  cases op with
  | op u => exact op_acts env u (ho u rfl)
  | iterate catches =>
    intro st
    obtain ⟨acts, hd, ha⟩ := hi default st
    have hd' : ∀ a ∈ ((Action.frame, false) :: acts), D a.1 := fun a h => (List.mem_cons.mp h).elim (fun e => e ▸ hf) (hd a)
    have ha := ha.map fun _ => ()
    rw [frame_acts] at ha
    obtain ⟨acts', hd'', ha'⟩ := caught_acts hd' ha
    unfold nestedWith
    dsimp only
    rcases hr : iterateWith env call default st with ⟨r, s⟩
    rw [hr] at ha ha'
    cases r with
    | ret h' => exact ⟨_, hd', ha⟩
    | throw e =>
      cases catches with
      | true => exact ⟨acts', hd'', ha'⟩
      | false => exact ⟨_, hd', ha⟩
    | block => exact ⟨_, hd', ha⟩
    | ub u => exact ⟨_, hd', ha⟩
  | listen =>
    intro st
    obtain ⟨acts, hd, ha⟩ := listen_acts hf hi default st
    exact ⟨_, fun a h => (List.mem_cons.mp h).elim (fun e => e ▸ hl rfl) (hd a), ha⟩

theorem more_acts (c : Code) (hi : ∀ h, Extends c.Does c.env (iterateWith c.env call h) (OatWS.iterateFrame c.env h)) (tr : List Event) (steps i : Nat) : Acts c.Does c.env (moreWith c call tr steps i) := by
  induction steps generalizing i with
  | zero =>
    intro st
    unfold moreWith
    split
    · exact ⟨[], (fun _ h => absurd h List.not_mem_nil), Same.refl _⟩
    · exact ⟨[], (fun _ h => absurd h List.not_mem_nil), rfl, .inr rfl⟩
  | succ steps ih =>
    intro st
    unfold moreWith
    split
    · exact ⟨[], (fun _ h => absurd h List.not_mem_nil), Same.refl _⟩
    · rename_i op hop
      obtain ⟨acts, hd, ha⟩ := nested_acts (D := c.Does) trivial hi op (fun u hu => ⟨_, _, _, hu ▸ hop⟩) (fun hu => ⟨_, _, _, hu ▸ hop⟩) st
      obtain ⟨acts', hd', ha'⟩ := then_acts hd ha (ih (i + 1))
      exact ⟨acts', hd', ha'⟩

/-- A callback that goes on after `callListener`. -/
theorem call_extends {mk : Nat → Event} {more : List Event → P St Unit} (hm : ∀ tr, Acts D env (more tr)) : Extends D env (fun st => match st.sock.listener with
    | none => (.ret (), st)
    | some l =>
      match liftSock (callListener env mk) st with
      | (.ret _, st') => more (st.sock.trace ++ [mk l]) st'
      | r => r) (liftSock (callListener env mk)) := by
  intro st
  dsimp only
  split
  · rename_i hl
    refine ⟨[], (fun _ h => absurd h List.not_mem_nil), ?_⟩
    rw [bind_eq]
    unfold liftSock callListener
    rw [hl]
    exact Same.refl _
  · rename_i l hl
    rcases he : liftSock (callListener env mk) st with ⟨r, s⟩
    cases r with
    | ret a =>
      obtain ⟨acts, hd, ha⟩ := hm (st.sock.trace ++ [mk l]) s
      refine ⟨acts, hd, ?_⟩
      have e : (do let a ← liftSock (callListener env mk); inTurn env acts; pure a : P St Unit) st = inTurn env acts s := by
        rw [bind_eq, he]
        show (inTurn env acts >>= fun _ => pure ()) s = _
        rw [bind_eq]
        rcases inTurn env acts s with ⟨r1, s1⟩
        cases r1 <;> rfl
      rw [e]
      exact ha
    | throw e => exact ⟨[], (fun _ h => absurd h List.not_mem_nil), by rw [bind_eq, he]; exact Same.refl _⟩
    | block => exact ⟨[], (fun _ h => absurd h List.not_mem_nil), by rw [bind_eq, he]; exact Same.refl _⟩
    | ub u => exact ⟨[], (fun _ h => absurd h List.not_mem_nil), by rw [bind_eq, he]; exact Same.refl _⟩

theorem callback_plain {c : Code} (hb : c.BetweenFrames) (steps depth : Nat) : Plain c.env (callback c steps depth) := by
  intro op x d st
  have key : ∀ more : List Event → P St Unit, (∀ l s, more (st.sock.trace ++ [.readMessage l op (x :: d)]) s = (.ret (), s)) → (match st.sock.listener with
    | none => (.ret (), st)
    | some l =>
      match liftSock (callListener c.env fun l => .readMessage l op (x :: d)) st with
      | (.ret _, st') => more (st.sock.trace ++ [.readMessage l op (x :: d)]) st'
      | r => r) = liftSock (callListener c.env fun l => .readMessage l op (x :: d)) st := by
    intro more hm
    split
    · rename_i hl
      unfold liftSock callListener
      rw [hl]
    · rcases liftSock (callListener c.env fun l => .readMessage l op (x :: d)) st with ⟨r, s⟩
      cases r with
      | ret a => exact hm _ s
      | _ => rfl
  cases depth with
  | zero =>
    refine key (fun tr => moreWith c _ tr 0 0) fun l s => ?_
    show (if (c.next (st.sock.trace ++ [.readMessage l op (x :: d)]) 0 s.sock.trace).isNone then (Exit.ret (), s) else (.block, s)) = _
    rw [hb]
    rfl
  | succ depth =>
    refine key (fun tr => moreWith c _ tr steps 0) fun l s => ?_
    cases steps <;> unfold moreWith <;> rw [hb] <;> rfl

theorem callback_extends {c : Code} (hb : c.BetweenFrames) (steps depth : Nat) : ∀ mk, Extends c.Does c.env (callback c steps depth mk) (liftSock (callListener c.env mk)) := by
  induction depth with
  | zero =>
    intro mk
    refine call_extends (more := fun tr => moreWith c (fun _ st => (.block, st)) tr 0 0) fun tr st => ?_
    show ∃ acts : List (Action × Bool), (∀ a ∈ acts, c.Does a.1) ∧ Same (if (c.next tr 0 st.sock.trace).isNone then (Exit.ret (), st) else (.block, st)) _
    split
    · exact ⟨[], (fun _ h => absurd h List.not_mem_nil), Same.refl _⟩
    · exact ⟨[], (fun _ h => absurd h List.not_mem_nil), rfl, .inr rfl⟩
  | succ depth ih =>
    intro mk
    exact call_extends (more := fun tr => moreWith c (callback c steps depth) tr steps 0) fun tr => more_acts c (iterate_extends (callback_plain hb steps depth) ih) tr steps 0

end OatWS.Reentrant
