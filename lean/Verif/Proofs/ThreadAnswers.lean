import Verif.Proofs.SessionSays
import Verif.Proofs.Link
/-! What a listening thread calls in its callbacks, at any moment, whatever fails. -/

namespace OatWS.Threads
open RFC6455 Async Prog

/-- `p`: the sends that the code will still call before the next callback or read. `K` on return, `E` when an exception is thrown. -/
def Owes (env : Env) {α : Type} : Prog α → List SendCall → (α → List SendCall → Prop) → (List SendCall → Prop) → Prop
  | .ret a, p, K, _ => K a p
  | .throw _, p, _, E => E p
  | .act (.call c) k, p, K, E => ∃ p', p = c :: p' ∧ Owes env (k ()) p' K E
  | .act (.callback _) k, p, K, E => p = [] ∧ ∀ tr, Owes env (k tr) (said (env.react tr)) K E
  | .act (.read n) k, p, K, E => p = [] ∧ ∀ r : (Act.read n).Res, Owes env (k r) [] K E
  | .act a k, p, K, E => ∀ r : a.Res, Owes env (k r) p K E
  | _, _, _, _ => True

variable {env : Env} {α β : Type}

theorem Owes.andThen {q : Prog α} {f : α → Prog β} {p K E} (h : Owes env q p (fun a p => Owes env (f a) p K E) E) : Owes env (Prog.andThen q f) p K E := by
  induction q generalizing p with
  | ret a => exact h
  | throw e => exact h
  | act a k ih =>
    cases a with
    | call c => obtain ⟨p', rfl, h⟩ := h; exact ⟨p', rfl, ih () h⟩
    | callback e => exact ⟨h.1, fun tr => ih tr (h.2 tr)⟩
    | read n => exact ⟨h.1, fun r => ih r (h.2 r)⟩
    | _ => exact fun r => ih r (h r)
  | _ => trivial

theorem Owes.catching {q : Prog α} {f : Err → Prog α} {p K E} (h : Owes env q p K (fun p => ∀ e, Owes env (f e) p K E)) : Owes env (Prog.catching q f) p K E := by
  induction q generalizing p with
  | ret a => exact h
  | throw e => exact h e
  | act a k ih =>
    cases a with
    | call c => obtain ⟨p', rfl, h⟩ := h; exact ⟨p', rfl, ih () h⟩
    | callback e => exact ⟨h.1, fun tr => ih tr (h.2 tr)⟩
    | read n => exact ⟨h.1, fun r => ih r (h.2 r)⟩
    | _ => exact fun r => ih r (h r)
  | _ => trivial

theorem Owes.mono {q : Prog α} {p K K' E E'} (h : Owes env q p K E) (hk : ∀ a p, K a p → K' a p) (he : ∀ p, E p → E' p) : Owes env q p K' E' := by
  induction q generalizing p with
  | ret a => exact hk _ _ h
  | throw e => exact he _ h
  | act a k ih =>
    cases a with
    | call c => obtain ⟨p', rfl, h⟩ := h; exact ⟨p', rfl, ih () h⟩
    | callback e => exact ⟨h.1, fun tr => ih tr (h.2 tr)⟩
    | read n => exact ⟨h.1, fun r => ih r (h.2 r)⟩
    | _ => exact fun r => ih r (h r)
  | _ => trivial

theorem Silent.owes {q : Prog α} (h : Silent q) {p K E} (hk : ∀ a, K a p) (he : E p) : Owes env q p K E := by
  induction q with
  | ret a => exact hk a
  | throw e => exact he
  | act a k ih =>
    cases a with
    | call c => exact h.elim
    | callback e => exact h.elim
    | returned b => exact h.elim
    | read n => exact h.elim
    | _ => exact fun r => ih r (h r)
  | _ => trivial

theorem owes_userSend (fuel : Nat) (c : SendCall) (catches : Bool) {p K E} (hk : K () p) (he : catches = false → E p) : Owes env (userSendT env fuel c catches) (c :: p) K E := by
  refine ⟨p, rfl, Owes.andThen (q := Prog.catching _ _) (Owes.catching (Owes.andThen ((silent_send env fuel c).owes (fun ok => fun _ => hk) fun e _ => ?_)))⟩
  dsimp only
  show Owes env (if catches = true then Prog.ret () else Prog.throw e) p K E
  split
  · exact hk
  · rename_i hc
    exact he (by cases catches with | false => rfl | true => exact absurd rfl hc)

theorem owes_userOps (fuel : Nat) (ops : List UserOp) : Owes env (userOpsT env fuel ops) (said ops) (fun _ p => p = []) (fun _ => ¬ ∀ op ∈ ops, op.calm) := by
  induction ops with
  | nil => exact rfl
  | cons op ops ih =>
    have ih' := ih.mono (E' := fun _ => ¬ ∀ o ∈ op :: ops, o.calm) (fun _ _ h => h) fun _ h h' => h fun o ho => h' o (List.mem_cons_of_mem _ ho)
    cases op with
    | stopListening => exact fun _ => ih'
    | setListener l => exact fun _ => ih'
    | setConfig c => exact fun _ => ih'
    | throw => exact fun h => h _ (List.mem_cons_self ..)
    | send c catches =>
      refine Owes.andThen (owes_userSend fuel c catches ih' fun hc h => ?_)
      subst hc
      have := h _ (List.mem_cons_self ..)
      exact absurd this.1 (by decide)

/-- Code that has nothing left to call whenever it reads, and when it returns. -/
def Clean (env : Env) {α : Type} (q : Prog α) : Prop := Owes env q [] (fun _ p => p = []) fun p => env.Calm → p = []

theorem Clean.andThen {q : Prog α} {f : α → Prog β} (h : Clean env q) (hf : ∀ a, Clean env (f a)) : Clean env (Prog.andThen q f) :=
  Owes.andThen (Owes.mono h (fun a p h => by rw [h]; exact hf a) fun _ h => h)

theorem Clean.ret {a : α} : Clean env (.ret a) := rfl
theorem Clean.throw {e : Err} : Clean env (.throw e : Prog α) := fun _ => rfl
theorem Clean.ub {u : UB} : Clean env (.ub u : Prog α) := trivial
theorem Clean.stuck : Clean env (.stuck : Prog α) := trivial
theorem Clean.read {n : Nat} {k : ReadRes → Prog α} (h : ∀ r, Clean env (k r)) : Clean env (.act (.read n) k) := ⟨rfl, h⟩
theorem Clean.config {k : Config → Prog α} (h : ∀ r, Clean env (k r)) : Clean env (.act .getConfig k) := h
theorem Clean.opcode {k : Int → Prog α} (h : ∀ r, Clean env (k r)) : Clean env (.act .getLastOpcode k) := h
theorem Clean.setOpcode {v : Int} {k : Unit → Prog α} (h : ∀ r, Clean env (k r)) : Clean env (.act (.setLastOpcode v) k) := h
theorem Clean.listening {k : Bool → Prog α} (h : ∀ r, Clean env (k r)) : Clean env (.act .getListening k) := h

theorem clean_readExact (fuel n : Nat) (acc : List UInt8) : Clean env (readExactT fuel n acc) := by
  induction fuel generalizing n acc with
  | zero => cases n <;> first | exact .ret | exact .stuck
  | succ fuel ih =>
    cases n with
    | zero => exact .ret
    | succ n =>
      refine .read fun r => ?_
      cases r with
      | data bs => exact ih _ _
      | retry => exact ih _ _
      | zero => exact .ret
      | broken => exact .ret

theorem clean_readLength (fuel : Nat) (x : UInt8) : Clean env (readLengthT env fuel x) := by
  unfold readLengthT
  split
  · exact .ret
  · split
    · refine (clean_readExact _ _ _).andThen fun bs => ?_
      try dsimp only
      split
      · exact .ret
      · exact .throw
    · refine (clean_readExact _ _ _).andThen fun bs => ?_
      try dsimp only
      split
      · exact .ret
      · exact .throw

theorem clean_readFrameHeader (fuel : Nat) (h : Header) : Clean env (readFrameHeaderT env fuel h) := by
  refine (clean_readExact _ _ _).andThen fun bs => ?_
  try dsimp only
  split
  · refine (clean_readLength _ _).andThen fun len => ?_
    try dsimp only
    split
    · refine (clean_readExact _ _ _).andThen fun ms => ?_
      try dsimp only
      split
      · exact .ret
      · exact .throw
    · exact .ret
  · exact .throw

theorem clean_callListener (fuel : Nat) (mk : Nat → Event) : Clean env (callListenerT env fuel mk) := by
  intro (l : Option Nat)
  cases l with
  | none => exact rfl
  | some l => exact ⟨rfl, fun tr => (owes_userOps fuel _).mono (fun _ _ h => h) fun _ h hc => absurd (hc _) h⟩

theorem clean_readPayloadLoop (fuel : Nat) (h : Header) (short : Bool) (cap n : Nat) (progress : Int) (acc : List UInt8) :
    Clean env (readPayloadLoopT env fuel h short cap n progress acc) := by
  induction n generalizing progress acc with
  | zero => unfold readPayloadLoopT; split <;> first | exact .stuck | exact .ret
  | succ n ih =>
    unfold readPayloadLoopT
    split
    · refine .config fun c => ?_
      try dsimp only
      generalize (if c.readBufferSize > h.payloadLength - progress then h.payloadLength - progress else c.readBufferSize) = want
      split
      · exact .read fun _ => .ub
      · refine .read fun r => ?_
        cases r with
        | data bs =>
          try dsimp only
          split
          · exact .ub
          · split
            · exact ih _ _
            · exact (clean_callListener  _ _).andThen fun _ => ih _ _
        | retry => exact ih _ _
        | zero => exact .throw
        | broken => exact .throw
    · exact .ret

theorem clean_readPayload (fuel : Nat) (h : Header) (short : Bool) : Clean env (readPayloadT env fuel h short) := by
  unfold readPayloadT
  split
  · exact .throw
  · refine .config fun c => ?_
    try dsimp only
    split
    · exact .throw
    · refine (clean_readPayloadLoop  _ _ _ _ _ _ _).andThen fun _ => Clean.andThen ?_ fun _ => .ret
      unfold endMarkerT
      split
      · exact clean_callListener  _ _
      · exact .ret

theorem clean_check (h : Header) : Clean env (checkForContinuationT h) := by
  refine .opcode fun v => ?_
  try dsimp only
  split
  · exact .ret
  · split
    · exact .setOpcode fun _ => .ret
    · exact .setOpcode fun _ => .ret

theorem clean_handleFrame (fuel : Nat) (h : Header) : Clean env (handleFrameT env fuel h) := by
  unfold handleFrameT
  split
  · refine .opcode fun v => ?_
    try dsimp only
    split
    · exact .throw
    · exact (clean_readPayload  _ _ _).andThen fun _ => .ret
  · split
    · refine (clean_check h).andThen fun ok => ?_
      cases ok
      · exact .throw
      · exact (clean_readPayload  _ _ _).andThen fun _ => .ret
    · split
      · refine (clean_check h).andThen fun ok => ?_
        cases ok
        · exact .throw
        · exact (clean_readPayload  _ _ _).andThen fun _ => .ret
      · split
        · exact (clean_readPayload  _ _ _).andThen fun _ => clean_callListener  _ _
        · split
          · exact (clean_readPayload  _ _ _).andThen fun _ => clean_callListener  _ _
          · split
            · exact (clean_readPayload  _ _ _).andThen fun _ => clean_callListener  _ _
            · exact .throw

theorem clean_listenLoop (fuel n : Nat) (h : Header) : Clean env (listenLoopT env fuel n h) := by
  induction n generalizing h with
  | zero => exact .stuck
  | succ n ih =>
    refine Clean.andThen ((clean_readFrameHeader _ _).andThen fun h' => (clean_handleFrame  _ _).andThen fun _ => .ret) fun h' => ?_
    try dsimp only
    split
    · refine .listening fun b => ?_
      cases b
      · exact .ret
      · exact ih h'
    · exact .ret

theorem clean_listen (fuel : Nat) (h : Header) : Owes env (listenT env fuel h) [] (fun _ p => env.Calm → p = []) (fun _ => True) := by
  refine Owes.catching fun _ => ?_
  exact (clean_listenLoop fuel fuel h).mono (fun _ _ h _ => h) fun _ h _ => h

theorem silent_userOps (fuel : Nat) (ops : List UserOp) (h : said ops = []) (p : List SendCall) (K : List SendCall → Prop) (hK : K p) :
    Owes env (userOpsT env fuel ops) p (fun _ p => K p) (fun _ => True) := by
  induction ops with
  | nil => exact hK
  | cons op ops ih =>
    cases op with
    | stopListening => exact fun _ => ih h
    | setListener l => exact fun _ => ih h
    | setConfig c => exact fun _ => ih h
    | throw => trivial
    | send c catches => cases h

theorem clean_session (fuel : Nat) (created destroyed : List UserOp) (h : Header) (hd : said destroyed = []) :
    Owes env (sessionT env fuel created h destroyed) (said created) (fun _ p => env.Calm → p = []) (fun _ => True) := by
  refine Owes.andThen ((owes_userOps fuel created).mono (fun _ p hp => ?_) fun _ _ => trivial)
  subst hp
  exact Owes.andThen ((clean_listen fuel h).mono (fun _ p hp => silent_userOps fuel destroyed hd p _ hp) fun _ _ => trivial)

/-- What the first thread has called, at any moment. -/
def Replies (env : Env) (pre : List SendCall) (tr0 evs : List Event) (cs : List SendCall) (q : Prog Unit) : Prop := ∃ p, cs ++ p = pre ++ replies env tr0 evs ∧ Owes env q p (fun _ p => env.Calm → p = []) fun _ => True

theorem Fed.replying {p q : Pool} {log fed} (h : Fed env p log fed q) {t0 : Prog Unit} {others : List (Prog Unit)} (hts : p.threads = t0 :: others) {pre : List SendCall} (h0 : Replies env pre p.st.sock.trace [] [] t0)
    (hoth : ∀ o ∈ others, NoCallback o) :
    ∃ evs t others', q.st.sock.trace = p.st.sock.trace ++ evs ∧ q.threads = t :: others' ∧ Replies env pre p.st.sock.trace evs (callsOf (log.filter fun e => e.task == 0)) t ∧
      ∀ o ∈ others', NoCallback o := by
  induction h with
  | refl => exact ⟨[], t0, others, (List.append_nil _).symm, hts, h0, hoth⟩
  | @own log fed q i a k r st' _ h1 h2 h3 ih =>
    obtain ⟨evs, x, others', e1, e2, ⟨pend, e3, e4⟩, e5⟩ := ih
    rw [List.filter_append]
    rw [e2] at h1
    cases i with
    | zero =>
      simp only [List.getElem?_cons_zero, Option.some.injEq] at h1
      subst h1
      have hfil : [entry 0 a q.st st'].filter (fun e => e.task == 0) = [entry 0 a q.st st'] := rfl
      have hc : callsOf (log.filter (fun e => e.task == 0) ++ [entry 0 a q.st st']) = callsOf (log.filter fun e => e.task == 0) ++ a.called.toList := by
        unfold callsOf
        rw [List.filterMap_append]
        cases a <;> rfl
      rw [hfil, hc]
      cases a with
      | call c =>
        injection h3 with h3
        injection h3 with _ h3
        subst h3
        obtain ⟨p', rfl, e4⟩ := e4
        exact ⟨evs, k r, others', e1, by dsimp only; rw [e2]; rfl, ⟨p', by rw [← e3]; simp [Act.called], e4⟩, e5⟩
      | callback e =>
        injection h3 with h3
        injection h3 with h1 h3
        subst h3
        subst h1
        obtain ⟨rfl, e4⟩ := e4
        refine ⟨evs ++ [e], _, others', ?_, by dsimp only; rw [e2]; rfl, ⟨_, ?_, e4 _⟩, e5⟩
        · show q.st.sock.trace ++ [e] = _
          rw [e1, List.append_assoc]
        · rw [replies_snoc, ← List.append_assoc, ← e3, ← e1]
          simp [Act.called]
      | read n =>
        obtain ⟨rfl, e4⟩ := e4
        exact ⟨evs, k r, others', by rw [exec_trace h3 (by nofun)]; exact e1, by dsimp only; rw [e2]; rfl, ⟨[], by rw [← e3]; simp [Act.called], e4 r⟩, e5⟩
      | _ => exact ⟨evs, k r, others', by rw [exec_trace h3 (by nofun)]; exact e1, by dsimp only; rw [e2]; rfl, ⟨pend, by rw [← e3]; simp [Act.called], e4 r⟩, e5⟩
    | succ i =>
      have h1 : others'[i]? = some (.act a k) := h1
      have hm := e5 _ (List.mem_of_getElem? h1)
      have hnc : ∀ e, a ≠ .callback e := by
        rintro e rfl
        exact hm
      refine ⟨evs, x, others'.set i (k r), by rw [exec_trace h3 hnc]; exact e1, by dsimp only; rw [e2]; rfl, ⟨pend, ?_, e4⟩, fun o ho => ?_⟩
      · rw [show [entry (i + 1) a q.st st'].filter (fun e => e.task == 0) = [] from rfl, List.append_nil]
        exact e3
      · rcases List.mem_or_eq_of_mem_set ho with h | rfl
        · exact e5 o h
        · cases a with
          | callback e => exact hm.elim
          | _ => exact hm r
  | feed bs _ ih => exact ih

end OatWS.Threads
