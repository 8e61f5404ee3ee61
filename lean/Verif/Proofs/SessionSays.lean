import Verif.Proofs.ThreadSession
/-! What is said in a session. -/

namespace OatWS

theorem replies_snoc (env : Env) (tr evs : List Event) (e : Event) : replies env tr (evs ++ [e]) = replies env tr evs ++ said (env.react (tr ++ evs ++ [e])) := by
  induction evs generalizing tr with
  | nil => simp [replies]
  | cons x evs ih => simp [replies, ih, List.append_assoc]

end OatWS

namespace OatWS.Threads
open RFC6455 Async Prog

/-- `tr`: the callbacks so far, `cs`: the sends called so far. If no send fails: `R` holds at each read, `K` on return, `E` when an exception is thrown. -/
def Saying (R : List Event → List SendCall → Prop) {α : Type} : Prog α → List Event → List SendCall → (α → List Event → List SendCall → Prop) → (List Event → List SendCall → Prop) → Prop
  | .ret a, tr, cs, K, _ => K a tr cs
  | .throw _, tr, cs, _, E => E tr cs
  | .act (.call c) k, tr, cs, K, E => Saying R (k ()) tr (cs ++ [c]) K E
  | .act (.callback e) k, tr, cs, K, E => Saying R (k (tr ++ [e])) (tr ++ [e]) cs K E
  | .act (.returned b) k, tr, cs, K, E => b = true → Saying R (k ()) tr cs K E
  | .act (.read n) k, tr, cs, K, E => R tr cs ∧ ∀ r : (Act.read n).Res, Saying R (k r) tr cs K E
  | .act a k, tr, cs, K, E => ∀ r : a.Res, Saying R (k r) tr cs K E
  | _, _, _, _, _ => True

variable {R : List Event → List SendCall → Prop} {α β : Type}

theorem Saying.andThen {q : Prog α} {f : α → Prog β} {tr cs K E} (h : Saying R q tr cs (fun a tr cs => Saying R (f a) tr cs K E) E) : Saying R (Prog.andThen q f) tr cs K E := by
  induction q generalizing tr cs with
  | ret a => exact h
  | throw e => exact h
  | act a k ih =>
    cases a with
    | call c => exact ih () h
    | callback e => exact ih _ h
    | returned b => exact fun hb => ih () (h hb)
    | read n => exact ⟨h.1, fun r => ih r (h.2 r)⟩
    | _ => exact fun r => ih r (h r)
  | _ => trivial

theorem Saying.catching {q : Prog α} {f : Err → Prog α} {tr cs K E} (h : Saying R q tr cs K (fun tr cs => ∀ e, Saying R (f e) tr cs K E)) : Saying R (Prog.catching q f) tr cs K E := by
  induction q generalizing tr cs with
  | ret a => exact h
  | throw e => exact h e
  | act a k ih =>
    cases a with
    | call c => exact ih () h
    | callback e => exact ih _ h
    | returned b => exact fun hb => ih () (h hb)
    | read n => exact ⟨h.1, fun r => ih r (h.2 r)⟩
    | _ => exact fun r => ih r (h r)
  | _ => trivial

theorem Saying.mono {q : Prog α} {tr cs K K' E E'} (h : Saying R q tr cs K E) (hk : ∀ a tr cs, K a tr cs → K' a tr cs) (he : ∀ tr cs, E tr cs → E' tr cs) : Saying R q tr cs K' E' := by
  induction q generalizing tr cs with
  | ret a => exact hk _ _ _ h
  | throw e => exact he _ _ h
  | act a k ih =>
    cases a with
    | call c => exact ih () h
    | callback e => exact ih _ h
    | returned b => exact fun hb => ih () (h hb)
    | read n => exact ⟨h.1, fun r => ih r (h.2 r)⟩
    | _ => exact fun r => ih r (h r)
  | _ => trivial

/-- Code that neither reads nor calls. -/
def Silent {α : Type} : Prog α → Prop
  | .act (.call _) _ => False
  | .act (.callback _) _ => False
  | .act (.returned _) _ => False
  | .act (.read _) _ => False
  | .act a k => ∀ r : a.Res, Silent (k r)
  | _ => True

theorem Silent.saying {q : Prog α} (h : Silent q) {tr cs K E} (hk : ∀ a, K a tr cs) (he : E tr cs) : Saying R q tr cs K E := by
  induction q with
  | ret a => exact hk a
  | throw e => exact he
  | act a k ih =>
    cases a with
    | call c => exact h.elim
    | callback e => exact h.elim
    | returned b => exact h.elim
    | read n => exact h.elim
    | _ => exact fun r => ih r (h r)
  | _ => trivial

theorem Silent.andThen {q : Prog α} {f : α → Prog β} (h : Silent q) (hf : ∀ a, Silent (f a)) : Silent (Prog.andThen q f) := by
  induction q with
  | ret a => exact hf a
  | act a k ih =>
    cases a with
    | call c => exact h.elim
    | callback e => exact h.elim
    | returned b => exact h.elim
    | read n => exact h.elim
    | _ => exact fun r => ih r (h r)
  | _ => trivial

theorem silent_writeExact (fuel : Nat) (d : List UInt8) (n : Nat) : Silent (writeExactT fuel d n) := by
  induction fuel generalizing d n with
  | zero => cases d <;> trivial
  | succ fuel ih =>
    cases d with
    | nil => trivial
    | cons b bs =>
      intro r
      cases r with
      | wrote k => exact ih _ _
      | retry => exact ih _ _
      | zero => trivial
      | broken => trivial

theorem silent_writeExpect (fuel : Nat) (d : List UInt8) (n : Nat) (e : Err) : Silent (writeExpectT fuel d n e) := by
  refine (silent_writeExact _ _ _).andThen fun r => ?_
  split <;> trivial

theorem silent_writeFrameHeader (env : Env) (fuel : Nat) (h : Header) : Silent (writeFrameHeaderT env fuel h) := by
  refine (silent_writeExpect _ _ _ _).andThen fun _ => Silent.andThen ?_ fun _ => ?_
  · unfold writeLengthT
    split
    · exact silent_writeExpect _ _ _ _
    · split
      · exact silent_writeExpect _ _ _ _
      · trivial
  · unfold writeMaskT
    split
    · exact silent_writeExpect _ _ _ _
    · trivial

theorem silent_sendFrameHeader (env : Env) (fuel : Nat) (h : Header) (fin : Bool) (op : UInt8) (n : Int) : Silent (sendFrameHeaderT env fuel h fin op n) := by
  intro (c : Config)
  try dsimp only
  split
  · exact fun _ => (silent_writeFrameHeader _ _ _).andThen fun _ => trivial
  · exact (silent_writeFrameHeader _ _ _).andThen fun _ => trivial

theorem silent_sendOneFrame (env : Env) (fuel : Nat) (fin : Bool) (op : UInt8) (msg : Option (List UInt8)) : Silent (sendOneFrameT env fuel fin op msg) := by
  unfold sendOneFrameT
  split
  · refine (silent_sendFrameHeader _ _ _ _ _ _).andThen fun h => ?_
    try dsimp only
    split
    · split
      · trivial
      · exact (silent_writeExact _ _ _).andThen fun _ => trivial
    · exact (silent_writeExact _ _ _).andThen fun _ => trivial
  · exact (silent_sendFrameHeader _ _ _ _ _ _).andThen fun _ => trivial

theorem silent_sendOrStop (env : Env) (fuel : Nat) (op : UInt8) (msg : Option (List UInt8)) : Silent (sendOrStopT env fuel op msg) := by
  refine (silent_sendOneFrame _ _ _ _ _).andThen fun ok => ?_
  cases ok
  · exact fun _ => trivial
  · trivial

theorem silent_send (env : Env) (fuel : Nat) (c : SendCall) : Silent (sendT env fuel c) := by
  cases c with
  | oneFrame fin op msg => exact silent_sendOneFrame _ _ _ _ _
  | _ => exact silent_sendOrStop _ _ _ _

theorem saying_userSend (env : Env) (fuel : Nat) (c : SendCall) (catches : Bool) {tr cs K E} (hk : K () tr (cs ++ [c])) : Saying R (userSendT env fuel c catches) tr cs K E := by
  refine Saying.andThen (q := Prog.catching _ _) (Saying.catching (Saying.andThen ((silent_send env fuel c).saying (fun ok => ?_) (fun e hb => by cases hb))))
  intro hb
  exact hk

theorem saying_userOps (env : Env) (fuel : Nat) (ops : List UserOp) {tr cs K E} (hk : K () tr (cs ++ said ops)) (he : E tr (cs ++ said ops)) : Saying R (userOpsT env fuel ops) tr cs K E := by
  induction ops generalizing cs with
  | nil => rw [said, List.append_nil] at hk; exact hk
  | cons op ops ih =>
    cases op with
    | stopListening => exact fun _ => ih hk he
    | setListener l => exact fun _ => ih hk he
    | setConfig c => exact fun _ => ih hk he
    | throw => rw [said, List.append_nil] at he; exact he
    | send c catches =>
      rw [said, List.append_cons] at hk he
      exact Saying.andThen (saying_userSend env fuel c catches (ih hk he))

/-- Code that leaves `R` true whenever it reads, and when it is over. -/
def Keeps (R : List Event → List SendCall → Prop) {α : Type} (q : Prog α) : Prop := ∀ tr cs, R tr cs → Saying R q tr cs (fun _ => R) R

theorem Keeps.andThen {q : Prog α} {f : α → Prog β} (h : Keeps R q) (hf : ∀ a, Keeps R (f a)) : Keeps R (Prog.andThen q f) :=
  fun tr cs hr => Saying.andThen ((h tr cs hr).mono (fun a tr cs h => hf a tr cs h) fun _ _ h => h)

theorem Keeps.ret {a : α} : Keeps R (.ret a) := fun _ _ h => h
theorem Keeps.throw {e : Err} : Keeps R (.throw e : Prog α) := fun _ _ h => h
theorem Keeps.ub {u : UB} : Keeps R (.ub u : Prog α) := fun _ _ _ => trivial
theorem Keeps.stuck : Keeps R (.stuck : Prog α) := fun _ _ _ => trivial
theorem Keeps.read {n : Nat} {k : ReadRes → Prog α} (h : ∀ r, Keeps R (k r)) : Keeps R (.act (.read n) k) := fun tr cs hr => ⟨hr, fun r => h r tr cs hr⟩
theorem Keeps.config {k : Config → Prog α} (h : ∀ r, Keeps R (k r)) : Keeps R (.act .getConfig k) := fun tr cs hr r => h r tr cs hr
theorem Keeps.opcode {k : Int → Prog α} (h : ∀ r, Keeps R (k r)) : Keeps R (.act .getLastOpcode k) := fun tr cs hr r => h r tr cs hr
theorem Keeps.setOpcode {v : Int} {k : Unit → Prog α} (h : ∀ r, Keeps R (k r)) : Keeps R (.act (.setLastOpcode v) k) := fun tr cs hr r => h r tr cs hr
theorem Keeps.listening {k : Bool → Prog α} (h : ∀ r, Keeps R (k r)) : Keeps R (.act .getListening k) := fun tr cs hr r => h r tr cs hr

theorem keeps_readExact (fuel n : Nat) (acc : List UInt8) : Keeps R (readExactT fuel n acc) := by
  induction fuel generalizing n acc with
  | zero => cases n <;> first | exact .ret | exact .stuck
  | succ fuel ih =>
    cases n with
    | zero => exact .ret
    | succ n =>
      refine .read fun r => ?_
      cases r with
      | data bs => exact ih _ _
      | retry => exact ih _ _
      | zero => exact .ret
      | broken => exact .ret

theorem keeps_readLength (env : Env) (fuel : Nat) (x : UInt8) : Keeps R (readLengthT env fuel x) := by
  unfold readLengthT
  split
  · exact .ret
  · split
    · refine (keeps_readExact _ _ _).andThen fun bs => ?_
      try dsimp only
      split
      · exact .ret
      · exact .throw
    · refine (keeps_readExact _ _ _).andThen fun bs => ?_
      try dsimp only
      split
      · exact .ret
      · exact .throw

theorem keeps_readFrameHeader (env : Env) (fuel : Nat) (h : Header) : Keeps R (readFrameHeaderT env fuel h) := by
  refine (keeps_readExact _ _ _).andThen fun bs => ?_
  try dsimp only
  split
  · refine (keeps_readLength _ _ _).andThen fun len => ?_
    try dsimp only
    split
    · refine (keeps_readExact _ _ _).andThen fun ms => ?_
      try dsimp only
      split
      · exact .ret
      · exact .throw
    · exact .ret
  · exact .throw

/-- Callbacks keep `R`. -/
def Answers (env : Env) (R : List Event → List SendCall → Prop) : Prop := ∀ tr cs e, R tr cs → R (tr ++ [e]) (cs ++ said (env.react (tr ++ [e])))

theorem keeps_callListener {env : Env} (hR : Answers env R) (fuel : Nat) (mk : Nat → Event) : Keeps R (callListenerT env fuel mk) := by
  intro tr cs h (l : Option Nat)
  cases l with
  | none => exact h
  | some l => exact saying_userOps env fuel _ (hR tr cs _ h) (hR tr cs _ h)

theorem keeps_readPayloadLoop {env : Env} (hR : Answers env R) (fuel : Nat) (h : Header) (short : Bool) (cap n : Nat) (progress : Int) (acc : List UInt8) :
    Keeps R (readPayloadLoopT env fuel h short cap n progress acc) := by
  induction n generalizing progress acc with
  | zero => unfold readPayloadLoopT; split <;> first | exact .stuck | exact .ret
  | succ n ih =>
    unfold readPayloadLoopT
    split
    · refine .config fun c => ?_
      try dsimp only
      generalize (if c.readBufferSize > h.payloadLength - progress then h.payloadLength - progress else c.readBufferSize) = want
      split
      · exact .read fun _ => .ub
      · refine .read fun r => ?_
        cases r with
        | data bs =>
          try dsimp only
          split
          · exact .ub
          · split
            · exact ih _ _
            · exact (keeps_callListener hR _ _).andThen fun _ => ih _ _
        | retry => exact ih _ _
        | zero => exact .throw
        | broken => exact .throw
    · exact .ret

theorem keeps_readPayload {env : Env} (hR : Answers env R) (fuel : Nat) (h : Header) (short : Bool) : Keeps R (readPayloadT env fuel h short) := by
  unfold readPayloadT
  split
  · exact .throw
  · refine .config fun c => ?_
    try dsimp only
    split
    · exact .throw
    · refine (keeps_readPayloadLoop hR _ _ _ _ _ _ _).andThen fun _ => Keeps.andThen ?_ fun _ => .ret
      unfold endMarkerT
      split
      · exact keeps_callListener hR _ _
      · exact .ret

theorem keeps_check (h : Header) : Keeps R (checkForContinuationT h) := by
  refine .opcode fun v => ?_
  try dsimp only
  split
  · exact .ret
  · split
    · exact .setOpcode fun _ => .ret
    · exact .setOpcode fun _ => .ret

theorem keeps_handleFrame {env : Env} (hR : Answers env R) (fuel : Nat) (h : Header) : Keeps R (handleFrameT env fuel h) := by
  unfold handleFrameT
  split
  · refine .opcode fun v => ?_
    try dsimp only
    split
    · exact .throw
    · exact (keeps_readPayload hR _ _ _).andThen fun _ => .ret
  · split
    · refine (keeps_check h).andThen fun ok => ?_
      cases ok
      · exact .throw
      · exact (keeps_readPayload hR _ _ _).andThen fun _ => .ret
    · split
      · refine (keeps_check h).andThen fun ok => ?_
        cases ok
        · exact .throw
        · exact (keeps_readPayload hR _ _ _).andThen fun _ => .ret
      · split
        · exact (keeps_readPayload hR _ _ _).andThen fun _ => keeps_callListener hR _ _
        · split
          · exact (keeps_readPayload hR _ _ _).andThen fun _ => keeps_callListener hR _ _
          · split
            · exact (keeps_readPayload hR _ _ _).andThen fun _ => keeps_callListener hR _ _
            · exact .throw

theorem keeps_listenLoop {env : Env} (hR : Answers env R) (fuel n : Nat) (h : Header) : Keeps R (listenLoopT env fuel n h) := by
  induction n generalizing h with
  | zero => exact .stuck
  | succ n ih =>
    refine Keeps.andThen ((keeps_readFrameHeader _ _ _).andThen fun h' => (keeps_handleFrame hR _ _).andThen fun _ => .ret) fun h' => ?_
    try dsimp only
    split
    · refine .listening fun b => ?_
      cases b
      · exact .ret
      · exact ih h'
    · exact .ret

theorem keeps_listen {env : Env} (hR : Answers env R) (fuel : Nat) (h : Header) : Keeps R (listenT env fuel h) := by
  intro tr cs hr
  refine Saying.catching fun _ => ?_
  exact ((keeps_listenLoop hR fuel fuel h) tr cs hr).mono (fun _ _ _ h => h) fun tr cs h e => h

/-- The whole session: `pre` has been said before. -/
theorem saying_session (env : Env) (fuel : Nat) (created destroyed : List UserOp) (h : Header) (tr0 : List Event) :
    Saying (fun tr cs => ∃ evs, tr = tr0 ++ evs ∧ cs = said created ++ replies env tr0 evs) (sessionT env fuel created h destroyed) tr0 []
      (fun _ tr cs => ∃ evs, tr = tr0 ++ evs ∧ cs = said created ++ replies env tr0 evs ++ said destroyed) (fun _ _ => True) := by
  refine Saying.andThen (saying_userOps env fuel created ?_ trivial)
  refine Saying.andThen (Saying.mono (keeps_listen (env := env) ?_ fuel h _ _ ⟨[], by simp, by simp [replies]⟩) (fun _ tr cs hr => ?_) fun _ _ _ => trivial)
  · rintro tr cs e ⟨evs, rfl, rfl⟩
    exact ⟨evs ++ [e], by simp, by rw [replies_snoc]; simp [List.append_assoc]⟩
  · obtain ⟨evs, rfl, rfl⟩ := hr
    exact saying_userOps env fuel destroyed ⟨evs, rfl, rfl⟩ trivial

/-- Code without callbacks. -/
def NoCallback {α : Type} : Prog α → Prop
  | .act (.callback _) _ => False
  | .act a k => ∀ r : a.Res, NoCallback (k r)
  | _ => True

theorem By.noCallback {C : Rules} {q : Prog α} {E} (h : By C q E) : NoCallback q := by
  induction q with
  | act a k ih =>
    cases a with
    | callback e => exact h.1.elim
    | _ => exact fun r => ih r (h.2 r)
  | _ => trivial

theorem exec_trace {env : Env} {a : Act} {st st' : St} {r : a.Res} (he : exec env a st = some (r, st')) (h : ∀ e, a ≠ .callback e) : st'.sock.trace = st.sock.trace := by
  cases a with
  | callback e => exact absurd rfl (h e)
  | read n =>
    dsimp only [exec] at he
    split at he
    · cases he
    · injection he with he; injection he with _ he; rw [← he]
  | write d =>
    dsimp only [exec] at he
    split at he
    · cases he
    · split at he <;>
      · injection he with he
        injection he with _ he
        rw [← he]
  | _ =>
    injection he with he
    injection he with _ he
    rw [← he]

/-- What the first thread has said. -/
theorem Pool.Logged.says {env : Env} {p0 p : Pool} {log} (h : Pool.Logged env p0 log p) {K E} {t : Prog Unit} {others : List (Prog Unit)} (hts : p0.threads = t :: others)
    (ht : Saying R t p0.st.sock.trace [] K E) (ho : ∀ q ∈ others, NoCallback q) (hok : ∀ e ∈ log, e.failed = false) :
    ∃ t' others', p.threads = t' :: others' ∧ Saying R t' p.st.sock.trace (callsOf (log.filter fun e => e.task == 0)) K E ∧ ∀ q ∈ others', NoCallback q := by
  induction h with
  | refl => exact ⟨t, others, hts, ht, ho⟩
  | @tail log ts st i a k r st' h hi he ih =>
    obtain ⟨t', others', e1, e2, e3⟩ := ih fun e h => hok e (List.mem_append_left _ h)
    dsimp only at e1 e2 ⊢
    subst e1
    have hf := hok _ (List.mem_append_right _ (List.mem_singleton.mpr rfl))
    rw [List.filter_append]
    cases i with
    | zero =>
      simp only [List.getElem?_cons_zero, Option.some.injEq] at hi
      subst hi
      refine ⟨k r, others', rfl, ?_, e3⟩
      have hfil : [entry 0 a st st'].filter (fun e => e.task == 0) = [entry 0 a st st'] := rfl
      rw [hfil]
      have hc : callsOf (log.filter (fun e => e.task == 0) ++ [entry 0 a st st']) = callsOf (log.filter fun e => e.task == 0) ++ a.called.toList := by
        unfold callsOf
        rw [List.filterMap_append]
        cases a <;> rfl
      rw [hc]
      cases a with
      | call c =>
        injection he with he
        injection he with _ he
        subst he
        exact e2
      | callback e =>
        injection he with he
        injection he with h1 he
        subst he
        subst h1
        rw [show (Act.callback e).called.toList = [] from rfl, List.append_nil]
        exact e2
      | returned b =>
        rw [show (Act.returned b).called.toList = [] from rfl, List.append_nil, exec_trace he (by nofun)]
        refine e2 ?_
        cases b
        · cases hf
        · rfl
      | read n =>
        rw [show (Act.read n).called.toList = [] from rfl, List.append_nil, exec_trace he (by nofun)]
        exact e2.2 r
      | _ =>
        rw [show Option.toList (Act.called _) = [] from rfl, List.append_nil, exec_trace he (by nofun)]
        exact e2 r
    | succ i =>
      have hi : others'[i]? = some (.act a k) := hi
      have hm := e3 _ (List.mem_of_getElem? hi)
      have hnc : ∀ e, a ≠ .callback e := by
        rintro e rfl
        exact hm
      refine ⟨t', others'.set i (k r), rfl, ?_, fun q hq => ?_⟩
      · have hfil : [entry (i + 1) a st st'].filter (fun e => e.task == 0) = [] := rfl
        rw [hfil, List.append_nil, exec_trace he hnc]
        exact e2
      · rcases List.mem_or_eq_of_mem_set hq with h | rfl
        · exact e3 q h
        · cases a with
          | callback e => exact hm.elim
          | _ => exact hm r

end OatWS.Threads
